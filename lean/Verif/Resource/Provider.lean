import Verif.Resource.Props
import Verif.Common.Attr
import Mathlib.Data.List.Perm.Subperm
/-!
# The resource of a provider (C113)

The builders of the three providers collect resources; the builder of tracer providers keeps the first resource of the process in a static and uses it again when a later one
is equal. opentelemetry-sdk/src/trace/provider.rs:405-456, logs/logger_provider.rs:242-271, metrics/meter_provider.rs:249-326
-/

namespace Otel.Resource.Provider
open Rust Common

/-- A resource with the values of attributes. -/
abbrev R := Res Val

/-- `with_resource`. provider.rs:405-412, logger_provider.rs:242-249, meter_provider.rs:249-256 -/
def withResource (cur : Option R) (r : R) : Option R :=
  match cur with
  | some existing => some (existing.merge r)
  | none => some r

/-- A builder after these calls of `with_resource`. -/
def collected (calls : List R) : Option R := calls.foldl withResource none

/-- The resource of a logger or meter provider; `dflt` is `Resource::builder().build()`. logger_provider.rs:253, meter_provider.rs:313-314 -/
def plainBuild (dflt : R) (calls : List R) : R := (collected calls).getD dflt

/-- `==` of resources: maps of the same size with equal values, and equal schema urls. resource/mod.rs:41-52 (derived) -/
def resEq (a b : R) : Bool :=
  decide (a.attrs.length = b.attrs.length) && (a.attrs.all fun p => match b.get p.1 with
    | some v => valEq p.2 v
    | none => false) && decide (a.schemaUrl = b.schemaUrl)

/-- The resource of a tracer provider and the static afterwards. `Config::default` has the default resource (trace/config.rs:36), which a collected one replaces; the public API
never gives it a borrowed one. trace/provider.rs:415-439 -/
def tracerBuild (static_ : Option R) (dflt : R) (calls : List R) : R × Option R :=
  let mine := (collected calls).getD dflt
  let first := static_.getD mine
  (if resEq first mine then first else mine, some first)

/-- The tracer providers of a process, one after the other: for each the default resource of its time and the calls. -/
def tracerBuilds : Option R → List (R × List R) → List R
  | _, [] => []
  | s, (dflt, calls) :: rest => (tracerBuild s dflt calls).1 :: tracerBuilds (tracerBuild s dflt calls).2 rest

/-! ## Specification -/

/-- The resource has, for every key, what the last of the given resources with this key has. -/
def LastGives (calls : List R) (r : R) : Prop :=
  ∀ k v, r.get k = some v ↔ ∃ pre a post, calls = pre ++ a :: post ∧ a.get k = some v ∧ ∀ b ∈ post, b.get k = none

/-- What a provider is to have: the default if nothing was given, else the given ones together. -/
def Right (dflt : R) (calls : List R) (r : R) : Prop := (calls = [] → Same r dflt) ∧ (calls ≠ [] → LastGives calls r)

/-- No value is a zero of a floating point type. -/
def NoZero (r : R) : Prop := ∀ k v, r.get k = some v → ZeroFree v

/-! ## Lemmas -/

theorem collected_append (calls : List R) (r : R) : collected (calls ++ [r]) = withResource (collected calls) r := by simp [collected]

theorem wf_collected (calls : List R) (h : ∀ a ∈ calls, Wf a) : ∀ r, collected calls = some r → Wf r := by
  induction calls using List.reverseRecOn with
  | nil => intro r hr; cases hr
  | append_singleton l a ih =>
    intro r hr
    rw [collected_append] at hr
    cases hc : collected l with
    | none => rw [hc] at hr; injection hr with hr; subst hr; exact h a (by simp)
    | some e =>
      rw [hc] at hr; injection hr with hr; subst hr
      exact wf_merge (ih (fun b hb => h b (by simp [hb])) e hc) (h a (by simp))

theorem collected_none {calls : List R} : collected calls = none ↔ calls = [] := by
  induction calls using List.reverseRecOn with
  | nil => simp [collected]
  | append_singleton l a ih =>
    rw [collected_append]
    cases collected l <;> simp [withResource]

theorem collected_last (calls : List R) (h : ∀ a ∈ calls, Wf a) : ∀ r, collected calls = some r → LastGives calls r := by
  induction calls using List.reverseRecOn with
  | nil => intro r hr; cases hr
  | append_singleton l a ih =>
    intro r hr k v
    rw [collected_append] at hr
    have split : (∃ pre b post, l ++ [a] = pre ++ b :: post ∧ b.get k = some v ∧ ∀ c ∈ post, c.get k = none) ↔
        a.get k = some v ∨ (a.get k = none ∧ ∃ pre b post, l = pre ++ b :: post ∧ b.get k = some v ∧ ∀ c ∈ post, c.get k = none) := by
      constructor
      · rintro ⟨pre, b, post, he, hb, hp⟩
        rcases List.eq_nil_or_concat post with rfl | ⟨q, c, rfl⟩
        · obtain ⟨_, h2⟩ := List.append_inj' he rfl
          injection h2 with h2; subst h2; exact .inl hb
        · rw [List.concat_eq_append, ← List.cons_append, ← List.append_assoc] at he
          obtain ⟨h1, h2⟩ := List.append_inj' he rfl
          injection h2 with h2; subst h2
          refine .inr ⟨hp _ (by simp), pre, b, q, h1, hb, fun c hc => hp c (by simp [hc])⟩
      · rintro (ha | ⟨ha, pre, b, post, he, hb, hp⟩)
        · exact ⟨l, a, [], rfl, ha, by simp⟩
        · refine ⟨pre, b, post ++ [a], by rw [he]; simp, hb, fun c hc => ?_⟩
          rcases List.mem_append.1 hc with hc | hc
          · exact hp c hc
          · rw [List.mem_singleton.1 hc]; exact ha
    rw [split]
    cases hc : collected l with
    | none =>
      rw [hc] at hr; injection hr with hr; subst hr
      have hl := collected_none.1 hc
      subst hl
      constructor
      · exact fun h => .inl h
      · rintro (h | ⟨_, pre, b, post, he, _⟩)
        · exact h
        · simp at he
    | some e =>
      rw [hc] at hr; injection hr with hr; subst hr
      have hi := ih (fun b hb => h b (by simp [hb])) e hc k v
      rw [merge_get_aux e a (h a (by simp)) k, ← hi]
      cases ha : a.get k with
      | none => simp
      | some w => simp

/-- Equal resources have the same keys, with equal values, and the same url. -/
theorem resEq_get {a b : R} (ha : Wf a) (hb : Wf b) (h : resEq a b = true) :
    a.schemaUrl = b.schemaUrl ∧ ∀ k, (a.get k = none ∧ b.get k = none) ∨ ∃ v w, a.get k = some v ∧ b.get k = some w ∧ valEq v w = true := by
  simp only [resEq, Bool.and_eq_true, decide_eq_true_eq, List.all_eq_true] at h
  obtain ⟨⟨hl, hall⟩, hu⟩ := h
  have hk : ∀ k v, a.get k = some v → ∃ w, b.get k = some w ∧ valEq v w = true := by
    intro k v hv
    have := hall _ (Assoc.mem_of_get hv)
    simp only at this
    split at this
    · rename_i w hw; exact ⟨w, hw, this⟩
    · cases this
  refine ⟨hu, fun k => ?_⟩
  cases hka : a.get k with
  | some v =>
    obtain ⟨w, hw, he⟩ := hk k v hka
    exact .inr ⟨v, w, rfl, hw, he⟩
  | none =>
    refine .inl ⟨rfl, ?_⟩
    have hsub : (a.attrs.map Prod.fst) ⊆ (b.attrs.map Prod.fst) := by
      intro k' hk'
      obtain ⟨v, hv⟩ := Option.isSome_iff_exists.1 (Assoc.get_isSome.2 hk')
      obtain ⟨w, hw, _⟩ := hk k' v hv
      exact Assoc.get_isSome.1 (by show (b.get k').isSome = true; rw [hw]; rfl)
    have hperm := (List.Nodup.subperm ha hsub).perm_of_length_le (by simp [hl])
    cases hkb : b.get k with
    | none => rfl
    | some w =>
      have : k ∈ a.attrs.map Prod.fst := hperm.symm.subset (Assoc.get_isSome.1 (by show (b.get k).isSome = true; rw [hkb]; rfl))
      have := Assoc.get_isSome.2 this
      have h2 : Assoc.get a.attrs k = none := hka
      rw [h2] at this
      cases this

theorem resEq_same {a b : R} (ha : Wf a) (hb : Wf b) (h : resEq a b = true) (hz : NoZero b) : Same a b := by
  obtain ⟨hu, hk⟩ := resEq_get ha hb h
  refine ⟨fun k => ?_, hu⟩
  rcases hk k with ⟨h1, h2⟩ | ⟨v, w, h1, h2, h3⟩
  · rw [h1, h2]
  · rw [h1, h2, ← valEq_eq (valEq_symm h3) (hz k w h2)]

theorem wf_mine {dflt : R} {calls : List R} (hd : Wf dflt) (hc : ∀ a ∈ calls, Wf a) : Wf ((collected calls).getD dflt) := by
  cases h : collected calls with
  | none => exact hd
  | some r => exact wf_collected calls hc r h

theorem wf_static {static_ : Option R} {dflt : R} {calls : List R} (hs : ∀ r, static_ = some r → Wf r) (hd : Wf dflt) (hc : ∀ a ∈ calls, Wf a) :
    ∀ r, (tracerBuild static_ dflt calls).2 = some r → Wf r := by
  intro r hr
  injection hr with hr; subst hr
  cases static_ with
  | none => exact wf_mine hd hc
  | some s => exact hs s rfl

theorem right_same {dflt : R} {calls : List R} {r r' : R} (h : Same r r') (hr : Right dflt calls r') : Right dflt calls r :=
  ⟨fun e => ⟨fun k => by rw [h.1, (hr.1 e).1], by rw [h.2, (hr.1 e).2]⟩, fun e k v => by rw [h.1]; exact hr.2 e k v⟩

/-! ## Theorems -/

/-- **C113** A logger or meter provider has the default resource if its builder was given none, otherwise the given ones merged: of every key the value that the last
resource with this key has. -/
theorem provider_resource {dflt : R} {calls : List R} (hc : ∀ a ∈ calls, Wf a) : Right dflt calls (plainBuild dflt calls) := by
  refine ⟨fun e => ?_, fun e => ?_⟩
  · subst e; exact ⟨fun _ => rfl, rfl⟩
  · cases h : collected calls with
    | none => exact absurd (collected_none.1 h) e
    | some r => simp only [plainBuild, h, Option.getD_some]; exact collected_last calls hc r h

/-- **C113** The urls: with one call it is that of the resource, with more calls they are merged from left to right. -/
theorem provider_resource_url {dflt : R} (a : R) (calls : List R) :
    (plainBuild dflt (a :: calls)).schemaUrl = calls.foldl (fun u r => mergeUrl u r.schemaUrl) a.schemaUrl := by
  have : ∀ (calls : List R) (e : R), (calls.foldl withResource (some e)).map Res.schemaUrl = some (calls.foldl (fun u r => mergeUrl u r.schemaUrl) e.schemaUrl) := by
    intro calls
    induction calls with
    | nil => intro e; rfl
    | cons b l ih => intro e; rw [List.foldl_cons, List.foldl_cons, withResource, ih, merge_schema_aux]
  have h := this calls a
  simp only [plainBuild, collected, List.foldl_cons, withResource]
  cases hc : calls.foldl withResource (some a) with
  | none => rw [hc] at h; cases h
  | some r => rw [hc] at h; injection h

/-- **C113** (partial) So has each tracer provider of a process, whatever tracer providers were built before, if none of its values is a zero of a floating point type. -/
theorem tracer_resource_partial {builds : List (R × List R)} (hw : ∀ b ∈ builds, Wf b.1 ∧ ∀ a ∈ b.2, Wf a) {n : Nat} {dflt : R} {calls : List R}
    (hn : builds[n]? = some (dflt, calls)) (hz : NoZero (plainBuild dflt calls)) : ∃ r, (tracerBuilds none builds)[n]? = some r ∧ Right dflt calls r := by
  have : ∀ (builds : List (R × List R)) (s : Option R) (n : Nat), (∀ r, s = some r → Wf r) → (∀ b ∈ builds, Wf b.1 ∧ ∀ a ∈ b.2, Wf a) → builds[n]? = some (dflt, calls) →
      ∃ r, (tracerBuilds s builds)[n]? = some r ∧ Right dflt calls r := by
    intro builds
    induction builds with
    | nil => intro s n _ _ h; simp at h
    | cons b l ih =>
      obtain ⟨d, cs⟩ := b
      intro s n hs hw hn
      cases n with
      | zero =>
        simp only [List.getElem?_cons_zero, Option.some.injEq, Prod.mk.injEq] at hn
        obtain ⟨rfl, rfl⟩ := hn
        obtain ⟨h1, h2⟩ := hw _ List.mem_cons_self
        refine ⟨_, rfl, right_same ?_ (provider_resource h2)⟩
        simp only [tracerBuild]
        split
        · rename_i he
          cases s with
          | none => exact ⟨fun _ => rfl, rfl⟩
          | some s => exact resEq_same (hs s rfl) (wf_mine h1 h2) he hz
        · exact ⟨fun _ => rfl, rfl⟩
      | succ n =>
        obtain ⟨h1, h2⟩ := hw _ List.mem_cons_self
        exact ih _ n (wf_static hs h1 h2) (fun b hb => hw b (List.mem_cons_of_mem _ hb)) (by simpa using hn)
  exact this builds none n (fun _ h => by cases h) hw hn

/-- **C113** With zeroes it has the same keys and url, and values that are equal for `==`. -/
theorem tracer_resource_equal {builds : List (R × List R)} (hw : ∀ b ∈ builds, Wf b.1 ∧ ∀ a ∈ b.2, Wf a) {n : Nat} {dflt : R} {calls : List R}
    (hn : builds[n]? = some (dflt, calls)) : ∃ r, (tracerBuilds none builds)[n]? = some r ∧ r.schemaUrl = (plainBuild dflt calls).schemaUrl ∧
      ∀ k, r.get k = (plainBuild dflt calls).get k ∨ ∃ v w, r.get k = some v ∧ (plainBuild dflt calls).get k = some w ∧ valEq v w = true := by
  have : ∀ (builds : List (R × List R)) (s : Option R) (n : Nat), (∀ r, s = some r → Wf r) → (∀ b ∈ builds, Wf b.1 ∧ ∀ a ∈ b.2, Wf a) → builds[n]? = some (dflt, calls) →
      ∃ r, (tracerBuilds s builds)[n]? = some r ∧ r.schemaUrl = (plainBuild dflt calls).schemaUrl ∧
        ∀ k, r.get k = (plainBuild dflt calls).get k ∨ ∃ v w, r.get k = some v ∧ (plainBuild dflt calls).get k = some w ∧ valEq v w = true := by
    intro builds
    induction builds with
    | nil => intro s n _ _ h; simp at h
    | cons b l ih =>
      obtain ⟨d, cs⟩ := b
      intro s n hs hw hn
      cases n with
      | zero =>
        simp only [List.getElem?_cons_zero, Option.some.injEq, Prod.mk.injEq] at hn
        obtain ⟨rfl, rfl⟩ := hn
        obtain ⟨h1, h2⟩ := hw _ List.mem_cons_self
        refine ⟨_, rfl, ?_⟩
        simp only [tracerBuild]
        split
        · rename_i he
          cases s with
          | none => exact ⟨rfl, fun _ => .inl rfl⟩
          | some s =>
            obtain ⟨hu, hk⟩ := resEq_get (hs s rfl) (wf_mine h1 h2) he
            refine ⟨hu, fun k => ?_⟩
            rcases hk k with ⟨a1, a2⟩ | h3
            · exact .inl (a1.trans a2.symm)
            · exact .inr h3
        · exact ⟨rfl, fun _ => .inl rfl⟩
      | succ n =>
        obtain ⟨h1, h2⟩ := hw _ List.mem_cons_self
        exact ih _ n (wf_static hs h1 h2) (fun b hb => hw b (List.mem_cons_of_mem _ hb)) (by simpa using hn)
  exact this builds none n (fun _ h => by cases h) hw hn

/-- A resource with one attribute. -/
def single (v : Val) : R := ⟨[("a".toList, v)], none⟩

/-- **C113** The condition is needed: after a provider with the attribute `0.0`, one that is given `-0.0` has `0.0`. -/
theorem tracer_resource_violated : ∃ (builds : List (R × List R)) (dflt : R) (calls : List R) (r : R), (∀ b ∈ builds, Wf b.1 ∧ ∀ a ∈ b.2, Wf a) ∧
    builds[1]? = some (dflt, calls) ∧ (tracerBuilds none builds)[1]? = some r ∧ ¬ Right dflt calls r := by
  refine ⟨[(Res.empty, [single (.float 0)]), (Res.empty, [single (.float 0x8000000000000000)])], Res.empty, [single (.float 0x8000000000000000)], single (.float 0), ?_, rfl, ?_, ?_⟩
  · intro b hb
    rcases List.mem_cons.1 hb with rfl | hb
    · exact ⟨wf_empty, fun a ha => by rw [List.mem_singleton.1 ha]; simp [Wf, single]⟩
    · rw [List.mem_singleton.1 hb]
      exact ⟨wf_empty, fun a ha => by rw [List.mem_singleton.1 ha]; simp [Wf, single]⟩
  · rfl
  · intro h
    have := (h.2 (by simp) "a".toList (.float 0)).1 rfl
    obtain ⟨pre, a, post, he, ha, _⟩ := this
    have hm : a ∈ [single (.float 0x8000000000000000)] := by rw [he]; simp
    rw [List.mem_singleton.1 hm] at ha
    have : (single (.float 0x8000000000000000)).get "a".toList = some (.float 0x8000000000000000) := rfl
    rw [this] at ha
    simp at ha

/-- The hypotheses of C113 are met: the third provider of a process, with two resources that both have the attribute. -/
example : ∃ (builds : List (R × List R)) (r : R), (∀ b ∈ builds, Wf b.1 ∧ ∀ a ∈ b.2, Wf a) ∧ NoZero (plainBuild Res.empty [single (.int 1), single (.int 2)]) ∧
    builds[2]? = some (Res.empty, [single (.int 1), single (.int 2)]) ∧ (tracerBuilds none builds)[2]? = some r ∧ r.get "a".toList = some (.int 2) := by
  refine ⟨[(Res.empty, [single (.int 2)]), (Res.empty, []), (Res.empty, [single (.int 1), single (.int 2)])], single (.int 2), ?_, ?_, rfl, rfl, rfl⟩
  · intro b hb
    have hs : ∀ v, Wf (single v) := fun v => by simp [Wf, single]
    simp only [List.mem_cons, List.not_mem_nil, or_false] at hb
    rcases hb with rfl | rfl | rfl
    · exact ⟨wf_empty, fun a ha => by rw [List.mem_singleton.1 ha]; exact hs _⟩
    · exact ⟨wf_empty, fun a ha => by simp at ha⟩
    · refine ⟨wf_empty, fun a ha => ?_⟩
      simp only [List.mem_cons, List.not_mem_nil, or_false] at ha
      rcases ha with rfl | rfl <;> exact hs _
  · intro k v hv
    have : plainBuild Res.empty [single (.int 1), single (.int 2)] = single (.int 2) := rfl
    rw [this] at hv
    have := Assoc.mem_of_get hv
    simp only [single, List.mem_singleton, Prod.mk.injEq] at this
    rw [this.2]
    trivial

end Otel.Resource.Provider
