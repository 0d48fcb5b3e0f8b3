import Mathlib.Data.List.Nodup
import Verif.Metrics.Instruments
/-!
# Property C47: instruments are identified case-insensitively and once
-/

namespace Otel.Metrics.Inst
open Rust (Str F64)

/-! ## Specification -/

/-- What identifies a stream: its scope, its name without regard to ASCII case, description, unit, kind and number type. -/
def identity (scope : Scope) (kind : Kind) (number : NumKind) (name description unit : Str) : Scope × Kind × NumKind × Str × Str × Str :=
  (scope, kind, number, name.map asciiLower, description, unit)

/-- The identity of what a reader collects. -/
def Sync.identity (y : Sync) := Inst.identity y.scope y.kind y.number y.name y.description y.unit

/-- The streams an instrument yields: one per matching view, or the default one. -/
def streamsOf (views : List View) (inst : Instrument) (boundaries : Option (List F64)) (limit : Option Nat) : List Stream :=
  match views.filterMap (fun v => v inst) with
  | [] => [{ name := inst.name, description := inst.description, unit := inst.unit, aggregation := boundaries.map (.explicitBucketHistogram · true)
             allowedKeys := none, cardinalityLimit := limit }]
  | l => l

/-- The identity of a stream of an instrument. -/
def streamIdentity (r : Request) (kind : Kind) (s : Stream) := Inst.identity r.inst.scope kind r.number s.name s.description s.unit

/-- A pipeline of a provider, after any requests. -/
def Reach (views : List View) (temp : Kind → Temporality) (p : Pipe) : Prop := ∃ rs, p = runRequests views temp .init rs

/-! ## Lemmas -/

theorem lookup_append {α β : Type} [DecidableEq α] (k : α) (l r : List (α × β)) :
    lookup k (l ++ r) = (lookup k l).or (lookup k r) := by
  induction l with
  | nil => simp [lookup]
  | cons x l ih =>
    obtain ⟨a, b⟩ := x
    simp only [List.cons_append, lookup]
    split
    · rfl
    · exact ih

theorem lookup_mem {α β : Type} [DecidableEq α] {k : α} {b : β} {l : List (α × β)} (h : lookup k l = some b) : (k, b) ∈ l := by
  induction l with
  | nil => cases h
  | cons x l ih =>
    obtain ⟨a, c⟩ := x
    unfold lookup at h
    split at h
    · rename_i he; subst he; injection h with h; subst h; exact List.mem_cons_self
    · exact List.mem_cons_of_mem _ (ih h)

theorem normalize_name (i : Id) : i.normalize.name = i.name.map asciiLower := by
  unfold Id.normalize
  split
  · rfl
  · rename_i h
    have : ∀ c ∈ i.name, asciiLower c = c := by
      intro c hc
      unfold asciiLower
      rw [if_neg]
      intro hu
      exact h (List.any_eq_true.2 ⟨c, hc, hu⟩)
    conv_lhs => rw [← List.map_id i.name]
    exact List.map_congr_left fun c hc => (this c hc).symm

theorem normalize_rest (i : Id) : i.normalize.description = i.description ∧ i.normalize.kind = i.kind ∧ i.normalize.unit = i.unit ∧
    i.normalize.number = i.number := by
  unfold Id.normalize; split <;> exact ⟨rfl, rfl, rfl, rfl⟩

/-- The key of a stream in the cache. -/
def key (scope : Scope) (kind : Kind) (number : NumKind) (s : Stream) : Scope × Id := (scope, (instId kind s number).normalize)

theorem key_eq_iff (sc sc' : Scope) (k k' : Kind) (n n' : NumKind) (s s' : Stream) :
    key sc k n s = key sc' k' n' s' ↔ identity sc k n s.name s.description s.unit = identity sc' k' n' s'.name s'.description s'.unit := by
  unfold key identity
  have h1 := normalize_rest (instId k s n)
  have h2 := normalize_rest (instId k' s' n')
  have n1 := normalize_name (instId k s n)
  have n2 := normalize_name (instId k' s' n')
  constructor
  · intro h
    obtain ⟨ha, hb⟩ := Prod.mk.inj h
    rw [hb] at h1 n1
    simp only [instId] at h1 h2 n1 n2
    rw [ha]
    obtain ⟨a1, a2, a3, a4⟩ := h1
    obtain ⟨b1, b2, b3, b4⟩ := h2
    simp only [Prod.mk.injEq]
    exact ⟨trivial, a2.symm.trans b2, a4.symm.trans b4, n1.symm.trans n2, a1.symm.trans b1, a3.symm.trans b3⟩
  · intro h
    simp only [Prod.mk.injEq] at h
    obtain ⟨e1, e2, e3, e4, e5, e6⟩ := h
    rw [e1]
    congr 1
    have ext : ∀ a b : Id, a.name = b.name → a.description = b.description → a.kind = b.kind → a.unit = b.unit → a.number = b.number → a = b := by
      intro a b; cases a; cases b; simp only; rintro rfl rfl rfl rfl rfl; rfl
    apply ext
    · rw [n1, n2]; exact e4
    · rw [h1.1, h2.1]; exact e5
    · rw [h1.2.1, h2.2.1]; exact e2
    · rw [h1.2.2.1, h2.2.2.1]; exact e6
    · rw [h1.2.2.2, h2.2.2.2]; exact e3

/-- The key a sync was made for. -/
def syncKey (y : Sync) : Scope × Id := key y.scope y.kind y.number ⟨y.name, y.description, y.unit, none, none, none⟩

structure Inv (p : Pipe) : Prop where
  keys : (p.cache.map Prod.fst).Nodup
  aggs : p.syncs.map Sync.agg = List.range p.next
  feed : ∀ k a, lookup k p.cache = some (some (some a)) ↔ ∃ y ∈ p.syncs, y.agg = a ∧ syncKey y = k
  noErr : ∀ k, lookup k p.cache ≠ some none

theorem Inv.init : Inv .init := by
  constructor
  · simp [Pipe.init]
  · simp [Pipe.init]
  · intro k a; simp [Pipe.init, lookup]
  · intro k; simp [Pipe.init, lookup]

theorem aggregateFn_ok (kind : Kind) (a : Aggregation) (h : compatible kind a = true) : aggregateFn kind a ≠ none := by
  cases kind <;> cases a <;> first | (intro h'; cases h'; done) | (cases h; done) | skip

/-- An aggregation is dropped only if it asks for it. -/
theorem aggregateFn_drop (kind : Kind) (a : Aggregation) (h : aggregateFn kind a = some none) : a = .drop := by
  cases kind <;> cases a <;> first | rfl | (cases h; done)

theorem not_mem_of_lookup_none {α β : Type} [DecidableEq α] {k : α} {l : List (α × β)} (h : lookup k l = none) : k ∉ l.map Prod.fst := by
  induction l with
  | nil => simp
  | cons x l ih =>
    obtain ⟨a, b⟩ := x
    unfold lookup at h
    split at h
    · cases h
    · rename_i hne
      rw [List.map_cons, List.mem_cons]
      rintro (h1 | h1)
      · exact hne h1.symm
      · exact ih h h1

/-- What `cached_aggregator` does. -/
theorem cached_spec (temp : Kind → Temporality) (number : NumKind) (p : Pipe) (scope : Scope) (kind : Kind) (s : Stream) (hp : Inv p) :
    Inv (cachedAggregator temp number p scope kind s).1 ∧
    (∀ k r, lookup k p.cache = some r → lookup k (cachedAggregator temp number p scope kind s).1.cache = some r) ∧
    (∃ l, (cachedAggregator temp number p scope kind s).1.syncs = p.syncs ++ l) ∧
    (compatible kind (resolved kind s) = false → (cachedAggregator temp number p scope kind s).2 = none) ∧
    (compatible kind (resolved kind s) = true →
      ∃ r, (cachedAggregator temp number p scope kind s).2 = some r ∧
        lookup (key scope kind number s) (cachedAggregator temp number p scope kind s).1.cache = some (some r) ∧
        (r = none → resolved kind s = .drop ∨ lookup (key scope kind number s) p.cache = some (some none)) ∧
        (lookup (key scope kind number s) p.cache = none → ∀ a, r = some a → ∃ y ∈ (cachedAggregator temp number p scope kind s).1.syncs,
          y.agg = a ∧ y.built ∈ (aggregateFn kind (resolved kind s)).join ∧ y.allowedKeys = s.allowedKeys ∧ y.temporality = temp kind ∧
          y.limit = s.cardinalityLimit.getD defaultLimit ∧ y.name = s.name)) := by
  unfold cachedAggregator
  dsimp only
  by_cases hc : compatible kind (resolved kind s) = false
  · rw [if_pos hc]
    exact ⟨hp, fun _ _ h => h, ⟨[], by simp⟩, fun _ => rfl, fun h => (by rw [hc] at h; cases h)⟩
  · rw [if_neg hc]
    have hct : compatible kind (resolved kind s) = true := by cases h : compatible kind (resolved kind s) <;> simp_all
    have hkey : (scope, (instId kind s number).normalize) = key scope kind number s := rfl
    rw [hkey]
    cases hl : lookup (key scope kind number s) p.cache with
    | some r =>
      dsimp only
      refine ⟨hp, fun _ _ h => h, ⟨[], by simp⟩, fun h => absurd h hc, fun _ => ?_⟩
      cases r with
      | none => exact absurd hl (hp.noErr _)
      | some r => exact ⟨r, rfl, hl, fun h => Or.inr (by rw [h]), fun h => (by cases h)⟩
    | none =>
      dsimp only
      have hnot := not_mem_of_lookup_none hl
      have hext : ∀ (v : Option (Option Nat)) (k : Scope × Id) (r : Option (Option Nat)), lookup k p.cache = some r →
          lookup k (p.cache ++ [(key scope kind number s, v)]) = some r := by
        intro v k r h; rw [lookup_append, h]; rfl
      have hkeys : ∀ v : Option (Option Nat), ((p.cache ++ [(key scope kind number s, v)]).map Prod.fst).Nodup := by
        intro v
        rw [List.map_append, List.nodup_append]
        refine ⟨hp.keys, by simp, ?_⟩
        intro a ha b hb
        simp only [List.map_cons, List.map_nil, List.mem_singleton] at hb
        rintro rfl
        exact hnot (hb ▸ ha)
      have hnew : ∀ v : Option (Option Nat), lookup (key scope kind number s) (p.cache ++ [(key scope kind number s, v)]) = some v := by
        intro v; rw [lookup_append, hl]; simp [lookup]
      have hold : ∀ (v : Option (Option Nat)) k, k ≠ key scope kind number s → lookup k (p.cache ++ [(key scope kind number s, v)]) = lookup k p.cache := by
        intro v k hk
        rw [lookup_append]
        have : lookup k [(key scope kind number s, v)] = none := by simp [lookup, Ne.symm hk]
        rw [this]; simp
      cases ha : aggregateFn kind (resolved kind s) with
      | none => exact absurd ha (aggregateFn_ok kind _ hct)
      | some o =>
        cases o with
        | none =>
          dsimp only
          refine ⟨⟨hkeys _, hp.aggs, ?_, ?_⟩, hext _, ⟨[], by simp⟩, fun h => absurd h hc, fun _ => ⟨none, rfl, hnew _, fun _ => Or.inl (aggregateFn_drop kind _ ha), fun _ a h => (by cases h)⟩⟩
          · intro k a
            by_cases hk : k = key scope kind number s
            · subst hk
              rw [hnew, ← hp.feed, hl]; simp
            · rw [hold _ _ hk]; exact hp.feed k a
          · intro k
            by_cases hk : k = key scope kind number s
            · subst hk; rw [hnew]; simp
            · rw [hold _ _ hk]; exact hp.noErr k
        | some b =>
          dsimp only
          refine ⟨⟨hkeys _, ?_, ?_, ?_⟩, hext _, ⟨_, rfl⟩, fun h => absurd h hc, fun _ => ⟨some p.next, rfl, hnew _, fun h => (by cases h), ?_⟩⟩
          · rw [List.map_append, hp.aggs, List.range_succ]; rfl
          · intro k a
            have hlt : ∀ y ∈ p.syncs, y.agg < p.next := by
              intro y hy
              have : y.agg ∈ p.syncs.map Sync.agg := List.mem_map_of_mem hy
              rw [hp.aggs] at this
              exact List.mem_range.1 this
            by_cases hk : k = key scope kind number s
            · subst hk
              rw [hnew]
              constructor
              · intro h
                injection h with h; injection h with h; injection h with h
                subst h
                exact ⟨_, List.mem_append_right _ List.mem_cons_self, rfl, rfl⟩
              · rintro ⟨y, hy, hya, hyk⟩
                rcases List.mem_append.1 hy with hy | hy
                · have := (hp.feed _ a).2 ⟨y, hy, hya, hyk⟩
                  rw [hl] at this; cases this
                · simp only [List.mem_singleton] at hy
                  subst hy
                  dsimp only at hya
                  rw [hya]
            · rw [hold _ _ hk, hp.feed]
              constructor
              · rintro ⟨y, hy, h⟩; exact ⟨y, List.mem_append_left _ hy, h⟩
              · rintro ⟨y, hy, h1, h2⟩
                rcases List.mem_append.1 hy with hy | hy
                · exact ⟨y, hy, h1, h2⟩
                · simp only [List.mem_singleton] at hy
                  subst hy
                  exact absurd h2.symm hk
          · intro k
            by_cases hk : k = key scope kind number s
            · subst hk; rw [hnew]; simp
            · rw [hold _ _ hk]; exact hp.noErr k
          · intro _ a h
            injection h with h
            subst h
            refine ⟨_, List.mem_append_right _ List.mem_cons_self, rfl, ?_, rfl, rfl, rfl, rfl⟩
            rfl

/-- The state of the loop over the views, after the streams `done`. -/
structure LoopInv (scope : Scope) (kind : Kind) (number : NumKind) (done : List Stream) (p : Pipe) (seen : List Id) (ms : List Nat) (err : Bool) : Prop where
  inv : Inv p
  from_ : ∀ a ∈ ms, ∃ s ∈ done, lookup (key scope kind number s) p.cache = some (some (some a))
  seen_ : ∀ id ∈ seen, ∃ s ∈ done, compatible kind (resolved kind s) = true ∧ instId kind s number = id ∧
    ∃ a ∈ ms, lookup (key scope kind number s) p.cache = some (some (some a))
  seenMs : ∀ s ∈ done, ∀ a ∈ ms, lookup (key scope kind number s) p.cache = some (some (some a)) → ∃ s' ∈ done, key scope kind number s' = key scope kind number s ∧ instId kind s' number ∈ seen
  ok : err = false → ∀ s ∈ done, (instId kind s number ∈ seen ∨ compatible kind (resolved kind s) = true) ∧ ∃ r, lookup (key scope kind number s) p.cache = some (some r) ∧ ∀ a, r = some a → a ∈ ms
  bad : err = true → ∃ s ∈ done, compatible kind (resolved kind s) = false
  nodup : (∀ s ∈ done, ∀ s' ∈ done, key scope kind number s = key scope kind number s' → instId kind s number = instId kind s' number) → ms.Nodup

theorem key_of_instId {scope : Scope} {kind : Kind} {number : NumKind} {s s' : Stream} (h : instId kind s number = instId kind s' number) :
    key scope kind number s = key scope kind number s' := by
  unfold key; rw [h]

theorem viewLoop_spec (temp : Kind → Temporality) (number : NumKind) (inst : Instrument) (kind : Kind) (views : List View) (p : Pipe) (seen : List Id)
    (ms : List Nat) (matched err : Bool) (done : List Stream) (h : LoopInv inst.scope kind number done p seen ms err) :
    ∃ seen', LoopInv inst.scope kind number (done ++ views.filterMap (fun v => v inst)) (viewLoop temp number inst kind views p seen ms matched err).1 seen'
        (viewLoop temp number inst kind views p seen ms matched err).2.1 (viewLoop temp number inst kind views p seen ms matched err).2.2.2 ∧
      (viewLoop temp number inst kind views p seen ms matched err).2.2.1 = (matched || !(views.filterMap (fun v => v inst)).isEmpty) ∧
      (∀ k r, lookup k p.cache = some r → lookup k (viewLoop temp number inst kind views p seen ms matched err).1.cache = some r) ∧
      (∃ l, (viewLoop temp number inst kind views p seen ms matched err).1.syncs = p.syncs ++ l) := by
  induction views generalizing p seen ms matched err done with
  | nil => exact ⟨seen, by simpa [viewLoop] using h, by simp [viewLoop], fun _ _ h => h, [], by simp [viewLoop]⟩
  | cons v vs ih =>
    unfold viewLoop
    cases hv : v inst with
    | none => simpa [List.filterMap_cons, hv] using ih p seen ms matched err done h
    | some s =>
      dsimp only
      rw [List.filterMap_cons, hv]
      dsimp only
      rw [show done ++ s :: vs.filterMap (fun v => v inst) = (done ++ [s]) ++ vs.filterMap (fun v => v inst) by simp]
      by_cases hs : instId kind s number ∈ seen
      · rw [if_pos hs]
        obtain ⟨s₀, hs₀, hc₀, he₀, a₀, ha₀, hl₀⟩ := h.seen_ _ hs
        have hk : key inst.scope kind number s = key inst.scope kind number s₀ := key_of_instId he₀.symm
        obtain ⟨seen', h1, h2, h3, h4⟩ := ih p seen ms true err (done ++ [s]) {
          inv := h.inv
          from_ := fun a ha => by
            obtain ⟨s', hs', hl⟩ := h.from_ a ha
            exact ⟨s', List.mem_append_left _ hs', hl⟩
          seen_ := fun id hid => by
            obtain ⟨s', hs', hl⟩ := h.seen_ id hid
            exact ⟨s', List.mem_append_left _ hs', hl⟩
          seenMs := fun s' hs' a ha hl => by
            rcases List.mem_append.1 hs' with hs' | hs'
            · obtain ⟨s'', h1, h2⟩ := h.seenMs s' hs' a ha hl
              exact ⟨s'', List.mem_append_left _ h1, h2⟩
            · simp only [List.mem_singleton] at hs'
              subst hs'
              exact ⟨s₀, List.mem_append_left _ hs₀, hk.symm, he₀ ▸ hs⟩
          ok := fun he s' hs' => by
            rcases List.mem_append.1 hs' with hs' | hs'
            · exact h.ok he s' hs'
            · simp only [List.mem_singleton] at hs'
              subst hs'
              refine ⟨Or.inl hs, some a₀, ?_, ?_⟩
              · rw [hk]; exact hl₀
              · intro a ha; injection ha with ha; subst ha; exact ha₀
          bad := fun he => by
            obtain ⟨s', hs', hl⟩ := h.bad he
            exact ⟨s', List.mem_append_left _ hs', hl⟩
          nodup := fun hd => h.nodup fun a ha b hb => hd a (List.mem_append_left _ ha) b (List.mem_append_left _ hb) }
        exact ⟨seen', h1, by rw [h2]; simp, h3, h4⟩
      · rw [if_neg hs]
        obtain ⟨c1, c2, ⟨l₁, c3⟩, c4, c5⟩ := cached_spec temp number p inst.scope kind s h.inv
        generalize hca : cachedAggregator temp number p inst.scope kind s = ca at c1 c2 c3 c4 c5
        obtain ⟨p', res⟩ := ca
        dsimp only at c1 c2 c3 c4 c5
        cases res with
        | none =>
          dsimp only
          have hinc : compatible kind (resolved kind s) = false := by
            cases hcc : compatible kind (resolved kind s) with
            | false => rfl
            | true => obtain ⟨r, hr, _⟩ := c5 hcc; cases hr
          have hp' : p' = p := by
            have h0 : cachedAggregator temp number p inst.scope kind s = (p, none) := by
              unfold cachedAggregator; dsimp only; rw [if_pos hinc]
            rw [h0] at hca
            exact (Prod.mk.inj hca).1.symm
          subst hp'
          obtain ⟨seen', h1, h2, h3, h4⟩ := ih p' seen ms true true (done ++ [s]) {
            inv := h.inv
            from_ := fun a ha => by
              obtain ⟨s', hs', hl⟩ := h.from_ a ha
              exact ⟨s', List.mem_append_left _ hs', hl⟩
            seen_ := fun id hid => by
              obtain ⟨s', hs', hl⟩ := h.seen_ id hid
              exact ⟨s', List.mem_append_left _ hs', hl⟩
            seenMs := fun s' hs' a ha hl => by
              rcases List.mem_append.1 hs' with hs' | hs'
              · obtain ⟨s'', h1, h2⟩ := h.seenMs s' hs' a ha hl
                exact ⟨s'', List.mem_append_left _ h1, h2⟩
              · simp only [List.mem_singleton] at hs'
                subst hs'
                obtain ⟨s₁, hs₁, hl₁⟩ := h.from_ a ha
                obtain ⟨y, hy, hya, hyk⟩ := (h.inv.feed _ _).1 hl
                obtain ⟨y', hy', hya', hyk'⟩ := (h.inv.feed _ _).1 hl₁
                have hnd : (p'.syncs.map Sync.agg).Nodup := by rw [h.inv.aggs]; exact List.nodup_range
                have hyy : y = y' := List.inj_on_of_nodup_map hnd hy hy' (hya.trans hya'.symm)
                subst hyy
                obtain ⟨s'', h1, h2, h3⟩ := h.seenMs s₁ hs₁ a ha hl₁
                exact ⟨s'', List.mem_append_left _ h1, by rw [h2, ← hyk', hyk], h3⟩
            ok := fun he => (by cases he)
            bad := fun _ => ⟨s, by simp, hinc⟩
            nodup := fun hd => h.nodup fun a ha b hb => hd a (List.mem_append_left _ ha) b (List.mem_append_left _ hb) }
          exact ⟨seen', h1, by rw [h2]; simp, h3, h4⟩
        | some r =>
          have hcomp : compatible kind (resolved kind s) = true := by
            cases hcc : compatible kind (resolved kind s) with
            | true => rfl
            | false => cases c4 hcc
          obtain ⟨r', hr', hlk, -, -⟩ := c5 hcomp
          injection hr' with hr'
          subst hr'
          have hinj : ∀ k k' a, lookup k p'.cache = some (some (some a)) → lookup k' p'.cache = some (some (some a)) → k = k' := by
            intro k k' a hl hl'
            obtain ⟨y, hy, hya, hyk⟩ := (c1.feed _ _).1 hl
            obtain ⟨y', hy', hya', hyk'⟩ := (c1.feed _ _).1 hl'
            have hnd : (p'.syncs.map Sync.agg).Nodup := by rw [c1.aggs]; exact List.nodup_range
            have hyy : y = y' := List.inj_on_of_nodup_map hnd hy hy' (hya.trans hya'.symm)
            rw [← hyk, ← hyk', hyy]
          cases r with
          | none =>
            dsimp only
            obtain ⟨seen', h1, h2, h3, l₂, h4⟩ := ih p' seen ms true err (done ++ [s]) {
              inv := c1
              from_ := fun a ha => by
                obtain ⟨s', hs', hl⟩ := h.from_ a ha
                exact ⟨s', List.mem_append_left _ hs', c2 _ _ hl⟩
              seen_ := fun id hid => by
                obtain ⟨s', hs', hc', hi', a, ha, hl⟩ := h.seen_ id hid
                exact ⟨s', List.mem_append_left _ hs', hc', hi', a, ha, c2 _ _ hl⟩
              seenMs := fun s' hs' a ha hl => by
                obtain ⟨s₁, hs₁, hl₁⟩ := h.from_ a ha
                obtain ⟨s'', h1, h2, h3⟩ := h.seenMs s₁ hs₁ a ha hl₁
                exact ⟨s'', List.mem_append_left _ h1, by rw [h2]; exact hinj _ _ a (c2 _ _ hl₁) hl, h3⟩
              ok := fun he s' hs' => by
                rcases List.mem_append.1 hs' with hs' | hs'
                · obtain ⟨h1, r, h2, h3⟩ := h.ok he s' hs'
                  exact ⟨h1, r, c2 _ _ h2, h3⟩
                · simp only [List.mem_singleton] at hs'
                  subst hs'
                  exact ⟨Or.inr hcomp, none, hlk, fun a ha => (by cases ha)⟩
              bad := fun he => by
                obtain ⟨s', hs', hl⟩ := h.bad he
                exact ⟨s', List.mem_append_left _ hs', hl⟩
              nodup := fun hd => h.nodup fun a ha b hb => hd a (List.mem_append_left _ ha) b (List.mem_append_left _ hb) }
            exact ⟨seen', h1, by rw [h2]; simp, fun k r hk => h3 k r (c2 k r hk), l₁ ++ l₂, by rw [h4, c3]; simp⟩
          | some a₁ =>
            dsimp only
            obtain ⟨seen', h1, h2, h3, l₂, h4⟩ := ih p' (seen ++ [instId kind s number]) (ms ++ [a₁]) true err (done ++ [s]) {
              inv := c1
              from_ := fun a ha => by
                rcases List.mem_append.1 ha with ha | ha
                · obtain ⟨s', hs', hl⟩ := h.from_ a ha
                  exact ⟨s', List.mem_append_left _ hs', c2 _ _ hl⟩
                · simp only [List.mem_singleton] at ha
                  subst ha
                  exact ⟨s, by simp, hlk⟩
              seen_ := fun id hid => by
                rcases List.mem_append.1 hid with hid | hid
                · obtain ⟨s', hs', hc', hi', a, ha, hl⟩ := h.seen_ id hid
                  exact ⟨s', List.mem_append_left _ hs', hc', hi', a, List.mem_append_left _ ha, c2 _ _ hl⟩
                · simp only [List.mem_singleton] at hid
                  subst hid
                  exact ⟨s, by simp, hcomp, rfl, a₁, by simp, hlk⟩
              seenMs := fun s' hs' a ha hl => by
                rcases List.mem_append.1 ha with ha | ha
                · obtain ⟨s₁, hs₁, hl₁⟩ := h.from_ a ha
                  obtain ⟨s'', h1, h2, h3⟩ := h.seenMs s₁ hs₁ a ha hl₁
                  exact ⟨s'', List.mem_append_left _ h1, by rw [h2]; exact hinj _ _ a (c2 _ _ hl₁) hl, List.mem_append_left _ h3⟩
                · simp only [List.mem_singleton] at ha
                  subst ha
                  exact ⟨s, by simp, hinj _ _ _ hlk hl, by simp⟩
              ok := fun he s' hs' => by
                rcases List.mem_append.1 hs' with hs' | hs'
                · obtain ⟨h1, r, h2, h3⟩ := h.ok he s' hs'
                  exact ⟨h1.imp (List.mem_append_left _) id, r, c2 _ _ h2, fun a ha => List.mem_append_left _ (h3 a ha)⟩
                · simp only [List.mem_singleton] at hs'
                  subst hs'
                  exact ⟨Or.inr hcomp, some a₁, hlk, fun a ha => by injection ha with ha; subst ha; simp⟩
              bad := fun he => by
                obtain ⟨s', hs', hl⟩ := h.bad he
                exact ⟨s', List.mem_append_left _ hs', hl⟩
              nodup := fun hd => by
                rw [List.nodup_append]
                refine ⟨h.nodup fun a ha b hb => hd a (List.mem_append_left _ ha) b (List.mem_append_left _ hb), by simp, ?_⟩
                intro a ha b hb
                simp only [List.mem_singleton] at hb
                subst hb
                rintro rfl
                obtain ⟨s₁, hs₁, hl₁⟩ := h.from_ a ha
                obtain ⟨s'', h1, h2, h3⟩ := h.seenMs s₁ hs₁ a ha hl₁
                have hkk : key inst.scope kind number s'' = key inst.scope kind number s := by
                  rw [h2]; exact hinj _ _ a (c2 _ _ hl₁) hlk
                have := hd s'' (List.mem_append_left _ h1) s (by simp) hkk
                rw [this] at h3
                exact hs h3 }
            exact ⟨seen', h1, by rw [h2]; simp, fun k r hk => h3 k r (c2 k r hk), l₁ ++ l₂, by rw [h4, c3]; simp⟩

/-- What `instrument` does, in terms of the cache. -/
structure InstSpec (views : List View) (r : Request) (kind : Kind) (p p' : Pipe) (res : Option (List Nat)) : Prop where
  inv : Inv p'
  ext : ∀ k x, lookup k p.cache = some x → lookup k p'.cache = some x
  syncs : ∃ l, p'.syncs = p.syncs ++ l
  ok : ∀ ms, res = some ms →
    (∀ a ∈ ms, ∃ s ∈ streamsOf views r.inst r.boundaries r.limit, lookup (key r.inst.scope kind r.number s) p'.cache = some (some (some a))) ∧
    (∀ s ∈ streamsOf views r.inst r.boundaries r.limit, ∃ x, lookup (key r.inst.scope kind r.number s) p'.cache = some (some x) ∧ ∀ a, x = some a → a ∈ ms) ∧
    (∀ s ∈ streamsOf views r.inst r.boundaries r.limit, ∃ s' ∈ streamsOf views r.inst r.boundaries r.limit, instId kind s' r.number = instId kind s r.number ∧
      compatible kind (resolved kind s') = true) ∧
    ((∀ s ∈ streamsOf views r.inst r.boundaries r.limit, ∀ s' ∈ streamsOf views r.inst r.boundaries r.limit,
      key r.inst.scope kind r.number s = key r.inst.scope kind r.number s' → instId kind s r.number = instId kind s' r.number) → ms.Nodup)
  bad : res = none → ∃ s ∈ streamsOf views r.inst r.boundaries r.limit, compatible kind (resolved kind s) = false

theorem instrument_spec (views : List View) (temp : Kind → Temporality) (r : Request) (kind : Kind) (hk : r.inst.kind = some kind) (p : Pipe) (hp : Inv p) :
    InstSpec views r kind p (instrument views temp r.number p r.inst r.boundaries r.limit).1 (instrument views temp r.number p r.inst r.boundaries r.limit).2 := by
  unfold instrument
  rw [hk]
  dsimp only
  have h0 : LoopInv r.inst.scope kind r.number [] p [] [] false := by
    constructor
    · exact hp
    all_goals simp
  obtain ⟨seen', h1, h2, h3, h4⟩ := viewLoop_spec temp r.number r.inst kind views p [] [] false false [] h0
  generalize hvl : viewLoop temp r.number r.inst kind views p [] [] false false = vl at h1 h2 h3 h4
  obtain ⟨p', ms, matched, err⟩ := vl
  dsimp only at h1 h2 h3 h4
  rw [List.nil_append] at h1
  cases hf : views.filterMap (fun v => v r.inst) with
  | nil =>
    rw [hf] at h1 h2
    have hm : matched = false := by rw [h2]; rfl
    subst hm
    dsimp only
    have hst : streamsOf views r.inst r.boundaries r.limit = [defaultStream r.inst r.boundaries r.limit] := by
      unfold streamsOf; rw [hf]; rfl
    have hms : ms = [] := by
      cases ms with
      | nil => rfl
      | cons a l =>
        obtain ⟨s, hs, _⟩ := h1.from_ a List.mem_cons_self
        cases hs
    subst hms
    obtain ⟨c1, c2, ⟨l₁, c3⟩, c4, c5⟩ := cached_spec temp r.number p' r.inst.scope kind (defaultStream r.inst r.boundaries r.limit) h1.inv
    generalize hca : cachedAggregator temp r.number p' r.inst.scope kind (defaultStream r.inst r.boundaries r.limit) = ca at c1 c2 c3 c4 c5
    obtain ⟨p'', res⟩ := ca
    dsimp only at c1 c2 c3 c4 c5
    obtain ⟨l₂, h4⟩ := h4
    cases res with
    | none =>
      have hinc : compatible kind (resolved kind (defaultStream r.inst r.boundaries r.limit)) = false := by
        cases hcc : compatible kind (resolved kind (defaultStream r.inst r.boundaries r.limit)) with
        | false => rfl
        | true => obtain ⟨x, hx, _⟩ := c5 hcc; cases hx
      exact ⟨c1, fun k x h => c2 k x (h3 k x h), ⟨l₂ ++ l₁, by rw [c3, h4]; simp⟩, fun ms h => (by cases h),
        fun _ => ⟨_, by rw [hst]; exact List.mem_cons_self, hinc⟩⟩
    | some x =>
      have hcomp : compatible kind (resolved kind (defaultStream r.inst r.boundaries r.limit)) = true := by
        cases hcc : compatible kind (resolved kind (defaultStream r.inst r.boundaries r.limit)) with
        | true => rfl
        | false => cases c4 hcc
      obtain ⟨x', hx', hlk, -, -⟩ := c5 hcomp
      injection hx' with hx'
      subst hx'
      cases x with
      | none =>
        refine ⟨c1, fun k x h => c2 k x (h3 k x h), ⟨l₂ ++ l₁, by rw [c3, h4]; simp⟩, fun ms h => ?_, fun h => (by cases h)⟩
        injection h with h
        subst h
        refine ⟨by simp, ?_, ?_, by simp⟩
        · intro s hs
          rw [hst] at hs
          rw [List.mem_singleton.1 hs]
          exact ⟨none, hlk, by simp⟩
        · intro s hs
          refine ⟨s, hs, rfl, ?_⟩
          rw [hst] at hs
          rw [List.mem_singleton.1 hs]
          exact hcomp
      | some a₁ =>
        refine ⟨c1, fun k x h => c2 k x (h3 k x h), ⟨l₂ ++ l₁, by rw [c3, h4]; simp⟩, fun ms h => ?_, fun h => (by cases h)⟩
        injection h with h
        rw [List.nil_append] at h
        subst h
        refine ⟨?_, ?_, ?_, by simp⟩
        · intro a ha
          rw [List.mem_singleton.1 ha]
          exact ⟨_, by rw [hst]; exact List.mem_cons_self, hlk⟩
        · intro s hs
          rw [hst] at hs
          rw [List.mem_singleton.1 hs]
          exact ⟨some a₁, hlk, by simp⟩
        · intro s hs
          refine ⟨s, hs, rfl, ?_⟩
          rw [hst] at hs
          rw [List.mem_singleton.1 hs]
          exact hcomp
  | cons s₀ ss =>
    have hst : streamsOf views r.inst r.boundaries r.limit = s₀ :: ss := by
      unfold streamsOf; rw [hf]
    rw [hf] at h1 h2
    have hm : matched = true := by rw [h2]; rfl
    subst hm
    dsimp only
    refine ⟨h1.inv, h3, h4, ?_, ?_⟩
    · intro ms' h
      cases err with
      | true => simp at h
      | false =>
        simp only [Bool.false_eq_true, if_false, Option.some.injEq] at h
        subst h
        rw [hst]
        refine ⟨h1.from_, fun s hs => (h1.ok rfl s hs).2, ?_, h1.nodup⟩
        intro s hs
        rcases (h1.ok rfl s hs).1 with h | h
        · obtain ⟨s', hs', hc', hi', _⟩ := h1.seen_ _ h
          exact ⟨s', hs', hi', hc'⟩
        · exact ⟨s, hs, rfl, h⟩
    · intro h
      cases err with
      | false => simp at h
      | true => rw [hst]; exact h1.bad rfl

theorem instrument_noKind (views : List View) (temp : Kind → Temporality) (r : Request) (hk : r.inst.kind = none) (p : Pipe) :
    instrument views temp r.number p r.inst r.boundaries r.limit = (p, none) := by
  unfold instrument; rw [hk]

theorem runRequests_spec (views : List View) (temp : Kind → Temporality) (rs : List Request) (p : Pipe) (hp : Inv p) :
    Inv (runRequests views temp p rs) ∧ (∃ l, (runRequests views temp p rs).syncs = p.syncs ++ l) := by
  induction rs generalizing p with
  | nil => exact ⟨hp, [], by simp [runRequests]⟩
  | cons r rs ih =>
    simp only [runRequests]
    cases hk : r.inst.kind with
    | none => rw [instrument_noKind views temp r hk]; exact ih p hp
    | some kind =>
      have h := instrument_spec views temp r kind hk p hp
      obtain ⟨h1, l, h2⟩ := ih _ h.inv
      obtain ⟨l', h'⟩ := h.syncs
      exact ⟨h1, l' ++ l, by rw [h2, h']; simp⟩

theorem Reach.inv {views : List View} {temp : Kind → Temporality} {p : Pipe} (h : Reach views temp p) : Inv p := by
  obtain ⟨rs, rfl⟩ := h
  exact (runRequests_spec views temp rs _ .init).1

theorem syncKey_eq (y : Sync) (sc : Scope) (k : Kind) (n : NumKind) (s : Stream) :
    syncKey y = key sc k n s ↔ y.identity = identity sc k n s.name s.description s.unit := by
  unfold syncKey Sync.identity
  exact key_eq_iff _ _ _ _ _ _ _ _

/-! ## The property -/

/-- Property C47. Whatever instruments a program asks for, in any order and under any views: a reader collects each aggregator once, and
there is one aggregator for a scope, name without regard to case, description, unit, kind and number type. -/
theorem one_aggregator_per_identity (views : List View) (temp : Kind → Temporality) (p : Pipe) (h : Reach views temp p) :
    (p.syncs.map Sync.agg).Nodup ∧ (p.syncs.map Sync.identity).Nodup := by
  have hi := h.inv
  have hnd : (p.syncs.map Sync.agg).Nodup := by rw [hi.aggs]; exact List.nodup_range
  refine ⟨hnd, ?_⟩
  refine (List.nodup_map_iff_inj_on (hnd.of_map _)).2 ?_
  intro y hy y' hy' he
  have hk : syncKey y = syncKey y' := (syncKey_eq y _ _ _ ⟨y'.name, y'.description, y'.unit, none, none, none⟩).2 he
  have h1 := (hi.feed (syncKey y) y.agg).2 ⟨y, hy, rfl, rfl⟩
  have h2 := (hi.feed (syncKey y') y'.agg).2 ⟨y', hy', rfl, rfl⟩
  rw [hk, h2] at h1
  injection h1 with h1; injection h1 with h1; injection h1 with h1
  exact List.inj_on_of_nodup_map hnd hy hy' h1.symm

/-- Property C47. The measurements of an instrument reach exactly the aggregators of its streams: one stream for each view that matches it,
or, when none does, the one with its own name, description and unit. -/
theorem instrument_feeds_its_streams (views : List View) (temp : Kind → Temporality) (p : Pipe) (h : Reach views temp p) (r : Request) (kind : Kind)
    (hk : r.inst.kind = some kind) (p' : Pipe) (ms : List Nat) (hi : instrument views temp r.number p r.inst r.boundaries r.limit = (p', some ms)) (a : Nat) :
    a ∈ ms ↔ ∃ y ∈ p'.syncs, y.agg = a ∧ ∃ s ∈ streamsOf views r.inst r.boundaries r.limit, y.identity = streamIdentity r kind s := by
  have hs := instrument_spec views temp r kind hk p h.inv
  rw [hi] at hs
  obtain ⟨h1, h2, -, -⟩ := hs.ok ms rfl
  constructor
  · intro ha
    obtain ⟨s, hsm, hl⟩ := h1 a ha
    obtain ⟨y, hy, hya, hyk⟩ := (hs.inv.feed _ _).1 hl
    exact ⟨y, hy, hya, s, hsm, (syncKey_eq ..).1 hyk⟩
  · rintro ⟨y, hy, hya, s, hsm, he⟩
    obtain ⟨x, hx, hxa⟩ := h2 s hsm
    have := (hs.inv.feed _ _).2 ⟨y, hy, hya, (syncKey_eq ..).2 he⟩
    rw [hx] at this
    injection this with this; injection this with this
    exact hxa a this

/-- Property C47. Two instruments whose streams have the same identity share an aggregator, however far apart they were created: the
second one's measurements reach the aggregator of the first. -/
theorem same_identity_shared (views : List View) (temp : Kind → Temporality) (p : Pipe) (h : Reach views temp p) (r₁ r₂ : Request) (rs : List Request)
    (kind : Kind) (hk₁ : r₁.inst.kind = some kind) (hk₂ : r₂.inst.kind = some kind) (p₁ p₂ : Pipe) (ms₁ ms₂ : List Nat)
    (h₁ : instrument views temp r₁.number p r₁.inst r₁.boundaries r₁.limit = (p₁, some ms₁))
    (h₂ : instrument views temp r₂.number (runRequests views temp p₁ rs) r₂.inst r₂.boundaries r₂.limit = (p₂, some ms₂))
    (hsame : (streamsOf views r₁.inst r₁.boundaries r₁.limit).map (streamIdentity r₁ kind) = (streamsOf views r₂.inst r₂.boundaries r₂.limit).map (streamIdentity r₂ kind))
    (a : Nat) : a ∈ ms₁ → a ∈ ms₂ := by
  intro ha
  obtain ⟨rs₀, rfl⟩ := h
  have hrun : ∀ (q : Pipe) (l₁ l₂ : List Request), runRequests views temp q (l₁ ++ l₂) = runRequests views temp (runRequests views temp q l₁) l₂ := by
    intro q l₁
    induction l₁ generalizing q with
    | nil => intro l₂; rfl
    | cons x l₁ ih => intro l₂; exact ih _ l₂
  have hreach : Reach views temp (runRequests views temp p₁ rs) := by
    refine ⟨rs₀ ++ r₁ :: rs, ?_⟩
    rw [hrun]
    show _ = runRequests views temp (instrument views temp r₁.number _ r₁.inst r₁.boundaries r₁.limit).1 rs
    rw [h₁]
  obtain ⟨y, hy, hya, s, hsm, he⟩ := (instrument_feeds_its_streams views temp _ ⟨rs₀, rfl⟩ r₁ kind hk₁ p₁ ms₁ h₁ a).1 ha
  refine (instrument_feeds_its_streams views temp _ hreach r₂ kind hk₂ p₂ ms₂ h₂ a).2 ?_
  have hp₁ : Inv p₁ := by
    have := (instrument_spec views temp r₁ kind hk₁ _ (Reach.inv (views := views) (temp := temp) ⟨rs₀, rfl⟩)).inv
    rw [h₁] at this; exact this
  obtain ⟨l, hl⟩ := (runRequests_spec views temp rs p₁ hp₁).2
  obtain ⟨l', hl'⟩ := (instrument_spec views temp r₂ kind hk₂ _ hreach.inv).syncs
  rw [h₂] at hl'
  refine ⟨y, by rw [hl', hl]; simp [hy], hya, ?_⟩
  have hm : streamIdentity r₁ kind s ∈ (streamsOf views r₂.inst r₂.boundaries r₂.limit).map (streamIdentity r₂ kind) := by
    rw [← hsame]; exact List.mem_map_of_mem hsm
  obtain ⟨s', hs', he'⟩ := List.mem_map.1 hm
  exact ⟨s', hs', by rw [he, he']⟩

/-- Property C47. An aggregator keeps the definition it was made with: nothing that is created later changes, replaces or removes what is
collected. -/
theorem collected_forever (views : List View) (temp : Kind → Temporality) (p : Pipe) (h : Reach views temp p) (rs : List Request) :
    p.syncs <+: (runRequests views temp p rs).syncs := by
  obtain ⟨l, hl⟩ := (runRequests_spec views temp rs p h.inv).2
  exact ⟨l, hl.symm⟩

/-- Property C47. An instrument is refused only when the aggregation of one of its streams does not suit its kind. -/
theorem refused_only_incompatible (views : List View) (temp : Kind → Temporality) (p : Pipe) (h : Reach views temp p) (r : Request) (kind : Kind)
    (hk : r.inst.kind = some kind) (hc : ∀ s ∈ streamsOf views r.inst r.boundaries r.limit, compatible kind (resolved kind s) = true) :
    (instrument views temp r.number p r.inst r.boundaries r.limit).2 ≠ none := by
  intro hn
  obtain ⟨s, hs, hb⟩ := (instrument_spec views temp r kind hk p h.inv).bad hn
  rw [hc s hs] at hb
  cases hb

/-- Property C47. An instrument that is accepted has, for each stream, one of the same name, description and unit whose aggregation suits
its kind. -/
theorem accepted_compatible (views : List View) (temp : Kind → Temporality) (p : Pipe) (h : Reach views temp p) (r : Request) (kind : Kind)
    (hk : r.inst.kind = some kind) (p' : Pipe) (ms : List Nat) (hi : instrument views temp r.number p r.inst r.boundaries r.limit = (p', some ms)) :
    ∀ s ∈ streamsOf views r.inst r.boundaries r.limit, ∃ s' ∈ streamsOf views r.inst r.boundaries r.limit,
      s'.name = s.name ∧ s'.description = s.description ∧ s'.unit = s.unit ∧ compatible kind (resolved kind s') = true := by
  have hs := instrument_spec views temp r kind hk p h.inv
  rw [hi] at hs
  intro s hsm
  obtain ⟨s', h1, h2, h3⟩ := (hs.ok ms rfl).2.2.1 s hsm
  unfold instId at h2
  injection h2 with e1 e2 e3 e4
  exact ⟨s', h1, e1, e2, e4, h3⟩

/-- Property C47, in part: a measurement is counted once per aggregator, if no two views that match give names that differ in case only.
In general it is not: `case_views_count_twice_violated`. -/
theorem measured_once_partial (views : List View) (temp : Kind → Temporality) (p : Pipe) (h : Reach views temp p) (r : Request) (kind : Kind)
    (hk : r.inst.kind = some kind) (p' : Pipe) (ms : List Nat) (hi : instrument views temp r.number p r.inst r.boundaries r.limit = (p', some ms))
    (hcase : ∀ s ∈ streamsOf views r.inst r.boundaries r.limit, ∀ s' ∈ streamsOf views r.inst r.boundaries r.limit,
      s.name.map asciiLower = s'.name.map asciiLower → s.name = s'.name) : ms.Nodup := by
  have hs := instrument_spec views temp r kind hk p h.inv
  rw [hi] at hs
  refine (hs.ok ms rfl).2.2.2 ?_
  intro s h1 s' h2 he
  have := (key_eq_iff ..).1 he
  simp only [identity, Prod.mk.injEq] at this
  obtain ⟨-, -, -, e1, e2, e3⟩ := this
  unfold instId
  rw [hcase s h1 s' h2 e1, e2, e3]

/-- The default stream: without views, an instrument feeds one aggregator, unless it is refused. -/
theorem no_views_one_aggregator (temp : Kind → Temporality) (p : Pipe) (h : Reach [] temp p) (r : Request) (kind : Kind)
    (hk : r.inst.kind = some kind) (p' : Pipe) (ms : List Nat) (hi : instrument [] temp r.number p r.inst r.boundaries r.limit = (p', some ms)) :
    ms.length ≤ 1 := by
  have hnd := measured_once_partial [] temp p h r kind hk p' ms hi (by
    intro s h1 s' h2 _
    simp only [streamsOf, List.filterMap_nil, List.mem_singleton] at h1 h2
    rw [h1, h2])
  have hf := instrument_feeds_its_streams [] temp p h r kind hk p' ms hi
  match ms, hnd, hf with
  | [], _, _ => simp
  | [_], _, _ => simp
  | a :: b :: l, hnd, hf =>
    exfalso
    obtain ⟨y, hy, hya, s, hs, he⟩ := (hf a).1 (by simp)
    obtain ⟨y', hy', hya', s', hs', he'⟩ := (hf b).1 (by simp)
    simp only [streamsOf, List.filterMap_nil, List.mem_singleton] at hs hs'
    subst hs hs'
    have hreach : Reach [] temp p' := by
      obtain ⟨rs, rfl⟩ := h
      refine ⟨rs ++ [r], ?_⟩
      have hrun : ∀ (q : Pipe) (l₁ : List Request), runRequests [] temp q (l₁ ++ [r]) =
          (instrument [] temp r.number (runRequests [] temp q l₁) r.inst r.boundaries r.limit).1 := by
        intro q l₁
        induction l₁ generalizing q with
        | nil => rfl
        | cons x l₁ ih => exact ih _
      rw [hrun, hi]
    have := List.inj_on_of_nodup_map (one_aggregator_per_identity [] temp p' hreach).2 hy hy' (he.trans he'.symm)
    rw [this] at hya
    rw [hya] at hya'
    simp [hya'] at hnd

/-! ### Every stream is collected -/

/-- Nothing was dropped. -/
def DropFree (p : Pipe) : Prop := ∀ k, lookup k p.cache ≠ some (some none)

theorem cached_dropFree (temp : Kind → Temporality) (number : NumKind) (p : Pipe) (scope : Scope) (kind : Kind) (s : Stream) (hp : DropFree p)
    (hd : resolved kind s ≠ .drop) : DropFree (cachedAggregator temp number p scope kind s).1 := by
  unfold cachedAggregator
  dsimp only
  split
  · exact hp
  · split
    · exact hp
    · split
      · intro k h
        rw [lookup_append] at h
        cases hl : lookup k p.cache with
        | some x => rw [hl] at h; exact hp k (hl.trans h)
        | none => rw [hl] at h; simp only [Option.none_or, lookup] at h; split at h <;> cases h
      · rename_i h
        exact absurd (aggregateFn_drop _ _ h) hd
      · intro k h
        rw [lookup_append] at h
        cases hl : lookup k p.cache with
        | some x => rw [hl] at h; exact hp k (hl.trans h)
        | none => rw [hl] at h; simp only [Option.none_or, lookup] at h; split at h <;> cases h

theorem viewLoop_dropFree (temp : Kind → Temporality) (number : NumKind) (inst : Instrument) (kind : Kind) (views : List View) (p : Pipe) (seen : List Id)
    (ms : List Nat) (matched err : Bool) (hp : DropFree p) (hd : ∀ v ∈ views, ∀ s, v inst = some s → s.aggregation ≠ some .drop)
    (hdef : defaultAggregation kind ≠ .drop) :
    DropFree (viewLoop temp number inst kind views p seen ms matched err).1 := by
  induction views generalizing p seen ms matched err with
  | nil => exact hp
  | cons v vs ih =>
    have hd' : ∀ v ∈ vs, ∀ s, v inst = some s → s.aggregation ≠ some .drop := fun v hv => hd v (List.mem_cons_of_mem _ hv)
    unfold viewLoop
    cases hv : v inst with
    | none => exact ih p seen ms matched err hp hd'
    | some s =>
      dsimp only
      split
      · exact ih p seen ms true err hp hd'
      · have hr : resolved kind s ≠ .drop := by
          have := hd v List.mem_cons_self s hv
          unfold resolved
          dsimp only
          split
          · exact hdef
          · cases ha : s.aggregation with
            | none => exact hdef
            | some x => rw [ha] at this; exact fun h => this (congrArg some h)
        have hc := cached_dropFree temp number p inst.scope kind s hp hr
        generalize cachedAggregator temp number p inst.scope kind s = ca at hc
        obtain ⟨p', res⟩ := ca
        cases res with
        | none => exact ih p' seen ms true true hc hd'
        | some x =>
          cases x with
          | none => exact ih p' seen ms true err hc hd'
          | some a => exact ih p' _ _ true err hc hd'

theorem default_not_drop (kind : Kind) : defaultAggregation kind ≠ .drop := by cases kind <;> (intro h; cases h)

theorem default_stream_not_drop (kind : Kind) (inst : Instrument) (b : Option (List F64)) (l : Option Nat) : resolved kind (defaultStream inst b l) ≠ .drop := by
  unfold resolved defaultStream
  cases b with
  | none =>
    dsimp only [Option.map_none, Option.getD_none]
    split <;> exact default_not_drop kind
  | some b => simp

theorem instrument_dropFree (views : List View) (temp : Kind → Temporality) (r : Request) (p : Pipe) (hp : DropFree p)
    (hd : ∀ v ∈ views, ∀ i s, v i = some s → s.aggregation ≠ some .drop) :
    DropFree (instrument views temp r.number p r.inst r.boundaries r.limit).1 := by
  unfold instrument
  cases hk : r.inst.kind with
  | none => exact hp
  | some kind =>
    dsimp only
    have h1 := viewLoop_dropFree temp r.number r.inst kind views p [] [] false false hp (fun v hv s => hd v hv r.inst s) (default_not_drop kind)
    generalize viewLoop temp r.number r.inst kind views p [] [] false false = vl at h1
    obtain ⟨p', ms, matched, err⟩ := vl
    cases matched with
    | true => exact h1
    | false =>
      dsimp only
      have h2 := cached_dropFree temp r.number p' r.inst.scope kind _ h1 (default_stream_not_drop kind r.inst r.boundaries r.limit)
      generalize cachedAggregator temp r.number p' r.inst.scope kind (defaultStream r.inst r.boundaries r.limit) = ca at h2
      obtain ⟨p'', res⟩ := ca
      cases res with
      | none => exact h2
      | some x => cases x <;> exact h2

theorem Reach.dropFree {views : List View} {temp : Kind → Temporality} {p : Pipe} (h : Reach views temp p)
    (hd : ∀ v ∈ views, ∀ i s, v i = some s → s.aggregation ≠ some .drop) : DropFree p := by
  obtain ⟨rs, rfl⟩ := h
  have : ∀ (rs : List Request) (p : Pipe), DropFree p → DropFree (runRequests views temp p rs) := by
    intro rs
    induction rs with
    | nil => exact fun p h => h
    | cons r rs ih => exact fun p h => ih _ (instrument_dropFree views temp r p h hd)
  exact this rs _ (by intro k h; simp [Pipe.init, lookup] at h)

/-- Property C47. If no view drops an instrument, every stream of an accepted instrument has an aggregator that is collected and is fed. -/
theorem every_stream_collected (views : List View) (temp : Kind → Temporality) (p : Pipe) (h : Reach views temp p)
    (hd : ∀ v ∈ views, ∀ i s, v i = some s → s.aggregation ≠ some .drop) (r : Request) (kind : Kind)
    (hk : r.inst.kind = some kind) (p' : Pipe) (ms : List Nat) (hi : instrument views temp r.number p r.inst r.boundaries r.limit = (p', some ms)) :
    ∀ s ∈ streamsOf views r.inst r.boundaries r.limit, ∃ y ∈ p'.syncs, y.identity = streamIdentity r kind s ∧ y.agg ∈ ms := by
  have hs := instrument_spec views temp r kind hk p h.inv
  have hdf := instrument_dropFree views temp r p (h.dropFree hd) hd
  rw [hi] at hs hdf
  intro s hsm
  obtain ⟨x, hx, hxa⟩ := (hs.ok ms rfl).2.1 s hsm
  cases x with
  | none => exact absurd hx (hdf _)
  | some a =>
    obtain ⟨y, hy, hya, hyk⟩ := (hs.inv.feed _ _).1 hx
    exact ⟨y, hy, (syncKey_eq ..).1 hyk, hya ▸ hxa a rfl⟩

/-- Property C47. The aggregator of a new identity: built for the aggregation the stream asks for (or the default one of its kind), with
the reader's temporality for that kind, the stream's attribute keys and its cardinality limit, or 2000. -/
theorem new_aggregator (views : List View) (temp : Kind → Temporality) (p : Pipe) (h : Reach views temp p)
    (hd : ∀ v ∈ views, ∀ i s, v i = some s → s.aggregation ≠ some .drop) (r : Request) (kind : Kind)
    (hk : r.inst.kind = some kind) (s : Stream) (hs : streamsOf views r.inst r.boundaries r.limit = [s]) (hc : compatible kind (resolved kind s) = true)
    (hnew : ∀ y ∈ p.syncs, y.identity ≠ streamIdentity r kind s) :
    ∃ b, aggregateFn kind (resolved kind s) = some (some b) ∧
      (instrument views temp r.number p r.inst r.boundaries r.limit).1.syncs = p.syncs ++ [⟨r.inst.scope, kind, r.number, s.name, s.description, s.unit, p.next, b, temp kind,
        s.allowedKeys, s.cardinalityLimit.getD 2000⟩] ∧
      (instrument views temp r.number p r.inst r.boundaries r.limit).2 = some [p.next] := by
  have hl : lookup (key r.inst.scope kind r.number s) p.cache = none := by
    cases hl : lookup (key r.inst.scope kind r.number s) p.cache with
    | none => rfl
    | some x =>
      cases x with
      | none => exact absurd hl (h.inv.noErr _)
      | some x =>
        cases x with
        | none => exact absurd hl (h.dropFree hd _)
        | some a =>
          obtain ⟨y, hy, -, hyk⟩ := (h.inv.feed _ _).1 hl
          exact absurd ((syncKey_eq ..).1 hyk) (hnew y hy)
  have hdrop : resolved kind s ≠ .drop := by
    unfold streamsOf at hs
    split at hs
    · injection hs with hs; rw [← hs]; exact default_stream_not_drop kind r.inst r.boundaries r.limit
    · rename_i hl
      have hm : s ∈ views.filterMap (fun v => v r.inst) := by rw [hs]; exact List.mem_cons_self
      obtain ⟨v, hv, hvs⟩ := List.mem_filterMap.1 hm
      have := hd v hv r.inst s hvs
      unfold resolved
      dsimp only
      split
      · exact default_not_drop kind
      · cases ha : s.aggregation with
        | none => exact default_not_drop kind
        | some x => rw [ha] at this; exact fun h => this (congrArg some h)
  cases hb : aggregateFn kind (resolved kind s) with
  | none => exact absurd hb (aggregateFn_ok kind _ hc)
  | some o =>
    cases o with
    | none => exact absurd (aggregateFn_drop _ _ hb) hdrop
    | some b =>
      refine ⟨b, rfl, ?_⟩
      have hca : cachedAggregator temp r.number p r.inst.scope kind s =
          (⟨p.cache ++ [(key r.inst.scope kind r.number s, some (some p.next))], p.syncs ++ [⟨r.inst.scope, kind, r.number, s.name, s.description, s.unit, p.next, b, temp kind,
            s.allowedKeys, s.cardinalityLimit.getD 2000⟩], p.next + 1⟩, some (some p.next)) := by
        unfold cachedAggregator
        dsimp only
        rw [if_neg (by rw [hc]; simp), show (r.inst.scope, (instId kind s r.number).normalize) = key r.inst.scope kind r.number s from rfl, hl, hb]
        rfl
      have hloop : ∀ (views : List View) (q : Pipe) (seen : List Id) (ms : List Nat) (m e : Bool), views.filterMap (fun v => v r.inst) = [] →
          viewLoop temp r.number r.inst kind views q seen ms m e = (q, ms, m, e) := by
        intro views
        induction views with
        | nil => intros; rfl
        | cons v vs ih =>
          intro q seen ms m e hf
          rw [List.filterMap_cons] at hf
          unfold viewLoop
          cases hv : v r.inst with
          | none => rw [hv] at hf; exact ih q seen ms m e hf
          | some s' => rw [hv] at hf; cases hf
      have hloop1 : ∀ (views : List View), views.filterMap (fun v => v r.inst) = [s] → ∀ m,
          viewLoop temp r.number r.inst kind views p [] [] m false =
            ((cachedAggregator temp r.number p r.inst.scope kind s).1, [p.next], true, false) := by
        intro views
        induction views with
        | nil => intro hf; cases hf
        | cons v vs ih =>
          intro hf m
          rw [List.filterMap_cons] at hf
          unfold viewLoop
          cases hv : v r.inst with
          | none => rw [hv] at hf; exact ih hf m
          | some s' =>
            rw [hv] at hf
            injection hf with hf1 hf2
            subst hf1
            dsimp only
            rw [if_neg (by simp), hca]
            dsimp only
            rw [hloop vs _ _ _ _ _ hf2]
            rfl
      unfold instrument
      rw [hk]
      dsimp only
      unfold streamsOf at hs
      split at hs
      · rename_i hf
        injection hs with hs
        rw [hloop views p _ _ _ _ hf]
        dsimp only
        rw [show defaultStream r.inst r.boundaries r.limit = s from hs, hca]
        exact ⟨rfl, rfl⟩
      · rw [hloop1 views hs false, hca]
        exact ⟨rfl, rfl⟩

/-! ### Compatibility, temporality and creation -/

/-- The table of aggregations a kind of instrument may have. -/
def MayAggregate : Kind → Aggregation → Prop
  | _, .drop => True
  | _, .default => True
  | .counter, .sum | .upDownCounter, .sum | .observableCounter, .sum | .observableUpDownCounter, .sum | .histogram, .sum => True
  | .gauge, .lastValue | .observableGauge, .lastValue => True
  | .counter, .explicitBucketHistogram .. | .upDownCounter, .explicitBucketHistogram .. | .histogram, .explicitBucketHistogram .. => True
  | .gauge, .explicitBucketHistogram .. | .observableCounter, .explicitBucketHistogram .. | .observableUpDownCounter, .explicitBucketHistogram .. => True
  | .observableGauge, .explicitBucketHistogram .. => True
  | _, .base2ExponentialHistogram .. => True
  | _, _ => False

theorem compatible_iff (kind : Kind) (a : Aggregation) : compatible kind a = true ↔ MayAggregate kind a := by
  cases kind <;> cases a <;> simp [compatible, MayAggregate]

/-! ### Where it fails, and examples -/

def exTemp : Kind → Temporality := fun _ => .cumulative
def exScope : Scope := ⟨"lib".toList, none, none, []⟩
def exInst (name : String) (kind : Kind) : Instrument := ⟨name.toList, [], some kind, [], exScope⟩
def exReq (name : String) (kind : Kind) : Request := ⟨.u64, exInst name kind, none, none⟩
def rename (name : String) : View := fun i => some ⟨name.toList, i.description, i.unit, none, none, none⟩

/-- Two views that match a counter and rename it to `Requests` and `requests`: one aggregator, which is given each measurement twice. -/
theorem case_views_count_twice_violated :
    ∃ p' a, instrument [rename "Requests", rename "requests"] exTemp .u64 .init (exInst "c" .counter) none none = (p', some [a, a]) ∧
      p'.syncs.length = 1 := by
  exact ⟨_, 0, rfl, rfl⟩

/-- A second histogram of the same identity: its own boundaries are not used. -/
theorem later_boundaries_ignored_violated :
    let views : List View := []
    let p₁ := (instrument views exTemp .f64 .init (exInst "h" .histogram) (some [.fin 1]) none).1
    (instrument views exTemp .f64 p₁ (exInst "h" .histogram) (some [.fin 2]) none).2 = some [0] ∧
    (instrument views exTemp .f64 p₁ (exInst "h" .histogram) (some [.fin 2]) none).1.syncs.map Sync.built = p₁.syncs.map Sync.built := by
  exact ⟨rfl, rfl⟩

/-- A view that only renames a histogram discards the boundaries and the cardinality limit it was created with. -/
theorem view_discards_boundaries_violated (b : Option (List F64)) (l : Option Nat) :
    instrument [rename "x"] exTemp .f64 .init (exInst "h" .histogram) b l = instrument [rename "x"] exTemp .f64 .init (exInst "h" .histogram) none none := rfl

/-- Two counters whose names differ in case share aggregator 0; the histogram gets aggregator 1. -/
example : (runRequests [] exTemp .init [exReq "a" .counter, exReq "A" .counter, exReq "h" .histogram]).syncs.map (fun y => (y.agg, y.name)) =
    [(0, ['a']), (1, ['h'])] := by decide +kernel

/-- The hypotheses of `same_identity_shared` hold of those two counters. -/
example : (instrument [] exTemp .u64 (runRequests [] exTemp (instrument [] exTemp .u64 .init (exInst "a" .counter) none none).1 [exReq "h" .histogram])
    (exInst "A" .counter) none none).2 = some [0] := by decide +kernel

end Otel.Metrics.Inst
