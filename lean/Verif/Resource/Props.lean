import Verif.Resource.Model
/-!
# Resources: merging and detection (C50, C51)

Theorems speak of `get` at every key and of the schema url. `Wf` (no key twice) is what `HashMap` guarantees; `wf_build` shows it of every
resource the builder makes.
-/

namespace Otel.Resource
open Rust

variable {V : Type}

/-! ## Specification -/

/-- No key occurs twice. -/
def Wf (r : Res V) : Prop := (r.attrs.map Prod.fst).Nodup

/-- Equality of resources: the derived `PartialEq` compares the maps and the schema urls. -/
def Same (a b : Res V) : Prop := (∀ k, a.get k = b.get k) ∧ a.schemaUrl = b.schemaUrl

/-- `v` is the value of the last pair with key `k`. -/
def LastPair (kvs : List (Str × V)) (k : Str) (v : V) : Prop := ∃ pre post, kvs = pre ++ (k, v) :: post ∧ ∀ p ∈ post, p.1 ≠ k

/-- No pair has key `k`. -/
def NoPair (kvs : List (Str × V)) (k : Str) : Prop := ∀ p ∈ kvs, p.1 ≠ k

/-- The text `e` is a `key=value` entry: `k` is what precedes its first `=`, `v` what follows, blanks removed on both ends. -/
def Entry (e k v : Str) : Prop := ∃ a b, e = a ++ '=' :: b ∧ '=' ∉ a ∧ k = trim a ∧ v = trim b

/-- The comma separated text `s` gives `k` the value `v`: the last entry for `k` says so. -/
def Gives (s k v : Str) : Prop :=
  ∃ pre e post, split ',' s = pre ++ e :: post ∧ Entry e k v ∧ ∀ e' ∈ post, ∀ w, ¬ Entry e' k w

/-! ## Lemmas -/

theorem last_eq_some {kvs : List (Str × V)} {k : Str} {v : V} : Assoc.last kvs k = some v ↔ LastPair kvs k v := by
  constructor
  · intro h
    induction kvs with
    | nil => cases h
    | cons p kvs ih =>
      rw [Assoc.last, List.reverse_cons, Assoc.get_append] at h
      cases hr : Assoc.get kvs.reverse k with
      | some w =>
        rw [hr] at h
        obtain ⟨pre, post, he, hp⟩ := ih (by rw [Assoc.last, hr]; exact h)
        exact ⟨p :: pre, post, by rw [he]; rfl, hp⟩
      | none =>
        rw [hr] at h
        have hm := Assoc.mem_of_get (l := [p]) (by simpa using h)
        obtain rfl := List.mem_singleton.1 hm
        refine ⟨[], kvs, rfl, fun q hq hqk => ?_⟩
        have := Assoc.get_isSome.2 (List.mem_map.2 ⟨q, List.mem_reverse.2 hq, hqk⟩)
        rw [hr] at this; cases this
  · rintro ⟨pre, post, rfl, hp⟩
    rw [Assoc.last, List.reverse_append, List.reverse_cons, List.append_assoc, Assoc.get_append]
    have hn : Assoc.get post.reverse k = none := by
      cases hr : Assoc.get post.reverse k with
      | none => rfl
      | some w => exact absurd rfl (hp _ (List.mem_reverse.1 (Assoc.mem_of_get hr)))
    rw [hn]; show Assoc.get ((k, v) :: pre.reverse) k = _; rw [Assoc.get_cons, if_pos rfl]

theorem last_eq_none {kvs : List (Str × V)} {k : Str} : Assoc.last kvs k = none ↔ NoPair kvs k := by
  constructor
  · intro h p hp he
    have := Assoc.get_isSome.2 (List.mem_map.2 ⟨p, List.mem_reverse.2 hp, he⟩)
    rw [show Assoc.get kvs.reverse k = none from h] at this; cases this
  · intro h
    cases hr : Assoc.last kvs k with
    | none => rfl
    | some w => exact absurd rfl (h _ (List.mem_reverse.1 (Assoc.mem_of_get hr)))

theorem get_new (kvs : List (Str × V)) (k : Str) : (Res.new kvs).get k = Assoc.last kvs k := by
  rw [Res.get, Res.new, Assoc.get_insertAll]; exact Option.or_none

theorem get_fromSchemaUrl (kvs : List (Str × V)) (u k : Str) : (Res.fromSchemaUrl kvs u).get k = Assoc.last kvs k := by
  rw [Res.get, Res.fromSchemaUrl, Assoc.get_insertAll]; exact Option.or_none

theorem get_of_isEmpty {r : Res V} (h : r.attrs.isEmpty = true) (k : Str) : r.get k = none := by
  rw [Res.get, List.isEmpty_iff.1 h]; rfl

theorem merge_get_aux (a b : Res V) (hb : Wf b) (k : Str) : (a.merge b).get k = (b.get k).or (a.get k) := by
  unfold Res.merge
  split
  · rename_i h
    rw [get_of_isEmpty (r := a) (by simp_all)]; simp
  · split
    · rename_i h
      rw [get_of_isEmpty (r := b) (by simp_all)]; simp
    · show Assoc.get (Assoc.insertAll a.attrs b.attrs) k = _
      rw [Assoc.get_insertAll, Assoc.last_of_nodup hb]; rfl

theorem merge_schema_aux (a b : Res V) : (a.merge b).schemaUrl = mergeUrl a.schemaUrl b.schemaUrl := by
  unfold Res.merge
  split
  · rename_i h
    have : a.schemaUrl = none := by simp_all
    rw [this]; cases b.schemaUrl <;> rfl
  · split
    · rename_i h
      have : b.schemaUrl = none := by simp_all
      rw [this]; cases a.schemaUrl <;> rfl
    · rfl

theorem wf_merge {a b : Res V} (ha : Wf a) (hb : Wf b) : Wf (a.merge b) := by
  unfold Res.merge
  split
  · exact hb
  · split
    · exact ha
    · exact Assoc.nodup_insertAll ha _

theorem wf_new (kvs : List (Str × V)) : Wf (Res.new kvs) := Assoc.nodup_insertAll (l := []) List.nodup_nil _

theorem wf_fromSchemaUrl (kvs : List (Str × V)) (u : Str) : Wf (Res.fromSchemaUrl kvs u) := Assoc.nodup_insertAll (l := []) List.nodup_nil _

theorem wf_fold (ds : List (Res V)) (m : List (Str × V)) (hm : (m.map Prod.fst).Nodup) :
    ((ds.foldl (fun m d => Assoc.insertAll m d.attrs) m).map Prod.fst).Nodup := by
  induction ds generalizing m with
  | nil => exact hm
  | cons d ds ih => exact ih _ (Assoc.nodup_insertAll hm _)

theorem wf_fromDetectors (ds : List (Res V)) : Wf (Res.fromDetectors ds) := wf_fold ds [] List.nodup_nil

theorem wf_empty : Wf (Res.empty : Res V) := List.nodup_nil

theorem get_fold (ds : List (Res V)) (hd : ∀ d ∈ ds, Wf d) (m : List (Str × V)) (k : Str) :
    Assoc.get (ds.foldl (fun m d => Assoc.insertAll m d.attrs) m) k = (ds.reverse.findSome? (·.get k)).or (Assoc.get m k) := by
  induction ds generalizing m with
  | nil => rfl
  | cons d ds ih =>
    rw [List.foldl_cons, ih (fun x hx => hd x (List.mem_cons_of_mem _ hx)), Assoc.get_insertAll,
      Assoc.last_of_nodup (hd d List.mem_cons_self), List.reverse_cons, List.findSome?_append]
    show _ = Option.or (Option.or _ (([d].findSome? (·.get k)))) _
    have : ([d].findSome? (·.get k)) = Assoc.get d.attrs k := by
      show (match d.get k with | some b => some b | none => none) = _
      cases h : d.get k <;> exact h.symm
    rw [this, Option.or_assoc]

theorem get_fromDetectors (ds : List (Res V)) (hd : ∀ d ∈ ds, Wf d) (k : Str) :
    (Res.fromDetectors ds).get k = ds.reverse.findSome? (·.get k) := by
  rw [Res.get, Res.fromDetectors, get_fold ds hd]; exact Option.or_none

/-! ## C50 -/

/-- C50. Every attribute of both sides is kept, the argument's value winning. The implementation iterates over the argument's hash map in
some order; the result is the same in every order (`merge_any_order`). -/
theorem merge_get {a b : Res V} (hb : Wf b) (k : Str) :
    (a.merge b).get k = (match b.get k with | some v => some v | none => a.get k) := by
  rw [merge_get_aux a b hb]; cases b.get k <;> rfl

/-- C50. The order in which the argument's attributes are visited does not matter. -/
theorem merge_any_order {a b : Res V} (hb : Wf b) {l : List (Str × V)} (hl : l.Perm b.attrs) (k : Str) :
    (a.merge ⟨l, b.schemaUrl⟩).get k = (a.merge b).get k := by
  have hw : Wf ⟨l, b.schemaUrl⟩ := (hl.map Prod.fst).nodup_iff.2 hb
  rw [merge_get hw, merge_get hb]
  have : (⟨l, b.schemaUrl⟩ : Res V).get k = b.get k := by
    show Assoc.get l k = Assoc.get b.attrs k
    cases h : Assoc.get b.attrs k with
    | some v => exact Assoc.get_of_mem hw (hl.mem_iff.2 (Assoc.mem_of_get h))
    | none =>
      cases h' : Assoc.get l k with
      | none => rfl
      | some v => rw [Assoc.get_of_mem hb (hl.mem_iff.1 (Assoc.mem_of_get h'))] at h; cases h
  rw [this]

/-- C50. A merged resource has a schema url exactly if one side has it and the other side has none or the same one. -/
theorem merge_schema (a b : Res V) (u : Str) :
    (a.merge b).schemaUrl = some u ↔
      (a.schemaUrl = some u ∧ (b.schemaUrl = none ∨ b.schemaUrl = some u)) ∨ (a.schemaUrl = none ∧ b.schemaUrl = some u) := by
  rw [merge_schema_aux]
  cases ha : a.schemaUrl <;> cases hb : b.schemaUrl <;> simp [mergeUrl]
  rename_i x y
  constructor
  · rintro ⟨rfl, rfl⟩; exact ⟨rfl, rfl⟩
  · rintro ⟨rfl, rfl⟩; exact ⟨rfl, rfl⟩

/-- C50. The empty resource is neutral on both sides, exactly. -/
theorem merge_empty (a : Res V) : Res.empty.merge a = a ∧ a.merge Res.empty = a := by
  constructor
  · rfl
  · unfold Res.merge
    split
    · rename_i h
      obtain ⟨as, u⟩ := a
      simp at h
      rw [h.1, h.2]; rfl
    · rfl

/-- C50 (part). Merging is associative for the attributes always, and for the schema url if the three resources do not name two different
ones. Missing: associativity of the schema url in general, which fails (`merge_assoc_violated`). -/
theorem merge_assoc_partial {a b c : Res V} (hb : Wf b) (hc : Wf c) :
    (∀ k, ((a.merge b).merge c).get k = (a.merge (b.merge c)).get k) ∧
    ((∀ r ∈ [a, b, c], ∀ r' ∈ [a, b, c], ∀ u u', r.schemaUrl = some u → r'.schemaUrl = some u' → u = u') →
      Same ((a.merge b).merge c) (a.merge (b.merge c))) := by
  have hg : ∀ k, ((a.merge b).merge c).get k = (a.merge (b.merge c)).get k := by
    intro k
    rw [merge_get_aux _ _ hc, merge_get_aux _ _ hb, merge_get_aux _ _ (wf_merge hb hc), merge_get_aux _ _ hc, Option.or_assoc]
  refine ⟨hg, fun hu => ⟨hg, ?_⟩⟩
  simp only [merge_schema_aux]
  have h1 := hu a (by simp) b (by simp)
  have h2 := hu b (by simp) c (by simp)
  have h3 := hu a (by simp) c (by simp)
  cases ha : a.schemaUrl <;> cases hb' : b.schemaUrl <;> cases hc' : c.schemaUrl <;> simp [mergeUrl, ha, hb', hc'] at * <;> simp_all [mergeUrl]

example : ∃ a b c : Res Nat, Wf b ∧ Wf c ∧ a.schemaUrl ≠ none ∧ b.schemaUrl = none ∧ c.schemaUrl = a.schemaUrl ∧
    b.get "k".toList = some 1 ∧ c.get "k".toList = some 2 :=
  ⟨Res.fromSchemaUrl [] "u".toList, Res.new [("k".toList, 1)], Res.fromSchemaUrl [("k".toList, 2)] "u".toList,
    wf_new _, wf_fromSchemaUrl _ _, by decide, rfl, rfl, rfl, rfl⟩

/-- C50. Associativity of the schema url fails: a conflict followed by another resource brings a url back. -/
theorem merge_assoc_violated : ∃ a b c : Res V, Wf a ∧ Wf b ∧ Wf c ∧
    ((a.merge b).merge c).schemaUrl = some "u2".toList ∧ (a.merge (b.merge c)).schemaUrl = none :=
  ⟨⟨[], some "u1".toList⟩, ⟨[], some "u2".toList⟩, ⟨[], some "u2".toList⟩, List.nodup_nil, List.nodup_nil, List.nodup_nil,
    by simp [merge_schema_aux, mergeUrl], by simp [merge_schema_aux, mergeUrl]⟩

/-- C50. `Resource::new` and `from_schema_url` keep exactly the last value of every key; an empty url counts as none. -/
theorem new_get (kvs : List (Str × V)) (u k : Str) :
    (∀ v, (Res.new kvs).get k = some v ↔ LastPair kvs k v) ∧ ((Res.new kvs).get k = none ↔ NoPair kvs k) ∧
    (∀ v, (Res.fromSchemaUrl kvs u).get k = some v ↔ LastPair kvs k v) ∧ (Res.new kvs).schemaUrl = none ∧
    (Res.fromSchemaUrl kvs u).schemaUrl = (if u = [] then none else some u) := by
  refine ⟨fun v => ?_, ?_, fun v => ?_, rfl, ?_⟩
  · rw [get_new, last_eq_some]
  · rw [get_new, last_eq_none]
  · rw [get_fromSchemaUrl, last_eq_some]
  · simp only [Res.fromSchemaUrl, List.isEmpty_iff]

/-! ## C51 -/

theorem parseEntry_iff {e k v : Str} : parseEntry e = some (k, v) ↔ Entry e k v := by
  unfold parseEntry
  constructor
  · intro h
    split at h
    · cases h
    · rename_i a b hb
      obtain ⟨hn, t, rfl, rfl⟩ := breakAt_some hb
      injection h with h
      injection h with h1 h2
      exact ⟨a, t, rfl, hn, h1.symm, by rw [← h2]; rfl⟩
  · rintro ⟨a, b, rfl, hn, rfl, rfl⟩
    rw [breakAt_append hn]; rfl

theorem parseEntry_nil : parseEntry [] = none := rfl

theorem filterMap_splitTerminator (s : Str) :
    (splitTerminator ',' s).filterMap parseEntry = (split ',' s).filterMap parseEntry := by
  unfold splitTerminator
  split
  · rename_i h
    have hne := split_ne_nil ',' s
    have hl : split ',' s = (split ',' s).dropLast ++ [[]] := by
      have := List.dropLast_append_getLast hne
      rw [List.getLast?_eq_some_getLast hne] at h
      injection h with h
      rw [h] at this; exact this.symm
    conv => rhs; rw [hl, List.filterMap_append]
    simp [parseEntry_nil]
  · rfl

theorem gives_iff (s k v : Str) : LastPair ((split ',' s).filterMap parseEntry) k v ↔ Gives s k v := by
  generalize hps : split ',' s = ps
  unfold Gives
  rw [hps]
  constructor
  · intro h
    clear hps
    induction ps with
    | nil => obtain ⟨pre, post, h, _⟩ := h; simp at h
    | cons e ps ih =>
      obtain ⟨pre, post, he, hp⟩ := h
      cases hq : parseEntry e with
      | none =>
        rw [List.filterMap_cons_none hq] at he
        obtain ⟨pre', e', post', h1, h2, h3⟩ := ih ⟨pre, post, he, hp⟩
        exact ⟨e :: pre', e', post', by rw [h1]; rfl, h2, h3⟩
      | some q =>
        rw [List.filterMap_cons_some hq] at he
        cases pre with
        | nil =>
          injection he with h1 h2
          subst h1
          refine ⟨[], e, ps, rfl, parseEntry_iff.1 hq, fun e' he' w hw => ?_⟩
          have := parseEntry_iff.2 hw
          exact hp (k, w) (h2 ▸ List.mem_filterMap.2 ⟨e', he', this⟩) rfl
        | cons q' pre =>
          injection he with h1 h2
          obtain ⟨pre', e', post', g1, g2, g3⟩ := ih ⟨pre, post, h2, hp⟩
          exact ⟨e :: pre', e', post', by rw [g1]; rfl, g2, g3⟩
  · rintro ⟨pre, e, post, rfl, he, hp⟩
    refine ⟨pre.filterMap parseEntry, post.filterMap parseEntry, ?_, ?_⟩
    · rw [List.filterMap_append, List.filterMap_cons_some (parseEntry_iff.2 he)]
    · intro q hq hk
      obtain ⟨e', he', hpe⟩ := List.mem_filterMap.1 hq
      obtain ⟨q1, q2⟩ := q
      simp only at hk; subst hk
      exact hp e' he' q2 (parseEntry_iff.1 hpe)

theorem wf_construct (f : Str → V) (s : Str) : Wf (construct f s) := wf_merge wf_empty (wf_new _)

theorem wf_env (f : Str → V) (env) : Wf (envDetect f env) := by
  unfold envDetect
  split
  · split
    · exact wf_empty
    · exact wf_construct _ _
  · exact wf_empty

theorem wf_sdk (f : Str → V) (env) : Wf (sdkDetect f env) := wf_merge wf_empty (wf_new _)

theorem wf_telemetry (f : Str → V) (v) : Wf (telemetryDetect f v) := wf_merge wf_empty (wf_new _)

theorem last_map (f : Str → V) (kvs : List (Str × Str)) (k : Str) :
    Assoc.last (kvs.map fun p => (p.1, f p.2)) k = (Assoc.last kvs k).map f := by
  unfold Assoc.last
  rw [← List.map_reverse]
  generalize kvs.reverse = l
  induction l with
  | nil => rfl
  | cons p l ih =>
    rw [List.map_cons, Assoc.get_cons, Assoc.get_cons, ih]
    split <;> rfl

/-- C51. What the environment detector reports: for every text of `OTEL_RESOURCE_ATTRIBUTES`, exactly the well-formed entries, the last
occurrence of a key winning; nothing if the variable is not set. -/
theorem env_get (f : Str → V) (env : Sdk.Config.Env) (k : Str) (v : V) :
    (envDetect f env).get k = some v ↔
      ∃ s w, env "OTEL_RESOURCE_ATTRIBUTES".toList = some s ∧ Gives s k w ∧ v = f w := by
  have key : ∀ s, (construct f s).get k = ((Assoc.last ((split ',' s).filterMap parseEntry) k).map f) := by
    intro s
    show (Res.new _).get k = _
    rw [get_new, filterMap_splitTerminator, last_map]
  unfold envDetect
  cases he : env "OTEL_RESOURCE_ATTRIBUTES".toList with
  | none => simp only [reduceCtorEq, false_and, exists_const, iff_false]; intro h; cases h
  | some s =>
    simp only [Option.some.injEq]
    have hgen : (construct f s).get k = some v ↔ ∃ w, Gives s k w ∧ v = f w := by
      rw [key, Option.map_eq_some_iff]
      constructor
      · rintro ⟨w, hw, rfl⟩; exact ⟨w, (gives_iff s k w).1 (last_eq_some.1 hw), rfl⟩
      · rintro ⟨w, hw, rfl⟩; exact ⟨w, last_eq_some.2 ((gives_iff s k w).2 hw), rfl⟩
    split
    · rename_i hs
      have : s = [] := List.isEmpty_iff.1 hs
      subst this
      constructor
      · intro h; cases h
      · rintro ⟨s, w, rfl, hw, rfl⟩
        have := hgen.2 ⟨w, hw, rfl⟩
        cases this
    · rw [hgen]
      constructor
      · rintro ⟨w, h⟩; exact ⟨s, w, rfl, h⟩
      · rintro ⟨s, w, rfl, h⟩; exact ⟨w, h⟩

example : Gives "a=1, b = x=y ,junk,a=2,".toList "a".toList "2".toList ∧ Gives "a=1, b = x=y ,junk,a=2,".toList "b".toList "x=y".toList := by
  constructor
  · exact (gives_iff _ _ _).1 (last_eq_some.1 (by decide))
  · exact (gives_iff _ _ _).1 (last_eq_some.1 (by decide))

/-- C51 (finding). Entries with an empty key are accepted, and values are not percent-decoded although the specification encodes them as in
`baggage`. -/
theorem env_leniency_violated (f : Str → V) : ∃ env : Sdk.Config.Env,
    (envDetect f env).get [] = some (f "v".toList) ∧ (envDetect f env).get "k".toList = some (f "a%20b".toList) :=
  ⟨fun _ => some "=v,k=a%20b".toList, by rfl, by rfl⟩

theorem sdk_get (f : Str → V) (env : Sdk.Config.Env) (k : Str) : (sdkDetect f env).get k =
    if k = serviceName then some (match (match env "OTEL_SERVICE_NAME".toList with
        | some s => if s.isEmpty then none else some (f s) | none => none) with
      | some v => v
      | none => match (envDetect f env).get serviceName with | some v => v | none => f "unknown_service".toList) else none := by
  show (Res.new [_]).get k = _
  rw [get_new]
  show Assoc.get [_] k = _
  rw [Assoc.get_cons]
  by_cases h : k = serviceName
  · rw [if_pos h, if_pos h]; rfl
  · rw [if_neg h, if_neg h]; rfl

/-- C51. `SdkProvidedResourceDetector`: the service name follows the documented precedence. -/
theorem sdk_service_name (f : Str → V) (env : Sdk.Config.Env) :
    (∀ s, env "OTEL_SERVICE_NAME".toList = some s → s ≠ [] → (sdkDetect f env).get serviceName = some (f s)) ∧
    ((env "OTEL_SERVICE_NAME".toList = none ∨ env "OTEL_SERVICE_NAME".toList = some []) →
      (∀ s w, env "OTEL_RESOURCE_ATTRIBUTES".toList = some s → Gives s serviceName w → (sdkDetect f env).get serviceName = some (f w)) ∧
      ((∀ s w, env "OTEL_RESOURCE_ATTRIBUTES".toList = some s → ¬ Gives s serviceName w) →
        (sdkDetect f env).get serviceName = some (f "unknown_service".toList))) := by
  refine ⟨fun s hs hne => ?_, fun h => ⟨fun s w hs hw => ?_, fun hn => ?_⟩⟩
  · rw [sdk_get, if_pos rfl, hs]; simp [hne]
  · have hg := (env_get f env serviceName (f w)).2 ⟨s, w, hs, hw, rfl⟩
    rw [sdk_get, if_pos rfl, hg]
    rcases h with h | h <;> rw [h] <;> rfl
  · have hg : (envDetect f env).get serviceName = none := by
      cases hg : (envDetect f env).get serviceName with
      | none => rfl
      | some v => obtain ⟨s, w, h1, h2, _⟩ := (env_get f env serviceName v).1 hg; exact absurd h2 (hn s w h1)
    rw [sdk_get, if_pos rfl, hg]
    rcases h with h | h <;> rw [h] <;> rfl

theorem builder_get (f : Str → V) (ver : Str) (env : Sdk.Config.Env) (k : Str) : (builder f ver env).get k =
    ((envDetect f env).get k).or (((telemetryDetect f ver).get k).or ((sdkDetect f env).get k)) := by
  rw [builder, get_fromDetectors]
  · show (match (envDetect f env).get k with | some b => some b | none => match (telemetryDetect f ver).get k with
      | some b => some b | none => match (sdkDetect f env).get k with | some b => some b | none => none) = _
    cases (envDetect f env).get k <;> cases (telemetryDetect f ver).get k <;> cases (sdkDetect f env).get k <;> rfl
  · intro d hd
    simp only [List.mem_cons, List.not_mem_nil, or_false] at hd
    rcases hd with rfl | rfl | rfl
    · exact wf_sdk _ _
    · exact wf_telemetry _ _
    · exact wf_env _ _

theorem telemetry_service (f : Str → V) (ver : Str) : (telemetryDetect f ver).get serviceName = none := by rfl

/-- C51 (part). `Resource::builder()`: the service name follows the documented precedence if `OTEL_RESOURCE_ATTRIBUTES` does not contain
`service.name` or `OTEL_SERVICE_NAME` is not set. Missing: both set, where the code takes the one of `OTEL_RESOURCE_ATTRIBUTES`
(`service_name_violated`). -/
theorem service_name_partial (f : Str → V) (ver : Str) (env : Sdk.Config.Env) :
    ((∀ s w, env "OTEL_RESOURCE_ATTRIBUTES".toList = some s → ¬ Gives s serviceName w) →
      (∀ s, env "OTEL_SERVICE_NAME".toList = some s → s ≠ [] → (builder f ver env).get serviceName = some (f s)) ∧
      ((env "OTEL_SERVICE_NAME".toList = none ∨ env "OTEL_SERVICE_NAME".toList = some []) →
        (builder f ver env).get serviceName = some (f "unknown_service".toList))) ∧
    (∀ s w, env "OTEL_RESOURCE_ATTRIBUTES".toList = some s → Gives s serviceName w →
      (builder f ver env).get serviceName = some (f w)) := by
  refine ⟨fun hn => ?_, fun s w hs hw => ?_⟩
  · have hg : (envDetect f env).get serviceName = none := by
      cases hg : (envDetect f env).get serviceName with
      | none => rfl
      | some v => obtain ⟨s, w, h1, h2, _⟩ := (env_get f env serviceName v).1 hg; exact absurd h2 (hn s w h1)
    refine ⟨fun s hs hne => ?_, fun h => ?_⟩
    · rw [builder_get, hg, telemetry_service]; exact (sdk_service_name f env).1 s hs hne
    · rw [builder_get, hg, telemetry_service]; exact ((sdk_service_name f env).2 h).2 hn
  · rw [builder_get, (env_get f env serviceName (f w)).2 ⟨s, w, hs, hw, rfl⟩]; rfl

/-- C51 (finding). With both variables set, `Resource::builder()` takes the name of `OTEL_RESOURCE_ATTRIBUTES`, against the documented
precedence: the environment detector runs last. -/
theorem service_name_violated (f : Str → V) (ver : Str) : ∃ env : Sdk.Config.Env,
    env "OTEL_SERVICE_NAME".toList = some "mine".toList ∧ (builder f ver env).get serviceName = some (f "other".toList) := by
  let env : Sdk.Config.Env := fun k => if k = "OTEL_SERVICE_NAME".toList then some "mine".toList
    else if k = "OTEL_RESOURCE_ATTRIBUTES".toList then some "service.name=other".toList else none
  refine ⟨env, rfl, (service_name_partial f ver env).2 "service.name=other".toList _ rfl ?_⟩
  exact (gives_iff _ _ _).1 (last_eq_some.1 (by decide))

/-- C51. The SDK's own attributes are reported unless the environment names them. -/
theorem telemetry_reported (f : Str → V) (ver : Str) (env : Sdk.Config.Env) :
    ∀ k v, (k, v) ∈ [("telemetry.sdk.name", "opentelemetry".toList), ("telemetry.sdk.language", "rust".toList), ("telemetry.sdk.version", ver)] →
      (∀ s w, env "OTEL_RESOURCE_ATTRIBUTES".toList = some s → ¬ Gives s k.toList w) → (builder f ver env).get k.toList = some (f v) := by
  intro k v hk hn
  have hg : (envDetect f env).get k.toList = none := by
    cases hg : (envDetect f env).get k.toList with
    | none => rfl
    | some v => obtain ⟨s, w, h1, h2, _⟩ := (env_get f env k.toList v).1 hg; exact absurd h2 (hn s w h1)
  rw [builder_get, hg]
  simp only [List.mem_cons, Prod.mk.injEq, List.not_mem_nil, or_false] at hk
  rcases hk with ⟨rfl, rfl⟩ | ⟨rfl, rfl⟩ | ⟨rfl, rfl⟩ <;> rfl

/-- Every resource a program makes is well formed, whatever its detectors are. -/
theorem wf_build (f : Str → V) (ver : Str) (env : Sdk.Config.Env) (calls : List (Call V)) : Wf (build f ver env calls) := by
  have : ∀ r : Res V, Wf r → Wf (calls.foldl Res.call r) := by
    induction calls with
    | nil => exact fun r h => h
    | cons c cs ih =>
      intro r hr
      refine ih _ ?_
      cases c with
      | detectors ds => exact wf_merge hr (wf_fromDetectors _)
      | attributes kvs => exact wf_merge hr (wf_new _)
      | schemaUrl kvs u => exact wf_merge (wf_fromSchemaUrl _ _) hr
  exact this _ (wf_fromDetectors _)

/-- What a builder call says about a key: `some v` if its result for the key is `v`. -/
def Call.says (c : Call V) (k : Str) : Option V :=
  match c with
  | .detectors ds => ds.reverse.findSome? (·.get k)
  | .attributes kvs => Assoc.last kvs k
  | .schemaUrl _ _ => none

theorem call_get (r : Res V) (hr : Wf r) (c : Call V) (hc : ∀ ds, c = .detectors ds → ∀ d ∈ ds, Wf d) (k : Str) :
    (r.call c).get k = match c with
      | .schemaUrl kvs _ => (r.get k).or (Assoc.last kvs k)
      | c => (c.says k).or (r.get k) := by
  cases c with
  | detectors ds => show (r.merge _).get k = _; rw [merge_get_aux _ _ (wf_fromDetectors _), get_fromDetectors _ (hc ds rfl)]; rfl
  | attributes kvs => show (r.merge _).get k = _; rw [merge_get_aux _ _ (wf_new _), get_new]; rfl
  | schemaUrl kvs u => show (Res.merge _ r).get k = _; rw [merge_get_aux _ _ hr, get_fromSchemaUrl]

/-- C51. Programmatic attributes override detected ones and earlier calls: after `with_attributes` (also `with_attribute` and
`with_service_name`) the last value passed for a key is the resource's, until a later call sets that key again. `with_schema_url`'s
attributes never override. -/
theorem programmatic_wins (f : Str → V) (ver : Str) (env : Sdk.Config.Env) (calls later : List (Call V)) (kvs : List (Str × V))
    (k : Str) (v : V) (hv : LastPair kvs k v)
    (hl : ∀ c ∈ later, match c with
      | .detectors ds => ∀ d ∈ ds, Wf d ∧ d.get k = none
      | .attributes kvs' => NoPair kvs' k
      | .schemaUrl _ _ => True) :
    (build f ver env (calls ++ .attributes kvs :: later)).get k = some v := by
  have key : ∀ (r : Res V), Wf r → r.get k = some v → (later.foldl Res.call r).get k = some v := by
    clear hv
    induction later with
    | nil => exact fun r _ h => h
    | cons c cs ih =>
      intro r hr hg
      have hc := hl c List.mem_cons_self
      refine ih (fun c' h' => hl c' (List.mem_cons_of_mem _ h')) _ ?_ ?_
      · cases c with
        | detectors ds => exact wf_merge hr (wf_fromDetectors _)
        | attributes kvs => exact wf_merge hr (wf_new _)
        | schemaUrl kvs u => exact wf_merge (wf_fromSchemaUrl _ _) hr
      · rw [call_get r hr c (fun ds he d hd => by subst he; exact (hc d hd).1)]
        cases c with
        | detectors ds =>
          show ((ds.reverse.findSome? (·.get k)).or (r.get k)) = _
          have : ds.reverse.findSome? (·.get k) = none := by
            rw [List.findSome?_eq_none_iff]
            intro d hd
            exact (hc d (List.mem_reverse.1 hd)).2
          rw [this, hg]; rfl
        | attributes kvs =>
          show (Assoc.last kvs k).or (r.get k) = _
          rw [last_eq_none.2 hc, hg]; rfl
        | schemaUrl kvs u => show (r.get k).or _ = _; rw [hg]; rfl
  unfold build
  rw [List.foldl_append, List.foldl_cons]
  have hw := wf_build f ver env calls
  refine key _ (wf_merge hw (wf_new _)) ?_
  show (Res.merge _ _).get k = _
  rw [merge_get_aux _ _ (wf_new _), get_new, last_eq_some.2 hv]; rfl

example (f : Str → Nat) (env : Sdk.Config.Env) : (build f [] env [.attributes [(serviceName, 7)], .schemaUrl [(serviceName, 8)] []]).get serviceName = some 7 :=
  programmatic_wins f [] env [] [.schemaUrl [(serviceName, 8)] []] [(serviceName, 7)] serviceName 7 ⟨[], [], rfl, by simp⟩
    (by intro c hc; obtain rfl := List.mem_singleton.1 hc; trivial)

/-- C51. `with_schema_url` sets the url if none is set, keeps an equal one and drops a different one; its attributes fill gaps only. -/
theorem with_schema_url (r : Res V) (hr : Wf r) (kvs : List (Str × V)) (u : Str) (hu : u ≠ []) :
    (r.call (.schemaUrl kvs u)).schemaUrl =
      (match r.schemaUrl with | none => some u | some u' => if u' = u then some u else none) ∧
    (∀ k v, r.get k = some v → (r.call (.schemaUrl kvs u)).get k = some v) ∧
    (∀ k v, r.get k = none → ((r.call (.schemaUrl kvs u)).get k = some v ↔ LastPair kvs k v)) := by
  refine ⟨?_, fun k v h => ?_, fun k v h => ?_⟩
  · show (Res.merge _ _).schemaUrl = _
    rw [merge_schema_aux, (new_get kvs u []).2.2.2.2, if_neg hu]
    cases r.schemaUrl with
    | none => rfl
    | some u' => simp only [mergeUrl, eq_comm]
  · rw [call_get r hr _ (fun _ h => by cases h)]; show (r.get k).or _ = _; rw [h]; rfl
  · rw [call_get r hr _ (fun _ h => by cases h)]; show (r.get k).or _ = _ ↔ _; rw [h]
    show Assoc.last kvs k = some v ↔ _
    exact last_eq_some

/-- C51. Detectors given together: the last one that knows a key decides, over what was there before. -/
theorem with_detectors (r : Res V) (hr : Wf r) (ds : List (Res V)) (hd : ∀ d ∈ ds, Wf d) (k : Str) (v : V) :
    (r.call (.detectors ds)).get k = some v ↔
      (∃ pre d post, ds = pre ++ d :: post ∧ d.get k = some v ∧ ∀ d' ∈ post, d'.get k = none) ∨
      ((∀ d ∈ ds, d.get k = none) ∧ r.get k = some v) := by
  rw [call_get r hr _ (fun ds' h => by injection h with h; subst h; exact hd)]
  show ((ds.reverse.findSome? (·.get k)).or (r.get k)) = some v ↔ _
  rw [Option.or_eq_some_iff, List.findSome?_eq_some_iff, List.findSome?_eq_none_iff]
  constructor
  · rintro (⟨l1, a, l2, he, ha, hb⟩ | ⟨h1, h2⟩)
    · refine .inl ⟨l2.reverse, a, l1.reverse, ?_, ha, fun d hd => hb d (List.mem_reverse.1 hd)⟩
      have := congrArg List.reverse he
      rw [List.reverse_reverse] at this
      rw [this]; simp
    · exact .inr ⟨fun d hd => h1 d (List.mem_reverse.2 hd), h2⟩
  · rintro (⟨pre, d, post, rfl, hdv, hp⟩ | ⟨h1, h2⟩)
    · refine .inl ⟨post.reverse, d, pre.reverse, by simp, hdv, fun d' h => hp d' (List.mem_reverse.1 h)⟩
    · exact .inr ⟨fun d hd => h1 d (List.mem_reverse.1 hd), h2⟩

/-- C51 (finding). The schema url of what a detector returns is lost. -/
theorem detector_schema_violated : ∃ d : Res V, d.schemaUrl = some "u".toList ∧ (Res.empty.call (.detectors [d])).schemaUrl = none :=
  ⟨⟨[], some "u".toList⟩, rfl, rfl⟩

end Otel.Resource
