import Verif.Metrics.InstrumentsProps
/-!
# Views (`opentelemetry-sdk/src/metrics/view.rs`, `new_view`) and the creation of instruments by a meter (C70)
-/

namespace Otel.Metrics.Inst
open Rust (Str F64)

/-! ## Model -/

/-- `Aggregation::validate`. aggregation.rs:110-148 -/
def Aggregation.validate : Aggregation → Bool
  | .explicitBucketHistogram bs _ => (bs.zip bs.tail).all fun p => !(F64.ge p.1 p.2)
  | .base2ExponentialHistogram _ scale _ => decide (¬ scale > 20) && decide (¬ scale < -10)
  | _ => true

/-- `Instrument::is_empty`. instrument.rs:132-138 -/
def Instrument.isEmpty (c : Instrument) : Bool :=
  c.name.isEmpty && c.description.isEmpty && c.kind.isNone && c.unit.isEmpty && decide (c.scope = Scope.default)

/-- `matches_name`. instrument.rs:148-150 -/
def Instrument.matchesName (c i : Instrument) : Bool := c.name.isEmpty || decide (c.name = i.name)
/-- `matches_description`. instrument.rs:152-154 -/
def Instrument.matchesDescription (c i : Instrument) : Bool := c.description.isEmpty || decide (c.description = i.description)
/-- `matches_kind`. instrument.rs:156-158 -/
def Instrument.matchesKind (c i : Instrument) : Bool := c.kind.isNone || decide (c.kind = i.kind)
/-- `matches_unit`. instrument.rs:160-162 -/
def Instrument.matchesUnit (c i : Instrument) : Bool := c.unit.isEmpty || decide (c.unit = i.unit)
/-- `matches_scope`. instrument.rs:164-170 -/
def Instrument.matchesScope (c i : Instrument) : Bool :=
  (c.scope.name.isEmpty || decide (c.scope.name = i.scope.name)) &&
  (c.scope.version.isNone || decide (c.scope.version = i.scope.version)) &&
  (c.scope.schemaUrl.isNone || decide (c.scope.schemaUrl = i.scope.schemaUrl))

/-- `matches`. instrument.rs:140-146 -/
def Instrument.matches' (c i : Instrument) : Bool :=
  c.matchesName i && c.matchesDescription i && c.matchesKind i && c.matchesUnit i && c.matchesScope i

/-- The stream of a view for an instrument it matches. view.rs:141-159 -/
def maskStream (mask : Stream) (agg : Option Aggregation) (i : Instrument) : Stream where
  name := if mask.name.isEmpty then i.name else mask.name
  description := if mask.description.isEmpty then i.description else mask.description
  unit := if mask.unit.isEmpty then i.unit else mask.unit
  aggregation := agg
  allowedKeys := mask.allowedKeys
  cardinalityLimit := mask.cardinalityLimit

/-- `new_view`. `glob` is `glob::Pattern::new` with `Pattern::matches`, an external crate; `none` is an error. view.rs:105-170 -/
def newView (glob : Str → Option (Str → Bool)) (criteria : Instrument) (mask : Stream) : Option View :=
  if criteria.isEmpty then some fun _ => none
  else
    let rest (matchFn : Instrument → Bool) : Option View :=
      match mask.aggregation with
      | none => some fun i => if matchFn i then some (maskStream mask none i) else none
      | some a =>
        if a.validate then some fun i => if matchFn i then some (maskStream mask (some a) i) else none
        else some fun _ => none
    if criteria.name.any (fun c => c == '*' || c == '?') then
      if mask.name.isEmpty = false then some fun _ => none
      else
        match glob criteria.name with
        | none => none
        | some g => rest fun i => g i.name && criteria.matchesDescription i && criteria.matchesKind i && criteria.matchesUnit i && criteria.matchesScope i
    else rest fun i => criteria.matches' i

/-! ## Specification -/

/-- A string that is set must be the same. -/
def SetAndEqual (c i : Str) : Prop := c ≠ [] → i = c
/-- A value that is set must be the same. -/
def SomeAndEqual {α : Type} (c i : Option α) : Prop := ∀ x, c = some x → i = some x

/-- What the criteria say beyond the name: description, kind, unit and the scope's name, version and schema URL. -/
def Selects (c i : Instrument) : Prop :=
  SetAndEqual c.description i.description ∧ SomeAndEqual c.kind i.kind ∧ SetAndEqual c.unit i.unit ∧
  SetAndEqual c.scope.name i.scope.name ∧ SomeAndEqual c.scope.version i.scope.version ∧ SomeAndEqual c.scope.schemaUrl i.scope.schemaUrl

/-- A view that would select nothing in particular. -/
def Unselective (c : Instrument) : Prop := c = ⟨[], [], none, [], Scope.default⟩

/-- The mask's value where there is one. -/
def orElse (mask own : Str) : Str := match mask with | [] => own | m => m

/-- Whether a pattern has a wildcard. -/
def Wild (name : Str) : Prop := '*' ∈ name ∨ '?' ∈ name

/-! ## Theorems -/

theorem set_iff (c i : Str) : (c.isEmpty || decide (c = i)) = true ↔ SetAndEqual c i := by
  unfold SetAndEqual
  cases c with
  | nil => simp
  | cons x l =>
    rw [List.isEmpty_cons, Bool.false_or, decide_eq_true_eq]
    exact ⟨fun h _ => h.symm, fun h => (h (by simp)).symm⟩

theorem some_iff {α : Type} [DecidableEq α] (c i : Option α) : (c.isNone || decide (c = i)) = true ↔ SomeAndEqual c i := by
  unfold SomeAndEqual
  cases c with
  | none => simp
  | some x =>
    simp only [Option.isNone_some, Bool.false_or, decide_eq_true_eq]
    constructor
    · rintro h y hy; rw [← hy]; exact h.symm
    · intro h; exact (h x rfl).symm

theorem isEmpty_iff (c : Instrument) : c.isEmpty = true ↔ Unselective c := by
  unfold Instrument.isEmpty Unselective
  cases c with
  | mk n d k u s => cases k <;> simp [List.isEmpty_iff, and_assoc]

theorem wild_iff (n : Str) : n.any (fun c => c == '*' || c == '?') = true ↔ Wild n := by
  unfold Wild
  rw [List.any_eq_true]
  constructor
  · rintro ⟨c, hc, h⟩
    simp only [Bool.or_eq_true, beq_iff_eq] at h
    rcases h with rfl | rfl
    · exact Or.inl hc
    · exact Or.inr hc
  · rintro (h | h)
    · exact ⟨_, h, rfl⟩
    · exact ⟨_, h, rfl⟩

theorem selects_iff (c i : Instrument) :
    (c.matchesDescription i && c.matchesKind i && c.matchesUnit i && c.matchesScope i) = true ↔ Selects c i := by
  unfold Selects Instrument.matchesDescription Instrument.matchesKind Instrument.matchesUnit Instrument.matchesScope
  simp only [Bool.and_eq_true, set_iff, some_iff, and_assoc]

theorem maskStream_eq (mask : Stream) (a : Option Aggregation) (i : Instrument) :
    maskStream mask a i = ⟨orElse mask.name i.name, orElse mask.description i.description, orElse mask.unit i.unit, a, mask.allowedKeys, mask.cardinalityLimit⟩ := by
  unfold maskStream orElse
  cases mask.name <;> cases mask.description <;> cases mask.unit <;> rfl

/-- Property C70. A view selects an instrument exactly if every field of the criteria that is set is the same in the instrument; the stream
has the mask's name, description and unit where they are set, and the instrument's where they are not. -/
theorem view_exact (glob : Str → Option (Str → Bool)) (criteria : Instrument) (mask : Stream) (hsel : ¬ Unselective criteria)
    (hname : ¬ Wild criteria.name) (hagg : ∀ a, mask.aggregation = some a → a.validate = true) :
    ∃ v, newView glob criteria mask = some v ∧ ∀ i s, v i = some s ↔
      (SetAndEqual criteria.name i.name ∧ Selects criteria i) ∧
      s = ⟨orElse mask.name i.name, orElse mask.description i.description, orElse mask.unit i.unit, mask.aggregation, mask.allowedKeys, mask.cardinalityLimit⟩ := by
  have hm : ∀ i, criteria.matches' i = true ↔ SetAndEqual criteria.name i.name ∧ Selects criteria i := by
    intro i
    rw [← selects_iff, ← set_iff]
    unfold Instrument.matches' Instrument.matchesName
    simp only [Bool.and_eq_true, and_assoc]
  unfold newView
  rw [if_neg (by rw [isEmpty_iff]; exact hsel)]
  dsimp only
  rw [if_neg (by rw [wild_iff]; exact hname)]
  cases ha : mask.aggregation with
  | none =>
    refine ⟨_, rfl, fun i s => ?_⟩
    rw [← hm, ← maskStream_eq]
    by_cases h : criteria.matches' i = true
    · simp only [h, if_true, Option.some.injEq, true_and]; exact eq_comm
    · simp [h]
  | some a =>
    dsimp only
    rw [if_pos (hagg a ha)]
    refine ⟨_, rfl, fun i s => ?_⟩
    rw [← hm, ← maskStream_eq]
    by_cases h : criteria.matches' i = true
    · simp only [h, if_true, Option.some.injEq, true_and]; exact eq_comm
    · simp [h]

/-- Property C70. The same for a name with wildcards, which are matched by the glob. -/
theorem view_wildcard (glob : Str → Option (Str → Bool)) (criteria : Instrument) (mask : Stream) (g : Str → Bool)
    (hname : Wild criteria.name) (hg : glob criteria.name = some g) (hmask : mask.name = [])
    (hagg : ∀ a, mask.aggregation = some a → a.validate = true) :
    ∃ v, newView glob criteria mask = some v ∧ ∀ i s, v i = some s ↔
      (g i.name = true ∧ Selects criteria i) ∧
      s = ⟨i.name, orElse mask.description i.description, orElse mask.unit i.unit, mask.aggregation, mask.allowedKeys, mask.cardinalityLimit⟩ := by
  have hm : ∀ i, (g i.name && criteria.matchesDescription i && criteria.matchesKind i && criteria.matchesUnit i && criteria.matchesScope i) = true ↔
      g i.name = true ∧ Selects criteria i := by
    intro i
    rw [← selects_iff]
    simp only [Bool.and_eq_true, and_assoc]
  have hsel : ¬ Unselective criteria := by
    intro h; rw [h] at hname; rcases hname with h | h <;> cases h
  have hms : ∀ a i, maskStream mask a i = ⟨i.name, orElse mask.description i.description, orElse mask.unit i.unit, a, mask.allowedKeys, mask.cardinalityLimit⟩ := by
    intro a i; rw [maskStream_eq, hmask]; rfl
  unfold newView
  rw [if_neg (by rw [isEmpty_iff]; exact hsel)]
  dsimp only
  rw [if_pos (by rw [wild_iff]; exact hname), if_neg (by rw [hmask]; simp), hg]
  dsimp only
  cases ha : mask.aggregation with
  | none =>
    refine ⟨_, rfl, fun i s => ?_⟩
    rw [← hm, ← hms]
    by_cases h : (g i.name && criteria.matchesDescription i && criteria.matchesKind i && criteria.matchesUnit i && criteria.matchesScope i) = true
    · simp only [h, if_true, Option.some.injEq, true_and]; exact eq_comm
    · simp [h]
  | some a =>
    dsimp only
    rw [if_pos (hagg a ha)]
    refine ⟨_, rfl, fun i s => ?_⟩
    rw [← hm, ← hms]
    by_cases h : (g i.name && criteria.matchesDescription i && criteria.matchesKind i && criteria.matchesUnit i && criteria.matchesScope i) = true
    · simp only [h, if_true, Option.some.injEq, true_and]; exact eq_comm
    · simp [h]

/-- Property C70. A view with no criteria, one that would give several instruments one name, and one with an invalid aggregation select
nothing. -/
theorem view_inert (glob : Str → Option (Str → Bool)) (criteria : Instrument) (mask : Stream) (v : View) (hv : newView glob criteria mask = some v)
    (h : Unselective criteria ∨ (Wild criteria.name ∧ mask.name ≠ []) ∨ (∃ a, mask.aggregation = some a ∧ a.validate = false)) (i : Instrument) : v i = none := by
  unfold newView at hv
  split at hv
  · injection hv with hv; rw [← hv]
  · rename_i hne
    rw [isEmpty_iff] at hne
    dsimp only at hv
    rcases h with h | h | ⟨a, ha, hb⟩
    · exact absurd h hne
    · rw [if_pos (by rw [wild_iff]; exact h.1), if_pos (by cases hm : mask.name <;> simp_all)] at hv
      injection hv with hv; rw [← hv]
    · rw [ha] at hv
      dsimp only at hv
      split at hv
      · split at hv
        · injection hv with hv; rw [← hv]
        · split at hv
          · cases hv
          · rw [if_neg (by rw [hb]; simp)] at hv
            injection hv with hv; rw [← hv]
      · rw [if_neg (by rw [hb]; simp)] at hv
        injection hv with hv; rw [← hv]

/-- Property C70. The scales of an exponential histogram a view may ask for, and, for boundaries that are not NaN, strictly increasing ones. -/
theorem validate_expo (n : Nat) (scale : Int) (m : Bool) :
    (Aggregation.base2ExponentialHistogram n scale m).validate = true ↔ -10 ≤ scale ∧ scale ≤ 20 := by
  unfold Aggregation.validate
  simp only [Bool.and_eq_true, decide_eq_true_eq]
  omega

theorem validate_explicit (bs : List F64) (m : Bool) (hn : ∀ b ∈ bs, b ≠ .nan) :
    (Aggregation.explicitBucketHistogram bs m).validate = true ↔ ∀ k (h : k + 1 < bs.length), F64.lt bs[k] bs[k+1] = true := by
  unfold Aggregation.validate
  rw [List.all_eq_true]
  have key : ∀ a b : F64, a ≠ .nan → b ≠ .nan → ((!(F64.ge a b)) = true ↔ F64.lt a b = true) := by
    intro a b ha hb; unfold F64.lt; simp [ha, hb]
  constructor
  · intro h k hk
    have hm : (bs[k], bs[k+1]) ∈ bs.zip bs.tail := by
      rw [List.mem_iff_getElem]
      refine ⟨k, by simp; omega, by simp⟩
    exact (key _ _ (hn _ (List.getElem_mem _)) (hn _ (List.getElem_mem _))).1 (h _ hm)
  · rintro h ⟨a, b⟩ hm
    obtain ⟨k, hk, he⟩ := List.mem_iff_getElem.1 hm
    simp only [List.length_zip, List.length_tail] at hk
    simp only [List.getElem_zip, List.getElem_tail, Prod.mk.injEq] at he
    rw [← he.1, ← he.2]
    exact (key _ _ (hn _ (List.getElem_mem _)) (hn _ (List.getElem_mem _))).2 (h k (by omega))

/-- What `view_exact` requires holds of a view that renames one instrument; it selects that one and no other. -/
example : ∃ v, newView (fun _ => none) (exInst "a" .counter) ⟨"b".toList, [], [], some .sum, none, none⟩ = some v ∧
    (v (exInst "a" .counter)).map Stream.name = some "b".toList ∧ v (exInst "c" .counter) = none := by
  refine ⟨_, rfl, by decide +kernel, by decide +kernel⟩

/-- The criteria's scope attributes are not looked at: a view for a scope with an attribute selects every instrument. -/
theorem scope_attributes_ignored_violated (i : Instrument) :
    ∃ v, newView (fun _ => none) ⟨[], [], none, [], ⟨[], none, none, [("tenant".toList, "a".toList)]⟩⟩ ⟨[], [], [], some .drop, none, none⟩ = some v ∧
      v i ≠ none := by
  refine ⟨_, rfl, ?_⟩
  simp [Instrument.matches', Instrument.matchesName, Instrument.matchesDescription, Instrument.matchesKind, Instrument.matchesUnit, Instrument.matchesScope]

/-- A view may have NaN and infinite boundaries, which `validate_bucket_boundaries` refuses for an instrument's own. -/
theorem view_nan_boundaries_violated :
    (Aggregation.explicitBucketHistogram [.fin 5, .nan, .fin 1, .posInf] true).validate = true ∧
    validateBucketBoundaries [.fin 5, .nan, .fin 1, .posInf] = false := by decide

/-! ## Creating an instrument (C46, C47) -/

/-- An instrument with an invalid name or unit, or invalid boundaries, has no effect: no aggregator is made for any reader, and its
measurements go nowhere. -/
theorem invalid_instrument_ignored (views : List View) (temps : Nat → Kind → Temporality) (r : Request) (unit : Option Str) (ps : List Pipe)
    (h : ¬ ValidName r.inst.name ∨ (∃ u, unit = some u ∧ ¬ ValidUnit u) ∨ ∃ b, r.boundaries = some b ∧ validateBucketBoundaries b = false) :
    create views temps r unit ps = (ps, []) := by
  unfold create
  cases hv : validateConfig r.inst.name unit with
  | error e => rfl
  | ok u =>
    dsimp only
    have hv' := (config_valid_iff _ _).1 hv
    rcases h with h | ⟨u, hu, h⟩ | ⟨b, hb, h⟩
    · exact absurd hv'.1 h
    · exact absurd (hv'.2 u hu) h
    · rw [hb]
      simp [h]

theorem measures_spec (views : List View) (temps : Nat → Kind → Temporality) (r : Request) (ps : List Pipe) (k : Nat)
    (hok : ∀ i (h : i < ps.length), (instrument views (temps (k + i)) r.number ps[i] r.inst r.boundaries r.limit).2 ≠ none) :
    (measures views temps r k ps).1.length = ps.length ∧
    ∃ ms, (measures views temps r k ps).2 = some ms ∧ ∀ i a, (i, a) ∈ ms ↔
      ∃ j, ∃ h : j < ps.length, i = k + j ∧ ∃ l, (instrument views (temps (k + j)) r.number ps[j] r.inst r.boundaries r.limit).2 = some l ∧ a ∈ l := by
  induction ps generalizing k with
  | nil => exact ⟨rfl, [], rfl, by simp⟩
  | cons p ps ih =>
    obtain ⟨h1, ms, h2, h3⟩ := ih (k + 1) (by
      intro i h
      have := hok (i + 1) (by simpa using h)
      rw [show k + 1 + i = k + (i + 1) by omega]
      simpa using this)
    have h0 := hok 0 (by simp)
    simp only [Nat.add_zero, List.getElem_cons_zero] at h0
    obtain ⟨l, hl⟩ := Option.ne_none_iff_exists'.1 h0
    unfold measures
    dsimp only
    rw [hl, h2]
    refine ⟨by simp [h1], _, rfl, ?_⟩
    intro i a
    rw [List.mem_append, List.mem_map, h3]
    constructor
    · rintro (⟨n, hn, he⟩ | ⟨j, hj, rfl, l', hl', ha⟩)
      · injection he with he1 he2
        subst he1 he2
        exact ⟨0, by simp, rfl, l, hl, hn⟩
      · refine ⟨j + 1, by simpa using hj, by omega, l', ?_, ha⟩
        rw [show k + (j + 1) = k + 1 + j by omega]
        simpa using hl'
    · rintro ⟨j, hj, rfl, l', hl', ha⟩
      cases j with
      | zero =>
        simp only [Nat.add_zero, List.getElem_cons_zero] at hl'
        rw [hl] at hl'
        injection hl' with hl'
        subst hl'
        exact Or.inl ⟨a, ha, rfl⟩
      | succ j =>
        refine Or.inr ⟨j, by simpa using hj, by omega, l', ?_, ha⟩
        rw [show k + 1 + j = k + (j + 1) by omega]
        simpa using hl'

/-- Every reader has its own aggregators for a valid instrument, and a measurement reaches all of them. -/
theorem create_feeds_every_reader (views : List View) (temps : Nat → Kind → Temporality) (r : Request) (unit : Option Str) (ps : List Pipe) (kind : Kind)
    (hk : r.inst.kind = some kind) (hreach : ∀ i (h : i < ps.length), Reach views (temps i) ps[i])
    (hd : ∀ v ∈ views, ∀ i s, v i = some s → s.aggregation ≠ some .drop)
    (hvalid : ValidName r.inst.name ∧ ∀ u, unit = some u → ValidUnit u) (hb : ∀ b, r.boundaries = some b → validateBucketBoundaries b = true)
    (hc : ∀ s ∈ streamsOf views r.inst r.boundaries r.limit, compatible kind (resolved kind s) = true)
    (i : Nat) (hi : i < ps.length) (s : Stream) (hs : s ∈ streamsOf views r.inst r.boundaries r.limit) :
    ∃ a, (i, a) ∈ (create views temps r unit ps).2 := by
  obtain ⟨-, ms, h2, h3⟩ := measures_spec views temps r ps 0 (by
    intro i h
    rw [Nat.zero_add]
    exact refused_only_incompatible views (temps i) _ (hreach i h) r kind hk hc)
  have hcr : (create views temps r unit ps).2 = ms := by
    unfold create
    rw [(config_valid_iff _ _).2 hvalid]
    dsimp only
    rw [if_neg (by
      cases hbb : r.boundaries with
      | none => simp
      | some b => simp [hb b hbb])]
    generalize measures views temps r 0 ps = m at h2
    obtain ⟨ps', res⟩ := m
    dsimp only at h2
    subst h2
    rfl
  rw [hcr]
  have h0 := refused_only_incompatible views (temps i) _ (hreach i hi) r kind hk hc
  obtain ⟨l, hl⟩ := Option.ne_none_iff_exists'.1 h0
  generalize hgen : instrument views (temps i) r.number ps[i] r.inst r.boundaries r.limit = res at hl
  obtain ⟨p', o⟩ := res
  dsimp only at hl
  subst hl
  obtain ⟨y, -, -, ha⟩ := every_stream_collected views (temps i) _ (hreach i hi) hd r kind hk p' l hgen s hs
  exact ⟨y.agg, (h3 i _).2 ⟨i, hi, by omega, l, by rw [Nat.zero_add, hgen], ha⟩⟩

/-- Two readers, one counter: an aggregator for each. -/
example : (create [] (fun _ => exTemp) (exReq "c" .counter) none [.init, .init]).2 = [(0, 0), (1, 0)] := by decide +kernel

/-- Temporality: what a reader that prefers delta gets for each kind. -/
theorem temporality_table (k : Kind) (t : Temporality) : temporalityPreference k t = .delta ↔
    (t = .delta ∧ k ≠ .upDownCounter ∧ k ≠ .observableUpDownCounter) ∨ (t = .lowMemory ∧ (k = .counter ∨ k = .histogram)) := by
  cases k <;> cases t <;> decide

/-- No instrument is asked for low-memory temporality itself. -/
theorem temporality_concrete (k : Kind) (t : Temporality) : temporalityPreference k t ≠ .lowMemory := by
  cases k <;> cases t <;> decide

end Otel.Metrics.Inst
