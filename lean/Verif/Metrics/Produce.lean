/-!
# Collecting into a buffer (`opentelemetry-sdk/src/metrics/pipeline.rs`, `Pipeline::produce`) (C45)

`produce` writes into a `ResourceMetrics` that may hold the result of an earlier collection, and reuses its vectors.
What each instrument has to report at the moment of the collection is a parameter (`Collected`): computing it does not look at the
buffer.
-/

namespace Otel.Metrics

/-- `AggregatedMetrics::{F64, U64, I64}`. opentelemetry-sdk/src/metrics/data/mod.rs:62-74 -/
inductive NumKind where
  | f64 | u64 | i64
deriving DecidableEq

/-- `Temporality`. opentelemetry-sdk/src/metrics/mod.rs:99-117 -/
inductive Temporality where
  | cumulative | delta | lowMemory
deriving DecidableEq

/-- `MetricData<T>` with its four structs; the points are of an arbitrary type. data/mod.rs:76-280 -/
inductive MetricData (P : Type) where
  | gauge (points : List P) (startTime : Option Nat) (time : Nat)
  | sum (points : List P) (startTime time : Nat) (temporality : Temporality) (isMonotonic : Bool)
  | histogram (points : List P) (startTime time : Nat) (temporality : Temporality)
  | exponentialHistogram (points : List P) (startTime time : Nat) (temporality : Temporality)

/-- `AggregatedMetrics` -/
structure Aggregated (P : Type) where
  num : NumKind
  data : MetricData P

/-- Which of the aggregations an instrument has. -/
inductive AggKind where
  | lastValue
  | sum (isMonotonic : Bool)
  | histogram
  | expoHistogram

/-- What an aggregation has to report now. -/
structure Collected (P : Type) where
  num : NumKind
  kind : AggKind
  temporality : Temporality
  start : Nat
  now : Nat
  points : List P

variable {P : Type}

/-- `prepare_data` followed by one `push` per point. internal/mod.rs:163-223 -/
def fill (dest : List P) (points : List P) : List P := points.foldl (fun d p => d ++ [p]) (dest.take 0)

/-- The new value made when there is none to reuse, then filled as a reused one. sum.rs:72-95 and the like -/
def Collected.fresh (c : Collected P) : MetricData P :=
  match c.kind with
  | .lastValue => .gauge (fill [] c.points) (some c.start) c.now
  | .sum m => .sum (fill [] c.points) c.start c.now c.temporality m
  | .histogram => .histogram (fill [] c.points) c.start c.now c.temporality
  | .expoHistogram => .exponentialHistogram (fill [] c.points) c.start c.now c.temporality

/-- `ComputeAggregation::call`: the number of points, the new value if none was reused, and the buffer afterwards.
sum.rs:70-170, last_value.rs:66-159, histogram.rs:111-252, exponential_histogram.rs:390-541, precomputed_sum.rs:38-153 -/
def Collected.call (c : Collected P) (dest : Option (Aggregated P)) : Nat × Option (Aggregated P) × Option (Aggregated P) :=
  match dest with
  | none => (c.points.length, some ⟨c.num, c.fresh⟩, none)
  | some d =>
    if d.num = c.num then
      match c.kind, d.data with
      | .lastValue, .gauge pts _ _ => ((fill pts c.points).length, none, some ⟨d.num, .gauge (fill pts c.points) (some c.start) c.now⟩)
      | .sum m, .sum pts _ _ _ _ =>
        ((fill pts c.points).length, none, some ⟨d.num, .sum (fill pts c.points) c.start c.now c.temporality m⟩)
      | .histogram, .histogram pts _ _ _ =>
        ((fill pts c.points).length, none, some ⟨d.num, .histogram (fill pts c.points) c.start c.now c.temporality⟩)
      | .expoHistogram, .exponentialHistogram pts _ _ _ =>
        ((fill pts c.points).length, none, some ⟨d.num, .exponentialHistogram (fill pts c.points) c.start c.now c.temporality⟩)
      | _, _ => (c.points.length, some ⟨c.num, c.fresh⟩, some d)
    else (c.points.length, some ⟨c.num, c.fresh⟩, some d)

/-- `Metric`. data/mod.rs:33-42 -/
structure Metric (S P : Type) where
  name : S
  description : S
  unit : S
  data : Aggregated P

/-- `ScopeMetrics`. data/mod.rs:22-27; `scope` is `Default` when pushed. -/
structure ScopeMetrics (C S P : Type) where
  scope : C
  metrics : List (Metric S P)

/-- `ResourceMetrics`. data/mod.rs:13-18 -/
structure ResourceMetrics (R C S P : Type) where
  resource : R
  scopeMetrics : List (ScopeMetrics C S P)

/-- `InstrumentSync` with what its aggregation reports now. pipeline.rs:177-182 -/
structure InstSync (S P : Type) where
  name : S
  description : S
  unit : S
  agg : Collected P

variable {R C S : Type}

/-- The body of the inner loop. pipeline.rs:139-162 -/
def produceInst (st : List (Metric S P) × Nat) (inst : InstSync S P) : List (Metric S P) × Nat :=
  match st.1[st.2]? with
  | none =>
    match inst.agg.call none with
    | (len, some initial, _) =>
      if len > 0 then (st.1 ++ [⟨inst.name, inst.description, inst.unit, initial⟩], st.2 + 1) else st
    | (_, none, _) => st
  | some prev =>
    match inst.agg.call (some prev.data) with
    | (len, data, dest) =>
      if len > 0 then (st.1.set st.2 ⟨inst.name, inst.description, inst.unit, data.getD (dest.getD prev.data)⟩, st.2 + 1)
      else (st.1.set st.2 { prev with data := dest.getD prev.data }, st.2)

/-- The body of the outer loop. pipeline.rs:123-172 -/
def produceScope (dflt : C) (st : List (ScopeMetrics C S P) × Nat) (s : C × List (InstSync S P)) : List (ScopeMetrics C S P) × Nat :=
  let sms : List (ScopeMetrics C S P) := match st.1[st.2]? with
    | some _ => st.1
    | none => st.1 ++ [⟨dflt, []⟩]
  let sm := (sms[st.2]?).getD ⟨dflt, []⟩
  let r := s.2.foldl produceInst (sm.metrics, 0)
  let ms := r.1.take r.2
  if ms.isEmpty then (sms.set st.2 ⟨sm.scope, ms⟩, st.2) else (sms.set st.2 ⟨s.1, ms⟩, st.2 + 1)

/-- `produce` after the callbacks ran; `aggregations` in the order of iteration of the hash map. pipeline.rs:103-173 -/
def produce (dflt : C) (resource : R) (aggregations : List (C × List (InstSync S P))) (rm : ResourceMetrics R C S P) : ResourceMetrics R C S P :=
  let r := aggregations.foldl (produceScope dflt) (rm.scopeMetrics, 0)
  ⟨resource, r.1.take r.2⟩

/-! ## Specification -/

/-- The metric of an instrument that has points. -/
def metricOf (i : InstSync S P) : Option (Metric S P) :=
  if i.agg.points = [] then none else some ⟨i.name, i.description, i.unit, i.agg.num, match i.agg.kind with
    | .lastValue => .gauge i.agg.points (some i.agg.start) i.agg.now
    | .sum m => .sum i.agg.points i.agg.start i.agg.now i.agg.temporality m
    | .histogram => .histogram i.agg.points i.agg.start i.agg.now i.agg.temporality
    | .expoHistogram => .exponentialHistogram i.agg.points i.agg.start i.agg.now i.agg.temporality⟩

/-- The scopes that have a metric. -/
def scopeOf (s : C × List (InstSync S P)) : Option (ScopeMetrics C S P) :=
  if s.2.filterMap metricOf = [] then none else some ⟨s.1, s.2.filterMap metricOf⟩

/-! ## Proofs -/

theorem fill_eq (dest points : List P) : fill dest points = points := by
  have : ∀ acc : List P, points.foldl (fun d p => d ++ [p]) acc = acc ++ points := by
    induction points with
    | nil => simp
    | cons p ps ih => intro acc; simp [ih]
  simp [fill, this]

theorem call_spec (c : Collected P) (dest : Option (Aggregated P)) :
    (c.call dest).1 = c.points.length
      ∧ ((c.call dest).2.1 = some ⟨c.num, c.fresh⟩ ∨ ((c.call dest).2.1 = none ∧ (c.call dest).2.2 = some ⟨c.num, c.fresh⟩))
      ∧ (dest = none → (c.call dest).2.1 = some ⟨c.num, c.fresh⟩) := by
  cases dest with
  | none => exact ⟨rfl, Or.inl rfl, fun _ => rfl⟩
  | some d =>
    simp only [Collected.call]
    split
    · rename_i hn
      split <;> rename_i hk hd
      all_goals first
        | (refine ⟨by simp [fill_eq], Or.inr ⟨rfl, ?_⟩, by simp⟩; simp only [fill_eq, hn, Collected.fresh, hk])
        | exact ⟨rfl, Or.inl rfl, by simp⟩
    · exact ⟨rfl, Or.inl rfl, by simp⟩

theorem fresh_metric (i : InstSync S P) (h : i.agg.points ≠ []) :
    metricOf i = some ⟨i.name, i.description, i.unit, i.agg.num, i.agg.fresh⟩ := by
  simp only [metricOf, if_neg h, Collected.fresh, fill_eq]

theorem take_set_self {α : Type} (l : List α) (j : Nat) (x : α) (h : j < l.length) : (l.set j x).take (j + 1) = l.take j ++ [x] := by
  rw [List.take_succ_eq_append_getElem (by simpa using h), List.getElem_set_self]
  congr 1
  rw [List.take_set_of_le (Nat.le_refl j)]

theorem produceInst_spec (st : List (Metric S P) × Nat) (i : InstSync S P) (h : st.2 ≤ st.1.length) :
    (produceInst st i).2 ≤ (produceInst st i).1.length
      ∧ (produceInst st i).1.take (produceInst st i).2 = st.1.take st.2 ++ (metricOf i).toList := by
  obtain ⟨ms, j⟩ := st
  simp only at h
  unfold produceInst
  cases hj : ms[j]? with
  | none =>
    have hlen : ms.length ≤ j := List.getElem?_eq_none_iff.1 hj
    have hjl : j = ms.length := Nat.le_antisymm h hlen
    obtain ⟨h1, _, h3⟩ := call_spec i.agg none
    have h3 := h3 rfl
    simp only
    generalize hcall : i.agg.call none = r at h1 h3
    obtain ⟨len, new, d⟩ := r
    simp only at h1 h3
    subst h3
    subst h1
    simp only
    by_cases hp : i.agg.points = []
    · simp only [hp, List.length_nil, gt_iff_lt, Nat.lt_irrefl, if_false, metricOf, if_true, Option.toList_none, List.append_nil]
      exact ⟨h, trivial⟩
    · have : 0 < i.agg.points.length := List.length_pos_iff.2 hp
      simp only [gt_iff_lt, this, if_true, fresh_metric i hp, Option.toList_some]
      subst hjl
      exact ⟨by simp, by rw [List.take_of_length_le (by simp), List.take_of_length_le (Nat.le_refl _)]⟩
  | some prev =>
    have hlt : j < ms.length := (List.getElem?_eq_some_iff.1 hj).1
    obtain ⟨h1, h2, _⟩ := call_spec i.agg (some prev.data)
    simp only
    generalize hcall : i.agg.call (some prev.data) = r at h1 h2
    obtain ⟨len, new, d⟩ := r
    simp only at h1 h2
    subst h1
    simp only
    by_cases hp : i.agg.points = []
    · simp only [hp, List.length_nil, gt_iff_lt, Nat.lt_irrefl, if_false, metricOf, if_true, Option.toList_none, List.append_nil]
      exact ⟨by simpa using h, List.take_set_of_le (Nat.le_refl j)⟩
    · have : 0 < i.agg.points.length := List.length_pos_iff.2 hp
      simp only [gt_iff_lt, this, if_true, fresh_metric i hp, Option.toList_some]
      refine ⟨by rw [List.length_set]; exact hlt, ?_⟩
      rw [take_set_self _ _ _ hlt]
      rcases h2 with h2 | ⟨h2, h3⟩
      · rw [h2]; rfl
      · rw [h2, h3]; rfl

theorem insts_spec (insts : List (InstSync S P)) (st : List (Metric S P) × Nat) (h : st.2 ≤ st.1.length) :
    (insts.foldl produceInst st).1.take (insts.foldl produceInst st).2 = st.1.take st.2 ++ insts.filterMap metricOf := by
  induction insts generalizing st with
  | nil => simp
  | cons i insts ih =>
    obtain ⟨h1, h2⟩ := produceInst_spec st i h
    rw [List.foldl_cons, ih _ h1, h2, List.append_assoc, List.filterMap_cons]
    cases metricOf i <;> simp

theorem produceScope_spec (dflt : C) (st : List (ScopeMetrics C S P) × Nat) (s : C × List (InstSync S P)) (h : st.2 ≤ st.1.length) :
    (produceScope dflt st s).2 ≤ (produceScope dflt st s).1.length
      ∧ (produceScope dflt st s).1.take (produceScope dflt st s).2 = st.1.take st.2 ++ (scopeOf s).toList := by
  obtain ⟨sms, i⟩ := st
  simp only at h
  unfold produceScope
  have hins : ∀ ms : List (Metric S P), ((s.2.foldl produceInst (ms, 0)).1.take (s.2.foldl produceInst (ms, 0)).2) = s.2.filterMap metricOf := by
    intro ms
    have := insts_spec s.2 (ms, 0) (Nat.zero_le _)
    simpa using this
  simp only [hins]
  have hex : ∃ sms' : List (ScopeMetrics C S P), (match sms[i]? with | some _ => sms | none => sms ++ [⟨dflt, []⟩]) = sms'
      ∧ i < sms'.length ∧ sms'.take i = sms.take i := by
    cases hi : sms[i]? with
    | some _ => exact ⟨_, rfl, (List.getElem?_eq_some_iff.1 hi).1, rfl⟩
    | none =>
      have : sms.length ≤ i := List.getElem?_eq_none_iff.1 hi
      exact ⟨_, rfl, by simp; omega, List.take_append_of_le_length h⟩
  obtain ⟨sms', he, hlt, htake⟩ := hex
  simp only [he]
  by_cases hm : s.2.filterMap metricOf = []
  · simp only [hm, List.isEmpty_nil, if_true, scopeOf, Option.toList_none, List.append_nil]
    refine ⟨by rw [List.length_set]; exact Nat.le_of_lt hlt, ?_⟩
    rw [List.take_set_of_le (Nat.le_refl i), htake]
  · have : (s.2.filterMap metricOf).isEmpty = false := by simpa using hm
    simp only [this, Bool.false_eq_true, if_false, scopeOf, hm, Option.toList_some]
    refine ⟨by rw [List.length_set]; exact hlt, ?_⟩
    rw [take_set_self _ _ _ hlt, htake]

/-- **C45.** Whatever the buffer holds, `produce` leaves in it exactly the resource, the scopes that have a metric with points, and for
each the metrics with points, with the name, description, unit, times and points of now. -/
theorem produce_exact (dflt : C) (resource : R) (aggs : List (C × List (InstSync S P))) (rm : ResourceMetrics R C S P) :
    produce dflt resource aggs rm = ⟨resource, aggs.filterMap scopeOf⟩ := by
  have key : ∀ st : List (ScopeMetrics C S P) × Nat, st.2 ≤ st.1.length →
      (aggs.foldl (produceScope dflt) st).1.take (aggs.foldl (produceScope dflt) st).2 = st.1.take st.2 ++ aggs.filterMap scopeOf := by
    induction aggs with
    | nil => simp
    | cons s aggs ih =>
      intro st h
      obtain ⟨h1, h2⟩ := produceScope_spec dflt st s h
      rw [List.foldl_cons, ih _ h1, h2, List.append_assoc, List.filterMap_cons]
      cases scopeOf s <;> simp
  simp only [produce]
  have := key (rm.scopeMetrics, 0) (Nat.zero_le _)
  rw [this]; simp

/-- **C45.** The result does not depend on the buffer. -/
theorem produce_independent (dflt : C) (resource : R) (aggs : List (C × List (InstSync S P))) (rm rm' : ResourceMetrics R C S P) :
    produce dflt resource aggs rm = produce dflt resource aggs rm' := by
  rw [produce_exact, produce_exact]

/-- **C45.** No metric without points and no scope without metrics is reported. -/
theorem produce_nonempty (dflt : C) (resource : R) (aggs : List (C × List (InstSync S P))) (rm : ResourceMetrics R C S P)
    (sm : ScopeMetrics C S P) (h : sm ∈ (produce dflt resource aggs rm).scopeMetrics) : sm.metrics ≠ [] := by
  rw [produce_exact] at h
  obtain ⟨s, _, hs⟩ := List.mem_filterMap.1 h
  unfold scopeOf at hs
  split at hs
  · cases hs
  · rename_i hne; injection hs with hs; subst hs; exact hne

/-- A buffer with a stale sum of another instrument, an instrument without points and one of another type. -/
example : produce (0 : Nat) (7 : Nat)
    [(1, [⟨"a", "", "", .u64, .sum true, .delta, 1, 2, []⟩, ⟨"b", "", "", .f64, .lastValue, .delta, 1, 2, [5]⟩]), (2, [])]
    ⟨0, [⟨9, [⟨"old", "x", "y", .u64, .sum [1, 2, 3] 0 0 .cumulative true⟩]⟩, ⟨8, []⟩]⟩
    = ⟨7, [⟨1, [⟨"b", "", "", .f64, .gauge [5] (some 1) 2⟩]⟩]⟩ := rfl

end Otel.Metrics
