import Verif.Otlp.Metrics
import Verif.Otlp.Props
/-! # Property theorems: OTLP conversion of metrics (C54) -/

namespace Otel.Otlp
open Common (Val Scope)
open Otel.Metrics (Temporality)

variable {K : Type}

theorem each_map {α β : Type} {R : α → β → Prop} {f : α → β} {l : List α} (h : ∀ a ∈ l, R a (f a)) : Each R l (l.map f) := by
  induction l with
  | nil => trivial
  | cons a l ih => exact ⟨h a (List.mem_cons_self ..), ih fun x hx => h x (List.mem_cons_of_mem _ hx)⟩

/-- **C54 (metric numbers, partial).** Every `f64`, every `i64` and every `u64` up to `i64::MAX` is received as the number recorded. Missing:
`u64` above, see `number_violated`. -/
theorem number_exact_partial {n : Num} (h : n.Fits) : (numOf n).value = n.value := by
  cases n with
  | u64 w =>
    have h' : w.toNat < 2 ^ 63 := h
    simp only [numOf, i64TryFrom, if_pos h', PNum.value, Num.value, NumVal.int.injEq]
    rw [BitVec.toInt_eq_toNat_of_lt (by omega)]
  | i64 w => rfl
  | f64 w => rfl

example : Num.Fits (.u64 5) ∧ (numOf (.u64 5)).value = .int 5 ∧ (numOf (.i64 (-3))).value = .int (-3) := ⟨by unfold Num.Fits; decide, by decide, by decide⟩

/-- **C54, violated.** A `u64` sum or gauge above `i64::MAX` is exported as 0: a counter of `2^63` looks like one that has just been reset. -/
theorem number_violated : ∀ w : BitVec 64, 2 ^ 63 ≤ w.toNat → (numOf (.u64 w)).value = .int 0 ∧ (Num.u64 w).value ≠ .int 0 := by
  intro w h
  have h' : ¬ w.toNat < 2 ^ 63 := by omega
  refine ⟨by simp only [numOf, i64TryFrom, if_neg h', PNum.value]; rfl, ?_⟩
  simp only [Num.value, ne_eq, NumVal.int.injEq]
  omega

theorem sameTime_of {t : Int} (h : TimeFits t) : SameTime t (toNanos t) := time_exact_partial h.1 h.2

theorem sameExemplar_of {e : Exemplar K} (h : e.Fits) : SameExemplar e (exemplarOf e) :=
  ⟨readAttrs_attributes h.1, sameTime_of h.2.1, rfl, rfl, number_exact_partial h.2.2⟩

theorem sameTemporality_of {t : Temporality} (h : t ≠ .lowMemory) : SameTemporality t (temporalityNumber t) := by
  cases t with
  | cumulative => exact .inr ⟨rfl, rfl⟩
  | delta => exact .inl ⟨rfl, rfl⟩
  | lowMemory => exact absurd rfl h

/-- **C54 (metric data, partial).** A receiver sees the same kind of data, with every data point exactly once and in order: its attributes, times,
number, counts, bounds, buckets, scale, thresholds and exemplars as recorded, sum, minimum and maximum of histograms converted to floats.
Missing: numbers, times and attributes that do not fit, see `number_violated`, `time_violated`, `empty_array_violated`. -/
theorem metric_data_partial (cast : Cast) {d : MData K} (h : d.Fits) : SameData cast d (dataOf cast d) := by
  cases d with
  | gauge ps s t =>
    obtain ⟨hs, ht, hp⟩ := h
    refine each_map fun p hpm => ?_
    obtain ⟨h1, h2, h3⟩ := hp p hpm
    refine ⟨readAttrs_attributes h1, ?_, sameTime_of ht, number_exact_partial h2, rfl, each_map fun e he => sameExemplar_of (h3 e he)⟩
    cases s with
    | none => simp [SameTime, gaugePointOf]
    | some x => exact sameTime_of (hs x rfl)
  | sum ps s t temp mono =>
    obtain ⟨hs, ht, htemp, hp⟩ := h
    refine ⟨each_map fun p hpm => ?_, sameTemporality_of htemp, rfl⟩
    obtain ⟨h1, h2, h3⟩ := hp p hpm
    exact ⟨readAttrs_attributes h1, sameTime_of hs, sameTime_of ht, number_exact_partial h2, rfl, each_map fun e he => sameExemplar_of (h3 e he)⟩
  | histogram ps s t temp =>
    obtain ⟨hs, ht, htemp, hp⟩ := h
    refine ⟨each_map fun p hpm => ?_, sameTemporality_of htemp⟩
    obtain ⟨h1, h3⟩ := hp p hpm
    exact ⟨readAttrs_attributes h1, sameTime_of hs, sameTime_of ht, rfl, rfl, rfl, rfl, rfl, rfl, rfl, each_map fun e he => sameExemplar_of (h3 e he)⟩
  | expo ps s t temp =>
    obtain ⟨hs, ht, htemp, hp⟩ := h
    refine ⟨each_map fun p hpm => ?_, sameTemporality_of htemp⟩
    obtain ⟨h1, h3⟩ := hp p hpm
    exact ⟨readAttrs_attributes h1, sameTime_of hs, sameTime_of ht, rfl, rfl, rfl, rfl, BitVec.toInt_signExtend_of_le (by decide), rfl, rfl, rfl, rfl, rfl,
      each_map fun e he => sameExemplar_of (h3 e he)⟩

/-- An example: a sum with two points, one with an exemplar. -/
def exampleData : MData Nat :=
  .sum [⟨[(1, .int 4)], .u64 7, [⟨[(2, .bool true)], 8, .u64 3, [1], [2]⟩]⟩, ⟨[], .u64 9, []⟩] 5 10 .delta true

example : exampleData.Fits := by
  refine ⟨⟨by decide, by decide⟩, ⟨by decide, by decide⟩, by decide, ?_⟩
  intro p hp
  simp at hp
  rcases hp with rfl | rfl
  · refine ⟨by intro kv h; simp at h; subst h; trivial, by unfold Num.Fits; decide, ?_⟩
    intro e he; simp at he; subst he
    exact ⟨by intro kv h; simp at h; subst h; trivial, ⟨by decide, by decide⟩, by unfold Num.Fits; decide⟩
  · exact ⟨by intro kv h; simp at h, by unfold Num.Fits; decide, by simp⟩

/-- **C53, C54 (metrics request).** The request has one group per scope of the collection, in order, with the scope's name, version, attributes and
schema url, and in it one metric per metric of the scope, in order, with its name, description and unit. -/
theorem metrics_request (cast : Cast) (resource : List (K × Val)) (schemaUrl : Option String) (sms : List (SdkScopeMetrics K))
    (h : ∀ s ∈ sms, PlainAttrs s.scope.attrs ∧ ∀ m ∈ s.metrics, m.data.Fits) :
    Each (fun s g => g.scope.name = s.scope.name ∧ g.scope.version = s.scope.version.getD "" ∧ SameKvs s.scope.attrs g.scope.attributes ∧
        g.schemaUrl = s.scope.schemaUrl.getD "" ∧
        Each (fun m q => q.name = m.name ∧ q.description = m.description ∧ q.unit = m.unit ∧ SameData cast m.data q.data) s.metrics g.items)
      sms (metricsRequest cast resource schemaUrl sms).groups ∧
    (metricsRequest cast resource schemaUrl sms).schemaUrl = schemaUrl.getD "" ∧
    (PlainAttrs resource → SameKvs resource (metricsRequest cast resource schemaUrl sms).resource) := by
  refine ⟨each_map fun s hs => ?_, rfl, fun hr => readAttrs_attributes hr⟩
  obtain ⟨h1, h2⟩ := h s hs
  exact ⟨rfl, rfl, readAttrs_attributes h1, rfl, each_map fun m hm => ⟨rfl, rfl, rfl, metric_data_partial cast (h2 m hm)⟩⟩

/-- **C54, violated.** The sum of a histogram is always sent. Where the SDK does not record it (as for instruments that may go down), the message says
that the sum is zero although it may be anything: two sets of buckets with different totals give the same point. -/
theorem histogram_sum_violated {N : Type} (num : Metrics.NumOps N) (bounds : List Rust.F64) (mm : Bool) (b : Metrics.Buckets N) (total : N)
    (toNum : N → Num) (cast : Cast) (p : HistPoint K)
    (hp : p.sum = toNum (Metrics.histogramPoint num bounds mm false b).sum) (q : HistPoint K)
    (hq : q.sum = toNum (Metrics.histogramPoint num bounds mm false { b with total := total }).sum) (start time : Int) :
    (histPointOf cast start time p).sum = some (intoF64 cast (toNum num.zero)) ∧
    (histPointOf cast start time q).sum = (histPointOf cast start time p).sum := by
  simp [histPointOf, hp, hq, Metrics.histogramPoint]

end Otel.Otlp
