import Verif.Otlp.JsonSdk
import Verif.Otlp.ProtoMetrics
/-!
# C83: what the exporters send as JSON, from the SDK's metrics to the receiver

As `Verif.Otlp.JsonSdk` for metrics, with the messages of `Verif.Otlp.ProtoMetrics`.
-/

namespace Otel.Otlp.Json
open Rust
open Common (Val)
open Otel.Otlp.Proto (wireMetric wireData)

/-- The doubles of a number. -/
def numDoubles : Otlp.Num → List (BitVec 64)
  | .f64 w => [w]
  | .u64 _ => []
  | .i64 _ => []

/-- The doubles sent for the points of a metric: those in the attributes, the values, and for histograms also the bounds, and the sum, minimum and maximum as
doubles. -/
def dataDoubles (cast : Cast) : MData Str → List (BitVec 64)
  | .gauge ps _ _ => ps.flatMap fun p => attrDoubles p.attributes ++ numDoubles p.value
  | .sum ps _ _ _ _ => ps.flatMap fun p => attrDoubles p.attributes ++ numDoubles p.value
  | .histogram ps _ _ _ => ps.flatMap fun p =>
      attrDoubles p.attributes ++ p.bounds ++ [intoF64 cast p.sum] ++ (p.min.map (intoF64 cast)).toList ++ (p.max.map (intoF64 cast)).toList
  | .expo ps _ _ _ => ps.flatMap fun p =>
      attrDoubles p.attributes ++ [p.zeroThreshold, intoF64 cast p.sum] ++ (p.min.map (intoF64 cast)).toList ++ (p.max.map (intoF64 cast)).toList

/-- The points of a metric have no exemplars; those of the SDK have none (opentelemetry-sdk/src/metrics/internal/sum.rs:100, 140, last_value.rs:93, 129, histogram.rs:159, 213,
precomputed_sum.rs:79, 123, exponential_histogram.rs:443, 503). -/
def NoExemplars : MData Str → Prop
  | .gauge ps _ _ => ∀ p ∈ ps, p.exemplars = []
  | .sum ps _ _ _ _ => ∀ p ∈ ps, p.exemplars = []
  | .histogram ps _ _ _ => ∀ p ∈ ps, p.exemplars = []
  | .expo ps _ _ _ => ∀ p ∈ ps, p.exemplars = []

/-- The doubles in the attributes of a scope and sent for its metrics. -/
def scopeDoubles (cast : Cast) (s : SdkScopeMetrics Str) : List (BitVec 64) := attrDoubles s.scope.attrs ++ s.metrics.flatMap fun m => dataDoubles cast m.data

theorem num_doubles (v : Otlp.Num) : (Proto.wireNum (numOf v)).doubles = numDoubles v := by cases v <;> rfl

theorem good_data {rd : BitVec 64 → BitVec 64} {n : Nat} (hn : 4 ≤ n) (cast : Cast) (d : MData Str) (he : NoExemplars d)
    (h : ∀ f ∈ dataDoubles cast d, finite f = true ∧ rd f = f) :
    (∀ v ∈ (wireData (dataOf cast d)).values, GoodVal rd n v) ∧ (∀ f ∈ (wireData (dataOf cast d)).doubles, GoodF64 rd f) ∧
      (wireData (dataOf cast d)).exemplars = [] := by
  cases d with
  | gauge ps s t =>
    simp only [dataOf, wireData, Data.values, Data.doubles, Data.exemplars, List.flatMap_map, List.mem_flatMap, List.flatMap_eq_nil_iff]
    refine ⟨fun v ⟨p, hp, hv⟩ => ?_, fun f ⟨p, hp, hf⟩ => ?_, fun p hp => ?_⟩
    · simp only [NumPoint.values, Proto.wireNumPoint, gaugePointOf, he p hp, List.map_nil, List.flatMap_nil, List.append_nil] at hv
      exact good_attrs hn (fun f hf => h f (List.mem_flatMap.2 ⟨p, hp, by simp [hf]⟩)) v hv
    · simp only [NumPoint.doubles, Proto.wireNumPoint, gaugePointOf, he p hp, List.map_nil, List.flatMap_nil, List.nil_append, Option.toList_some,
        List.flatMap_cons, List.append_nil, num_doubles] at hf
      have := h f (List.mem_flatMap.2 ⟨p, hp, by simp [hf]⟩)
      exact ⟨this.1, this.2⟩
    · simp [Proto.wireNumPoint, gaugePointOf, he p hp]
  | sum ps s t temp mono =>
    simp only [dataOf, wireData, Data.values, Data.doubles, Data.exemplars, List.flatMap_map, List.mem_flatMap, List.flatMap_eq_nil_iff]
    refine ⟨fun v ⟨p, hp, hv⟩ => ?_, fun f ⟨p, hp, hf⟩ => ?_, fun p hp => ?_⟩
    · simp only [NumPoint.values, Proto.wireNumPoint, sumPointOf, he p hp, List.map_nil, List.flatMap_nil, List.append_nil] at hv
      exact good_attrs hn (fun f hf => h f (List.mem_flatMap.2 ⟨p, hp, by simp [hf]⟩)) v hv
    · simp only [NumPoint.doubles, Proto.wireNumPoint, sumPointOf, he p hp, List.map_nil, List.flatMap_nil, List.nil_append, Option.toList_some,
        List.flatMap_cons, List.append_nil, num_doubles] at hf
      have := h f (List.mem_flatMap.2 ⟨p, hp, by simp [hf]⟩)
      exact ⟨this.1, this.2⟩
    · simp [Proto.wireNumPoint, sumPointOf, he p hp]
  | histogram ps s t temp =>
    simp only [dataOf, wireData, Data.values, Data.doubles, Data.exemplars, List.flatMap_map, List.mem_flatMap, List.flatMap_eq_nil_iff]
    refine ⟨fun v ⟨p, hp, hv⟩ => ?_, fun f ⟨p, hp, hf⟩ => ?_, fun p hp => ?_⟩
    · simp only [HistPoint.values, Proto.wireHistPoint, histPointOf, he p hp, List.map_nil, List.flatMap_nil, List.append_nil] at hv
      exact good_attrs hn (fun f hf => h f (List.mem_flatMap.2 ⟨p, hp, by simp [hf]⟩)) v hv
    · simp only [HistPoint.doubles, Proto.wireHistPoint, histPointOf, he p hp, List.map_nil, List.flatMap_nil, List.nil_append, Option.toList_some,
        List.mem_append, List.mem_singleton] at hf
      have := h f (List.mem_flatMap.2 ⟨p, hp, by
        simp only [List.mem_append, List.mem_singleton]
        rcases hf with ((hf | hf) | hf) | hf
        · exact .inl (.inl (.inr hf))
        · exact .inl (.inr hf)
        · exact .inr hf
        · exact .inl (.inl (.inl (.inr hf)))⟩)
      exact ⟨this.1, this.2⟩
    · simp [Proto.wireHistPoint, histPointOf, he p hp]
  | expo ps s t temp =>
    simp only [dataOf, wireData, Data.values, Data.doubles, Data.exemplars, List.flatMap_map, List.mem_flatMap, List.flatMap_eq_nil_iff]
    refine ⟨fun v ⟨p, hp, hv⟩ => ?_, fun f ⟨p, hp, hf⟩ => ?_, fun p hp => ?_⟩
    · simp only [ExpoPoint.values, Proto.wireExpoPoint, expoPointOf, he p hp, List.map_nil, List.flatMap_nil, List.append_nil] at hv
      exact good_attrs hn (fun f hf => h f (List.mem_flatMap.2 ⟨p, hp, by simp [hf]⟩)) v hv
    · simp only [ExpoPoint.doubles, Proto.wireExpoPoint, expoPointOf, he p hp, List.map_nil, List.flatMap_nil, List.nil_append, Option.toList_some,
        List.mem_append, List.mem_singleton] at hf
      have := h f (List.mem_flatMap.2 ⟨p, hp, by
        simp only [List.mem_append, List.mem_cons, List.not_mem_nil, or_false]
        rcases hf with ((hf | hf) | hf) | hf
        · exact .inl (.inl (.inr (.inr hf)))
        · exact .inl (.inr hf)
        · exact .inr hf
        · exact .inl (.inl (.inr (.inl hf)))⟩)
      exact ⟨this.1, this.2⟩
    · simp [Proto.wireExpoPoint, expoPointOf, he p hp]

/-- C83, for metrics of the SDK. Every collection, with every resource, whose numbers and attributes hold only finite doubles is sent as a document that a conforming
receiver reads as a request with exactly these metrics, in this order, each in its scope, and which the project's own reader reads as the same request. Missing: doubles
that are infinite or not a number, see `traces_conform_violated` and `gauge_nan_violated`. -/
theorem sdk_metrics_conform_partial (toF64 : Int → BitVec 64) (rd : BitVec 64 → BitVec 64) (cast : Cast) (resource : List (Str × Val)) (url : Option String)
    (sms : List (SdkScopeMetrics Str)) (hres : ∀ f ∈ attrDoubles resource, finite f = true ∧ rd f = f)
    (hb : ∀ s ∈ sms, ∀ f ∈ scopeDoubles cast s, finite f = true ∧ rd f = f) (he : ∀ s ∈ sms, ∀ m ∈ s.metrics, NoExemplars m.data) :
    ∃ rs, StdMetrics toF64 (encMetrics (wireRequest wireMetric (metricsRequest cast resource url sms))) rs ∧
      fromText rd (decMetrics toF64) (encMetrics (wireRequest wireMetric (metricsRequest cast resource url sms))) = some rs ∧
      (rs.flatMap fun r => r.scopes.map fun g => (g.scope.map fun s => s.name, g.items)) =
        sms.map fun s => (some s.scope.name.toList, s.metrics.map fun m => wireMetric (metricOf cast m)) := by
  have hd : ∀ s ∈ sms, ∀ m ∈ s.metrics, _ := fun s hs m hm => good_data (n := 113) (by decide) cast m.data (he s hs m hm)
    fun f hf => hb s hs f (List.mem_append.2 (.inr (List.mem_flatMap.2 ⟨m, hm, hf⟩)))
  have hv : ∀ r ∈ wireRequest wireMetric (metricsRequest cast resource url sms), ∀ v ∈ r.values Metric.values, GoodVal rd 113 v := by
    intro r hr v hv
    simp only [wireRequest, List.mem_singleton] at hr
    subst hr
    simp only [ResourceItems.values, Option.toList_some, List.flatMap_cons, List.flatMap_nil, List.append_nil, List.mem_append, List.mem_flatMap,
      List.mem_map] at hv
    rcases hv with hv | ⟨_, ⟨g, hg, rfl⟩, hv⟩
    · exact good_attrs (by decide) hres v hv
    · simp only [metricsRequest, List.mem_map] at hg
      obtain ⟨s, hs, rfl⟩ := hg
      simp only [ScopeItems.values, Option.toList_some, List.flatMap_cons, List.flatMap_nil, List.append_nil, List.mem_append, List.mem_flatMap,
        List.mem_map] at hv
      rcases hv with hv | ⟨_, ⟨_, hi, rfl⟩, hv⟩
      · exact good_attrs (by decide) (fun f hf => hb s hs f (List.mem_append.2 (.inl hf))) v hv
      · simp only [scopeMetricsOf, List.mem_map] at hi
        obtain ⟨m, hm, rfl⟩ := hi
        simp only [Metric.values, wireMetric, metricOf, attrValues, List.filterMap_nil, List.nil_append, Option.toList_some, List.flatMap_cons, List.flatMap_nil,
          List.append_nil] at hv
        exact (hd s hs m hm).1 v hv
  have hi : ∀ i ∈ allItems (wireRequest wireMetric (metricsRequest cast resource url sms)), ∀ d ∈ i.data.toList, ∃ s ∈ sms, ∃ m ∈ s.metrics,
      d = wireData (dataOf cast m.data) := by
    intro i hi d hdm
    simp only [allItems, wireRequest, List.flatMap_cons, List.flatMap_nil, List.append_nil, List.flatMap_map, List.mem_flatMap, List.mem_map, metricsRequest,
      scopeMetricsOf] at hi
    obtain ⟨s, hs, _, ⟨m, hm, rfl⟩, rfl⟩ := hi
    simp only [wireMetric, Option.toList_some, List.mem_singleton] at hdm
    exact ⟨s, hs, m, hm, hdm⟩
  refine ⟨_, metrics_conform_partial toF64 _ (fun r hr v h => (hv r hr v h).finite) fun i hm d hdm => ?_,
    metrics_read_back_partial toF64 rd _ hv fun i hm f hf => ?_, ?_⟩
  · obtain ⟨s, hs, m, hm, rfl⟩ := hi i hm d hdm
    obtain ⟨-, h2, h3⟩ := hd s hs m hm
    exact ⟨fun f hf => (h2 f hf).finite, fun e he => by rw [h3] at he; cases he⟩
  · obtain ⟨d, hdm, hf⟩ := List.mem_flatMap.1 hf
    obtain ⟨s, hs, m, hm, rfl⟩ := hi i hm d hdm
    exact (hd s hs m hm).2.1 f hf
  · simp only [wireRequest, metricsRequest, List.flatMap_cons, List.flatMap_nil, List.append_nil, List.map_map]
    apply List.map_congr_left
    intro s _
    simp only [Function.comp_def, scopeMetricsOf, Option.map_some, List.map_map]
    rfl

/-- A histogram and a sum for the example. -/
def jsonMetrics : List (SdkScopeMetrics Str) := [⟨⟨"lib", none, none, [("a".toList, .float 0)]⟩,
  [⟨"m", "", "ms", .histogram [⟨[("k".toList, .int 3)], 2, [0x3FF8000000000000#64], [1, 1], some (.f64 0), none, .f64 0x3FF8000000000000#64, []⟩] 1 2 .delta⟩,
   ⟨"n", "", "", .sum [⟨[], .u64 7, []⟩] 1 2 .cumulative true⟩]⟩]

/-- The hypotheses are met. -/
example (cast : Cast) : (∀ s ∈ jsonMetrics, ∀ f ∈ scopeDoubles cast s, finite f = true ∧ exactly f = f) ∧
    ∀ s ∈ jsonMetrics, ∀ m ∈ s.metrics, NoExemplars m.data := by
  refine ⟨fun s hs f hf => ?_, fun s hs m hm => ?_⟩
  · cases List.mem_singleton.1 hs
    have hf : f ∈ [0, 0x3FF8000000000000#64, 0x3FF8000000000000#64, 0] := hf
    simp only [List.mem_cons, List.not_mem_nil, or_false] at hf
    rcases hf with rfl | rfl | rfl | rfl <;> exact ⟨by decide, rfl⟩
  · cases List.mem_singleton.1 hs
    simp only [List.mem_cons, List.not_mem_nil, or_false] at hm
    rcases hm with rfl | rfl
    · intro p hp
      cases List.mem_singleton.1 hp
      rfl
    · intro p hp
      cases List.mem_singleton.1 hp
      rfl

end Otel.Otlp.Json
