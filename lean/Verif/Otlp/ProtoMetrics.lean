import Verif.Otlp.ProtoSdk
import Verif.Otlp.MetricsProps
/-!
# C96: what the exporters send as protobuf, from the SDK's metrics to the receiver

As `Verif.Otlp.ProtoSdk` for metrics: `wire…` maps the messages of the conversion (`Verif.Otlp.Metrics`) to the messages with all their fields, `unwire…` goes back.
-/

namespace Otel.Otlp.Proto
open Rust
open Otel.Otlp.Json

/-! ## The messages with all their fields -/

/-- `exemplar::Value`, `number_data_point::Value` -/
def wireNum : PNum → Json.Num
  | .asDouble w => .asDouble w
  | .asInt w => .asInt w

/-- `Exemplar`. transform/metrics.rs:314-331 -/
def wireExemplar (e : PExemplar Str) : Json.Exemplar := ⟨wireKvs e.filteredAttributes, e.timeUnixNano, e.spanId, e.traceId, some (wireNum e.value)⟩

/-- `NumberDataPoint`. transform/metrics.rs:277-284, 301-308 -/
def wireNumPoint (p : PNumPoint Str) : Json.NumPoint :=
  ⟨wireKvs p.attributes, p.startTimeUnixNano, p.timeUnixNano, p.exemplars.map wireExemplar, p.flags, some (wireNum p.value)⟩

/-- `HistogramDataPoint`. transform/metrics.rs:212-224 -/
def wireHistPoint (p : PHistPoint Str) : Json.HistPoint :=
  ⟨wireKvs p.attributes, p.startTimeUnixNano, p.timeUnixNano, p.count, p.sum, p.bucketCounts, p.explicitBounds, p.exemplars.map wireExemplar, p.flags, p.min, p.max⟩

/-- `exponential_histogram_data_point::Buckets`. transform/metrics.rs:249-256 -/
def wireBuckets (b : ExpoBucket) : Buckets := ⟨b.offset, b.counts⟩

/-- `ExponentialHistogramDataPoint`. transform/metrics.rs:240-261 -/
def wireExpoPoint (p : PExpoPoint Str) : Json.ExpoPoint :=
  ⟨wireKvs p.attributes, p.startTimeUnixNano, p.timeUnixNano, p.count, p.sum, p.scale, p.zeroCount, some (wireBuckets p.positive), some (wireBuckets p.negative),
    p.flags, p.exemplars.map wireExemplar, p.min, p.max, p.zeroThreshold⟩

/-- `metric::Data`. transform/metrics.rs:164-178 -/
def wireData : PData Str → Data
  | .gauge ps => .gauge (ps.map wireNumPoint)
  | .sum ps t m => .sum (ps.map wireNumPoint) (BitVec.ofNat 32 t) m
  | .histogram ps t => .histogram (ps.map wireHistPoint) (BitVec.ofNat 32 t)
  | .expo ps t => .expo (ps.map wireExpoPoint) (BitVec.ofNat 32 t)

/-- `Metric`, without metadata. transform/metrics.rs:148-162 -/
def wireMetric (m : PMetric Str) : Metric := ⟨m.name.toList, m.description.toList, m.unit.toList, [], some (wireData m.data)⟩

/-! ## Back to the messages of the conversion -/

def unwireNum : Json.Num → PNum
  | .asDouble w => .asDouble w
  | .asInt w => .asInt w

def unwireExemplar (e : Json.Exemplar) : Option (PExemplar Str) := do
  let filteredAttributes ← unwireKvs e.filteredAttributes
  let value ← e.value
  some ⟨filteredAttributes, e.timeUnixNano, e.spanId, e.traceId, unwireNum value⟩

def unwireNumPoint (p : Json.NumPoint) : Option (PNumPoint Str) := do
  let attributes ← unwireKvs p.attributes
  let exemplars ← p.exemplars.mapM unwireExemplar
  let value ← p.value
  some ⟨attributes, p.startTimeUnixNano, p.timeUnixNano, exemplars, p.flags, unwireNum value⟩

def unwireHistPoint (p : Json.HistPoint) : Option (PHistPoint Str) := do
  let attributes ← unwireKvs p.attributes
  let exemplars ← p.exemplars.mapM unwireExemplar
  some ⟨attributes, p.startTimeUnixNano, p.timeUnixNano, p.count, p.sum, p.bucketCounts, p.explicitBounds, exemplars, p.flags, p.min, p.max⟩

def unwireBuckets (b : Buckets) : ExpoBucket := ⟨b.offset, b.bucketCounts⟩

def unwireExpoPoint (p : Json.ExpoPoint) : Option (PExpoPoint Str) := do
  let attributes ← unwireKvs p.attributes
  let positive ← p.positive
  let negative ← p.negative
  let exemplars ← p.exemplars.mapM unwireExemplar
  some ⟨attributes, p.startTimeUnixNano, p.timeUnixNano, p.count, p.sum, p.scale, p.zeroCount, unwireBuckets positive, unwireBuckets negative, p.flags, exemplars, p.min, p.max,
    p.zeroThreshold⟩

def unwireData : Data → Option (PData Str)
  | .gauge ps => (ps.mapM unwireNumPoint).map .gauge
  | .sum ps t m => (ps.mapM unwireNumPoint).map fun ps => .sum ps t.toNat m
  | .histogram ps t => (ps.mapM unwireHistPoint).map fun ps => .histogram ps t.toNat
  | .expo ps t => (ps.mapM unwireExpoPoint).map fun ps => .expo ps t.toNat

def unwireMetric (m : Metric) : Option (PMetric Str) :=
  m.data.bind fun d => (unwireData d).map fun d => ⟨String.ofList m.name, String.ofList m.description, String.ofList m.unit, d⟩

theorem unwire_num (v : PNum) : unwireNum (wireNum v) = v := by cases v <;> rfl

theorem unwire_exemplar (e : PExemplar Str) : unwireExemplar (wireExemplar e) = some e := by
  simp only [unwireExemplar, wireExemplar, unwire_kvs, unwire_num, Option.bind_eq_bind, Option.bind_some]

theorem unwire_numPoint (p : PNumPoint Str) : unwireNumPoint (wireNumPoint p) = some p := by
  simp only [unwireNumPoint, wireNumPoint, unwire_kvs, unwire_num, mapM_map_some fun e _ => unwire_exemplar e, Option.bind_eq_bind, Option.bind_some]

theorem unwire_histPoint (p : PHistPoint Str) : unwireHistPoint (wireHistPoint p) = some p := by
  simp only [unwireHistPoint, wireHistPoint, unwire_kvs, mapM_map_some fun e _ => unwire_exemplar e, Option.bind_eq_bind, Option.bind_some]

theorem unwire_expoPoint (p : PExpoPoint Str) : unwireExpoPoint (wireExpoPoint p) = some p := by
  simp only [unwireExpoPoint, wireExpoPoint, unwireBuckets, wireBuckets, unwire_kvs, mapM_map_some fun e _ => unwire_exemplar e, Option.bind_eq_bind, Option.bind_some]

/-- The number of the temporality is a 32 bit number. -/
def SmallTemporality : PData Str → Prop
  | .gauge _ => True
  | .sum _ t _ => t < 2 ^ 32
  | .histogram _ t => t < 2 ^ 32
  | .expo _ t => t < 2 ^ 32

theorem unwire_metric {m : PMetric Str} (h : SmallTemporality m.data) : unwireMetric (wireMetric m) = some m := by
  obtain ⟨n, d, u, data⟩ := m
  have hd : unwireData (wireData data) = some data := by
    cases data with
    | gauge ps => rw [wireData, unwireData, mapM_map_some fun e _ => unwire_numPoint e]; rfl
    | sum ps t m =>
      rw [wireData, unwireData, mapM_map_some fun e _ => unwire_numPoint e, BitVec.toNat_ofNat, Nat.mod_eq_of_lt (show t < 2 ^ 32 from h)]; rfl
    | histogram ps t =>
      rw [wireData, unwireData, mapM_map_some fun e _ => unwire_histPoint e, BitVec.toNat_ofNat, Nat.mod_eq_of_lt (show t < 2 ^ 32 from h)]; rfl
    | expo ps t =>
      rw [wireData, unwireData, mapM_map_some fun e _ => unwire_expoPoint e, BitVec.toNat_ofNat, Nat.mod_eq_of_lt (show t < 2 ^ 32 from h)]; rfl
  simp only [unwireMetric, wireMetric, Option.bind_some, hd, Option.map_some, String.ofList_toList]

/-! ## Requests of the SDK -/

/-- The zero thresholds of exponential histograms are not `-0.0`; the aggregation of the SDK sets them to `0.0`
(opentelemetry-sdk/src/metrics/internal/exponential_histogram.rs:442, 502). -/
def PlainThresholds (sms : List (SdkScopeMetrics Str)) : Prop :=
  ∀ s ∈ sms, ∀ m ∈ s.metrics, ∀ ps st t temp, m.data = .expo ps st t temp → ∀ p ∈ ps, p.zeroThreshold ≠ 0x8000000000000000#64

theorem shallow_exemplars {n : Nat} (h : 2 ≤ n) (es : List (Otlp.Exemplar Str)) : ∀ e ∈ (es.map exemplarOf).map wireExemplar, Shallow n e.filteredAttributes := by
  intro e he
  obtain ⟨y, hy, rfl⟩ := List.mem_map.1 he
  obtain ⟨x, _, rfl⟩ := List.mem_map.1 hy
  exact shallow_attributes h _

theorem shallow_dataOf (cast : Cast) (d : MData Str) (h : ∀ ps st t temp, d = .expo ps st t temp → ∀ p ∈ ps, p.zeroThreshold ≠ 0x8000000000000000#64) :
    ShallowData (wireData (dataOf cast d)) := by
  cases d with
  | gauge ps s t =>
    intro p hp
    obtain ⟨y, hy, rfl⟩ := List.mem_map.1 hp
    obtain ⟨x, _, rfl⟩ := List.mem_map.1 hy
    exact ⟨shallow_attributes (by omega) _, shallow_exemplars (by omega) _⟩
  | sum ps s t temp mono =>
    intro p hp
    obtain ⟨y, hy, rfl⟩ := List.mem_map.1 hp
    obtain ⟨x, _, rfl⟩ := List.mem_map.1 hy
    exact ⟨shallow_attributes (by omega) _, shallow_exemplars (by omega) _⟩
  | histogram ps s t temp =>
    intro p hp
    obtain ⟨y, hy, rfl⟩ := List.mem_map.1 hp
    obtain ⟨x, _, rfl⟩ := List.mem_map.1 hy
    exact ⟨shallow_attributes (by omega) _, shallow_exemplars (by omega) _⟩
  | expo ps s t temp =>
    intro p hp
    obtain ⟨y, hy, rfl⟩ := List.mem_map.1 hp
    obtain ⟨x, hx, rfl⟩ := List.mem_map.1 hy
    exact ⟨shallow_attributes (by omega) _, shallow_exemplars (by omega) _, h ps s t temp rfl x hx⟩

theorem shallow_metrics (cast : Cast) (resource : List (Str × Common.Val)) (url : Option String) {sms : List (SdkScopeMetrics Str)} (h : PlainThresholds sms) :
    ShallowRequest ShallowMetric (wireRequest wireMetric (metricsRequest cast resource url sms)) := by
  intro r hr
  simp only [wireRequest, List.mem_singleton] at hr
  subst hr
  refine ⟨fun x hx => ?_, fun s hs => ?_⟩
  · cases hx
    exact shallow_attributes (by omega) _
  · simp only [metricsRequest, List.mem_map] at hs
    obtain ⟨_, ⟨g, hg, rfl⟩, rfl⟩ := hs
    refine ⟨fun x hx => ?_, fun i hi => ?_⟩
    · cases hx
      exact shallow_attributes (by omega) _
    · simp only [scopeMetricsOf, List.mem_map] at hi
      obtain ⟨_, ⟨y, hy, rfl⟩, rfl⟩ := hi
      refine ⟨fun kv hkv => (List.not_mem_nil hkv).elim, fun d hd => ?_⟩
      cases hd
      exact shallow_dataOf cast y.data (h g hg y hy)

/-- C96, for metrics of the SDK: every collection, with every resource, is sent as bytes that a reader of protobuf reads as a request with exactly these metrics,
in this order, each in its scope. Missing: a zero threshold of `-0.0`, see `negative_zero_violated`. -/
theorem sdk_metrics_decode_partial (cast : Cast) (resource : List (Str × Common.Val)) (url : Option String) {sms : List (SdkScopeMetrics Str)} (h : PlainThresholds sms)
    (hs : (encMetrics (wireRequest wireMetric (metricsRequest cast resource url sms))).length < 2 ^ 64) :
    ∃ rs, decMetrics (encMetrics (wireRequest wireMetric (metricsRequest cast resource url sms))) = some rs ∧
      (rs.flatMap fun r => r.scopes.map fun g => (g.scope.map fun s => s.name, g.items)) =
        sms.map fun s => (some s.scope.name.toList, s.metrics.map fun m => wireMetric (metricOf cast m)) := by
  refine ⟨_, metrics_decode_partial _ (shallow_metrics cast resource url h) hs, ?_⟩
  simp only [wireRequest, metricsRequest, List.flatMap_cons, List.flatMap_nil, List.append_nil, List.map_map]
  apply List.map_congr_left
  intro s _
  simp only [Function.comp_def, scopeMetricsOf, Option.map_some, List.map_map]
  rfl

/-- `encode_to_vec` of the request of a collection. opentelemetry-otlp/src/exporter/http/mod.rs:340 -/
def metricBytes (m : PRequest Str (PMetric Str)) : Option (List Byte) :=
  if (encMetrics (wireRequest wireMetric m)).length < 2 ^ 64 then some (encMetrics (wireRequest wireMetric m)) else none

/-- What a collector reads. -/
def readMetrics (bs : List Byte) : Option (PRequest Str (PMetric Str)) := (decMetrics bs).bind (unwireRequest unwireMetric)

theorem temporality_small (t : Otel.Metrics.Temporality) : temporalityNumber t < 2 ^ 32 := by cases t <;> decide

theorem metricBytes_read {cast : Cast} {resource : List (Str × Common.Val)} {url : Option String} {sms : List (SdkScopeMetrics Str)} (hp : PlainThresholds sms)
    {bs : List Byte} (h : metricBytes (metricsRequest cast resource url sms) = some bs) : readMetrics bs = some (metricsRequest cast resource url sms) := by
  rw [metricBytes] at h
  split at h
  · next hs =>
    cases h
    rw [readMetrics, metrics_decode_partial _ (shallow_metrics cast resource url hp) hs, Option.bind_some]
    refine unwire_request fun g hg i hi => ?_
    simp only [metricsRequest, List.mem_map] at hg
    obtain ⟨g0, _, rfl⟩ := hg
    simp only [scopeMetricsOf, List.mem_map] at hi
    obtain ⟨x, _, rfl⟩ := hi
    refine unwire_metric ?_
    rw [metricOf]
    cases x.data with
    | gauge ps s t => exact True.intro
    | sum ps s t temp m => exact temporality_small temp
    | histogram ps s t temp => exact temporality_small temp
    | expo ps s t temp => exact temporality_small temp
  · cases h

/-- The hypotheses are met: a histogram and an exponential histogram with exemplars. -/
example : PlainThresholds [⟨⟨"lib", none, none, []⟩, [⟨"m", "", "ms", .expo [⟨[], 3, none, none, .f64 1, 2#8, 0, ⟨1, [1]⟩, ⟨0, []⟩, 0, []⟩] 1 2 .delta⟩]⟩] := by
  intro s hs m hm ps st t temp h p hp
  cases List.mem_singleton.1 hs
  cases List.mem_singleton.1 hm
  cases h
  cases List.mem_singleton.1 hp
  decide

end Otel.Otlp.Proto
