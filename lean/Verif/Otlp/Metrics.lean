import Verif.Otlp.Spec
import Verif.Metrics.Aggregations
import Verif.Metrics.Produce
/-!
# Conversion of metrics to OTLP (`opentelemetry-proto/src/transform/metrics.rs`), C54

Numbers carry their Rust type, so the three instances `f64`, `u64`, `i64` of the generic structures are one type here. `as f64` of an integer is an
arbitrary function `cast`.
-/

namespace Otel.Otlp
open Common (Val Scope)
open Otel.Metrics (Temporality)

variable {K : Type}

/-- A number of one of the types the SDK aggregates. -/
inductive Num where
  | f64 (w : BitVec 64)
  | u64 (w : BitVec 64)
  | i64 (w : BitVec 64)

/-- `exemplar::Value`, `number_data_point::Value` -/
inductive PNum where
  | asDouble (w : BitVec 64)
  | asInt (w : BitVec 64)
deriving DecidableEq

/-- `i64::try_from(value).unwrap_or_default()` -/
def i64TryFrom (w : BitVec 64) : BitVec 64 := if w.toNat < 2 ^ 63 then w else 0

/-- `From<u64>`, `From<i64>`, `From<f64>`. metrics.rs:41-75 -/
def numOf : Num → PNum
  | .u64 w => .asInt (i64TryFrom w)
  | .i64 w => .asInt w
  | .f64 w => .asDouble w

/-- `as f64` on integers. -/
structure Cast where
  ofU64 : BitVec 64 → BitVec 64
  ofI64 : BitVec 64 → BitVec 64

/-- `Numeric::into_f64`. metrics.rs:185-201 -/
def intoF64 (cast : Cast) : Num → BitVec 64
  | .u64 w => cast.ofU64 w
  | .i64 w => cast.ofI64 w
  | .f64 w => w

/-- `From<Temporality>` and the number of the variant; `LowMemory` is taken as cumulative. metrics.rs:95-111 -/
def temporalityNumber : Temporality → Nat
  | .cumulative => 2
  | .delta => 1
  | .lowMemory => 2

/-- `Exemplar<T>`. opentelemetry-sdk/src/metrics/data/mod.rs:274-290 -/
structure Exemplar (K : Type) where
  filteredAttributes : List (K × Val)
  time : Int
  value : Num
  spanId : List (BitVec 8)
  traceId : List (BitVec 8)

/-- `GaugeDataPoint<T>`, `SumDataPoint<T>`. data/mod.rs:111-143 -/
structure NumPoint (K : Type) where
  attributes : List (K × Val)
  value : Num
  exemplars : List (Exemplar K)

/-- `HistogramDataPoint<T>`. data/mod.rs:176-198 -/
structure HistPoint (K : Type) where
  attributes : List (K × Val)
  count : BitVec 64
  bounds : List (BitVec 64)
  bucketCounts : List (BitVec 64)
  min : Option Num
  max : Option Num
  sum : Num
  exemplars : List (Exemplar K)

/-- `ExponentialBucket`. data/mod.rs:260-270 -/
structure ExpoBucket where
  offset : BitVec 32
  counts : List (BitVec 64)

/-- `ExponentialHistogramDataPoint<T>`. data/mod.rs:215-258 -/
structure ExpoPoint (K : Type) where
  attributes : List (K × Val)
  count : BitVec 64
  min : Option Num
  max : Option Num
  sum : Num
  scale : BitVec 8
  zeroCount : BitVec 64
  positive : ExpoBucket
  negative : ExpoBucket
  zeroThreshold : BitVec 64
  exemplars : List (Exemplar K)

/-- `MetricData<T>` with its four structs. data/mod.rs:75-212 -/
inductive MData (K : Type) where
  | gauge (points : List (NumPoint K)) (start : Option Int) (time : Int)
  | sum (points : List (NumPoint K)) (start time : Int) (temporality : Temporality) (isMonotonic : Bool)
  | histogram (points : List (HistPoint K)) (start time : Int) (temporality : Temporality)
  | expo (points : List (ExpoPoint K)) (start time : Int) (temporality : Temporality)

/-- `Metric`. data/mod.rs:31-42 -/
structure SdkMetric (K : Type) where
  name : String
  description : String
  unit : String
  data : MData K

/-- `Exemplar` of the protocol. -/
structure PExemplar (K : Type) where
  filteredAttributes : List (PKv K)
  timeUnixNano : BitVec 64
  spanId : List (BitVec 8)
  traceId : List (BitVec 8)
  value : PNum

/-- `NumberDataPoint` -/
structure PNumPoint (K : Type) where
  attributes : List (PKv K)
  startTimeUnixNano : BitVec 64
  timeUnixNano : BitVec 64
  exemplars : List (PExemplar K)
  flags : BitVec 32
  value : PNum

/-- `HistogramDataPoint` -/
structure PHistPoint (K : Type) where
  attributes : List (PKv K)
  startTimeUnixNano : BitVec 64
  timeUnixNano : BitVec 64
  count : BitVec 64
  sum : Option (BitVec 64)
  bucketCounts : List (BitVec 64)
  explicitBounds : List (BitVec 64)
  exemplars : List (PExemplar K)
  flags : BitVec 32
  min : Option (BitVec 64)
  max : Option (BitVec 64)

/-- `ExponentialHistogramDataPoint` -/
structure PExpoPoint (K : Type) where
  attributes : List (PKv K)
  startTimeUnixNano : BitVec 64
  timeUnixNano : BitVec 64
  count : BitVec 64
  sum : Option (BitVec 64)
  scale : BitVec 32
  zeroCount : BitVec 64
  positive : ExpoBucket
  negative : ExpoBucket
  flags : BitVec 32
  exemplars : List (PExemplar K)
  min : Option (BitVec 64)
  max : Option (BitVec 64)
  zeroThreshold : BitVec 64

/-- `metric::Data` -/
inductive PData (K : Type) where
  | gauge (points : List (PNumPoint K))
  | sum (points : List (PNumPoint K)) (temporality : Nat) (isMonotonic : Bool)
  | histogram (points : List (PHistPoint K)) (temporality : Nat)
  | expo (points : List (PExpoPoint K)) (temporality : Nat)

/-- `Metric` of the protocol; its metadata is empty. -/
structure PMetric (K : Type) where
  name : String
  description : String
  unit : String
  data : PData K

/-- `From<&SdkExemplar<T>>`. metrics.rs:314-331 -/
def exemplarOf (e : Exemplar K) : PExemplar K where
  filteredAttributes := attributes e.filteredAttributes
  timeUnixNano := toNanos e.time
  spanId := e.spanId
  traceId := e.traceId
  value := numOf e.value

/-- The point closure of sums. metrics.rs:277-284 -/
def sumPointOf (start time : Int) (p : NumPoint K) : PNumPoint K where
  attributes := attributes p.attributes
  startTimeUnixNano := toNanos start
  timeUnixNano := toNanos time
  exemplars := p.exemplars.map exemplarOf
  flags := 0
  value := numOf p.value

/-- The point closure of gauges. metrics.rs:301-308 -/
def gaugePointOf (start : Option Int) (time : Int) (p : NumPoint K) : PNumPoint K where
  attributes := attributes p.attributes
  startTimeUnixNano := (start.map toNanos).getD 0
  timeUnixNano := toNanos time
  exemplars := p.exemplars.map exemplarOf
  flags := 0
  value := numOf p.value

/-- The point closure of histograms. metrics.rs:212-224 -/
def histPointOf (cast : Cast) (start time : Int) (p : HistPoint K) : PHistPoint K where
  attributes := attributes p.attributes
  startTimeUnixNano := toNanos start
  timeUnixNano := toNanos time
  count := p.count
  sum := some (intoF64 cast p.sum)
  bucketCounts := p.bucketCounts
  explicitBounds := p.bounds
  exemplars := p.exemplars.map exemplarOf
  flags := 0
  min := p.min.map (intoF64 cast)
  max := p.max.map (intoF64 cast)

/-- The point closure of exponential histograms. metrics.rs:240-261 -/
def expoPointOf (cast : Cast) (start time : Int) (p : ExpoPoint K) : PExpoPoint K where
  attributes := attributes p.attributes
  startTimeUnixNano := toNanos start
  timeUnixNano := toNanos time
  count := p.count
  sum := some (intoF64 cast p.sum)
  scale := p.scale.signExtend 32
  zeroCount := p.zeroCount
  positive := p.positive
  negative := p.negative
  flags := 0
  exemplars := p.exemplars.map exemplarOf
  min := p.min.map (intoF64 cast)
  max := p.max.map (intoF64 cast)
  zeroThreshold := p.zeroThreshold

/-- `From<&MetricData<T>>` and the conversions of the four structs. metrics.rs:164-178, 203-312 -/
def dataOf (cast : Cast) : MData K → PData K
  | .gauge ps s t => .gauge (ps.map (gaugePointOf s t))
  | .sum ps s t temp mono => .sum (ps.map (sumPointOf s t)) (temporalityNumber temp) mono
  | .histogram ps s t temp => .histogram (ps.map (histPointOf cast s t)) (temporalityNumber temp)
  | .expo ps s t temp => .expo (ps.map (expoPointOf cast s t)) (temporalityNumber temp)

/-- `From<&SdkMetric>`. metrics.rs:148-162 -/
def metricOf (cast : Cast) (m : SdkMetric K) : PMetric K := ⟨m.name, m.description, m.unit, dataOf cast m.data⟩

/-- `ScopeMetrics` of the SDK. data/mod.rs:21-27 -/
structure SdkScopeMetrics (K : Type) where
  scope : Scope K
  metrics : List (SdkMetric K)

/-- `From<&SdkScopeMetrics>`. metrics.rs:134-146 -/
def scopeMetricsOf (cast : Cast) (s : SdkScopeMetrics K) : PGroup K (PMetric K) where
  scope := scopeOf s.scope none
  items := s.metrics.map (metricOf cast)
  schemaUrl := s.scope.schemaUrl.getD ""

/-- `From<&ResourceMetrics> for ExportMetricsServiceRequest`. metrics.rs:113-132 -/
def metricsRequest (cast : Cast) (resource : List (K × Val)) (schemaUrl : Option String) (sms : List (SdkScopeMetrics K)) : PRequest K (PMetric K) where
  resource := attributes resource
  groups := sms.map (scopeMetricsOf cast)
  schemaUrl := schemaUrl.getD ""

/-! ## What a receiver must see (specification) -/

/-- The number meant by an integer or double. -/
inductive NumVal where
  | int (i : Int)
  | double (w : BitVec 64)
deriving DecidableEq

/-- The number recorded. -/
def Num.value : Num → NumVal
  | .u64 w => .int w.toNat
  | .i64 w => .int w.toInt
  | .f64 w => .double w

/-- The number received: `as_int` is signed. -/
def PNum.value : PNum → NumVal
  | .asInt w => .int w.toInt
  | .asDouble w => .double w

/-- The number fits the message: an unsigned one must be at most `i64::MAX`. -/
def Num.Fits : Num → Prop
  | .u64 w => w.toNat < 2 ^ 63
  | _ => True

/-- A time fits the message. -/
def TimeFits (t : Int) : Prop := 0 ≤ t ∧ t < 2 ^ 64

/-- Two lists correspond element by element. -/
def Each {α β : Type} (R : α → β → Prop) : List α → List β → Prop
  | [], [] => True
  | a :: as, b :: bs => R a b ∧ Each R as bs
  | _, _ => False

/-- The received attributes are the recorded ones. -/
def SameKvs (kvs : List (K × Val)) (p : List (PKv K)) : Prop := readAttrs p = some kvs

/-- The received time is the recorded one. -/
def SameTime (t : Int) (w : BitVec 64) : Prop := (w.toNat : Int) = t

/-- The received exemplar is the recorded one. -/
def SameExemplar (e : Exemplar K) (q : PExemplar K) : Prop :=
  SameKvs e.filteredAttributes q.filteredAttributes ∧ SameTime e.time q.timeUnixNano ∧ q.spanId = e.spanId ∧ q.traceId = e.traceId ∧
    q.value.value = e.value.value

/-- The received number point is the recorded one. `start` is the start time, if there is one (0 means unset). A flag would say that there is
no recorded value. -/
def SameNum (start : Option Int) (time : Int) (p : NumPoint K) (q : PNumPoint K) : Prop :=
  SameKvs p.attributes q.attributes ∧ SameTime (start.getD 0) q.startTimeUnixNano ∧ SameTime time q.timeUnixNano ∧
    q.value.value = p.value.value ∧ q.flags = 0 ∧ Each SameExemplar p.exemplars q.exemplars

/-- The received histogram point is the recorded one; sum, minimum and maximum as floats. -/
def SameHist (cast : Cast) (start time : Int) (p : HistPoint K) (q : PHistPoint K) : Prop :=
  SameKvs p.attributes q.attributes ∧ SameTime start q.startTimeUnixNano ∧ SameTime time q.timeUnixNano ∧
    q.count = p.count ∧ q.explicitBounds = p.bounds ∧ q.bucketCounts = p.bucketCounts ∧ q.sum = some (intoF64 cast p.sum) ∧
    q.min = p.min.map (intoF64 cast) ∧ q.max = p.max.map (intoF64 cast) ∧ q.flags = 0 ∧
    Each SameExemplar p.exemplars q.exemplars

/-- The received exponential histogram point is the recorded one. -/
def SameExpo (cast : Cast) (start time : Int) (p : ExpoPoint K) (q : PExpoPoint K) : Prop :=
  SameKvs p.attributes q.attributes ∧ SameTime start q.startTimeUnixNano ∧ SameTime time q.timeUnixNano ∧
    q.count = p.count ∧ q.sum = some (intoF64 cast p.sum) ∧ q.min = p.min.map (intoF64 cast) ∧ q.max = p.max.map (intoF64 cast) ∧
    q.scale.toInt = p.scale.toInt ∧ q.zeroCount = p.zeroCount ∧ q.positive = p.positive ∧ q.negative = p.negative ∧
    q.zeroThreshold = p.zeroThreshold ∧ q.flags = 0 ∧ Each SameExemplar p.exemplars q.exemplars

/-- The temporality numbers of the protocol: 1 is delta, 2 is cumulative. -/
def SameTemporality (t : Temporality) (n : Nat) : Prop := (t = .delta ∧ n = 1) ∨ (t = .cumulative ∧ n = 2)

/-- The received data are the recorded ones: same kind, every point once and in order. -/
def SameData (cast : Cast) : MData K → PData K → Prop
  | .gauge ps s t, .gauge qs => Each (SameNum s t) ps qs
  | .sum ps s t temp mono, .sum qs n mono' => Each (SameNum (some s) t) ps qs ∧ SameTemporality temp n ∧ mono' = mono
  | .histogram ps s t temp, .histogram qs n => Each (SameHist cast s t) ps qs ∧ SameTemporality temp n
  | .expo ps s t temp, .expo qs n => Each (SameExpo cast s t) ps qs ∧ SameTemporality temp n
  | _, _ => False

/-- Nothing in the exemplar is outside of what the messages can hold. -/
def Exemplar.Fits (e : Exemplar K) : Prop := PlainAttrs e.filteredAttributes ∧ TimeFits e.time ∧ e.value.Fits

/-- Nothing in the data is outside of what the messages can hold. -/
def MData.Fits : MData K → Prop
  | .gauge ps s t => (∀ x, s = some x → TimeFits x) ∧ TimeFits t ∧
      ∀ p ∈ ps, PlainAttrs p.attributes ∧ p.value.Fits ∧ ∀ e ∈ p.exemplars, e.Fits
  | .sum ps s t temp _ => TimeFits s ∧ TimeFits t ∧ temp ≠ .lowMemory ∧
      ∀ p ∈ ps, PlainAttrs p.attributes ∧ p.value.Fits ∧ ∀ e ∈ p.exemplars, e.Fits
  | .histogram ps s t temp => TimeFits s ∧ TimeFits t ∧ temp ≠ .lowMemory ∧ ∀ p ∈ ps, PlainAttrs p.attributes ∧ ∀ e ∈ p.exemplars, e.Fits
  | .expo ps s t temp => TimeFits s ∧ TimeFits t ∧ temp ≠ .lowMemory ∧ ∀ p ∈ ps, PlainAttrs p.attributes ∧ ∀ e ∈ p.exemplars, e.Fits

end Otel.Otlp
