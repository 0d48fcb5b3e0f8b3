import Verif.Otlp.ProtoLemmas
/-!
# C96: what OTLP in protobuf has to be

The numbers and types of the fields are those of the OTLP specification (`opentelemetry/proto/*/v1/*.proto`, version 1.5), written here as a table for each message:
the values that the field with a number has on the wire. The encodings of the types are those of the protocol buffers documentation, in terms of integers:
`uint32` as itself, `int32` and enumerations as 64 bit two's complement, `sint32` zigzag, `fixed64`, `sfixed64` and `double` as eight bytes, strings as UTF-8; a field
that holds its default is absent.
-/

namespace Otel.Otlp.Proto
open Rust Wire
open Otel.Otlp.Json

/-! ## Types -/

/-- `string` -/
def stringV (s : Str) : List Val := if s = [] then [] else [.len ((utf8 s).map UInt8.toBitVec)]
/-- `bytes` -/
def bytesV (bs : List Byte) : List Val := if bs = [] then [] else [.len bs]
/-- `uint32` -/
def uintV (n : Nat) : List Val := if n = 0 then [] else [.varint (BitVec.ofNat 64 n)]
/-- `int32`, enumerations -/
def intV (i : Int) : List Val := if i = 0 then [] else [.varint (BitVec.ofInt 64 i)]
/-- `sint32`: 0, -1, 1, -2, … are 0, 1, 2, 3, … -/
def sintV (i : Int) : List Val := if i = 0 then [] else [.varint (BitVec.ofNat 64 (if 0 ≤ i then 2 * i.toNat else 2 * (-i).toNat - 1))]
/-- `bool` -/
def boolV (b : Bool) : List Val := if b then [.varint 1] else []
/-- `fixed64` -/
def fixed64V (n : BitVec 64) : List Val := if n = 0 then [] else [.i64 n]
/-- `fixed32` -/
def fixed32V (n : BitVec 32) : List Val := if n = 0 then [] else [.i32 n]
/-- `double`, of which both zeros are the default here -/
def doubleV (f : BitVec 64) : List Val := if f = 0 ∨ f = 0x8000000000000000#64 then [] else [.i64 f]
/-- `optional double` -/
def optDoubleV (f : Option (BitVec 64)) : List Val := f.toList.map .i64
/-- `repeated fixed64`, `repeated double`: eight bytes each -/
def fixed64sV (ns : List (BitVec 64)) : List Val := if ns = [] then [] else [.len (ns.flatMap fun n => le 8 n.toNat)]
/-- `repeated uint64`: a varint each -/
def uint64sV (ns : List (BitVec 64)) : List Val := if ns = [] then [] else [.len (ns.flatMap fun n => varint n.toNat)]
/-- Messages, each of which is written with these fields. -/
def messagesV {α : Type} (fields : α → List Rec) (ms : List α) : List Val := ms.map fun m => .len (write (fields m))

/-! ## Numbers -/

/-- The fields of a message: number and values. -/
abbrev Table (α : Type) := List (Nat × (α → List Val))

/-- `common.proto`: `AnyValue` is a oneof, so a variant is written even if it holds the default of its type. -/
def anyTable : Table AVal := [
  (1, fun | .str s => [.len ((utf8 s).map UInt8.toBitVec)] | _ => []),
  (2, fun | .bool b => [.varint (if b then 1 else 0)] | _ => []),
  (3, fun | .int i => [.varint i] | _ => []),
  (4, fun | .double f => [.i64 f] | _ => []),
  (5, fun | .array vs => [.len (write (vs.map fun v => (1, .len (write (anyF v)))))] | _ => []),
  (6, fun | .kvlist kvs => [.len (write (kvs.map fun kv => (1, .len (write (kvF kv)))))] | _ => []),
  (7, fun | .bytes bs => [.len bs] | _ => [])]

def kvTable : Table Kv := [(1, fun kv => stringV kv.1), (2, fun kv => messagesV anyF kv.2.toList)]

def scopeTable : Table Scope := [
  (1, fun s => stringV s.name), (2, fun s => stringV s.version), (3, fun s => messagesV kvF s.attributes), (4, fun s => uintV s.droppedAttributesCount.toNat)]

/-- `resource.proto` -/
def resTable : Table Res := [(1, fun r => messagesV kvF r.attributes), (2, fun r => uintV r.droppedAttributesCount.toNat)]

/-- `trace.proto` -/
def eventTable : Table Event := [
  (1, fun e => fixed64V e.timeUnixNano), (2, fun e => stringV e.name), (3, fun e => messagesV kvF e.attributes),
  (4, fun e => uintV e.droppedAttributesCount.toNat)]

def linkTable : Table Link := [
  (1, fun l => bytesV l.traceId), (2, fun l => bytesV l.spanId), (3, fun l => stringV l.traceState), (4, fun l => messagesV kvF l.attributes),
  (5, fun l => uintV l.droppedAttributesCount.toNat), (6, fun l => fixed32V l.flags)]

def statusTable : Table Status := [(2, fun s => stringV s.message), (3, fun s => intV s.code.toInt)]

def spanTable : Table Span := [
  (1, fun s => bytesV s.traceId), (2, fun s => bytesV s.spanId), (3, fun s => stringV s.traceState), (4, fun s => bytesV s.parentSpanId),
  (5, fun s => stringV s.name), (6, fun s => intV s.kind.toInt), (7, fun s => fixed64V s.startTimeUnixNano), (8, fun s => fixed64V s.endTimeUnixNano),
  (9, fun s => messagesV kvF s.attributes), (10, fun s => uintV s.droppedAttributesCount.toNat), (11, fun s => messagesV eventF s.events),
  (12, fun s => uintV s.droppedEventsCount.toNat), (13, fun s => messagesV linkF s.links), (14, fun s => uintV s.droppedLinksCount.toNat),
  (15, fun s => messagesV statusF s.status.toList), (16, fun s => fixed32V s.flags)]

/-- `ScopeSpans`, `ScopeLogs`, `ScopeMetrics` -/
def scopeItemsTable {α : Type} (fields : α → List Rec) : Table (ScopeItems α) := [
  (1, fun s => messagesV scopeF s.scope.toList), (2, fun s => messagesV fields s.items), (3, fun s => stringV s.schemaUrl)]

/-- `ResourceSpans`, `ResourceLogs`, `ResourceMetrics` -/
def resourceItemsTable {α : Type} (fields : α → List Rec) : Table (ResourceItems α) := [
  (1, fun s => messagesV resF s.resource.toList), (2, fun s => messagesV (scopeItemsF fields) s.scopes), (3, fun s => stringV s.schemaUrl)]

/-- `trace_service.proto`, `logs_service.proto`, `metrics_service.proto` -/
def requestTable {α : Type} (fields : α → List Rec) : Table (List (ResourceItems α)) := [(1, messagesV (resourceItemsF fields))]

/-- `logs.proto`; 4 is reserved. -/
def logTable : Table LogRecord := [
  (1, fun r => fixed64V r.timeUnixNano), (2, fun r => intV r.severityNumber.toInt), (3, fun r => stringV r.severityText),
  (5, fun r => messagesV anyF r.body.toList), (6, fun r => messagesV kvF r.attributes), (7, fun r => uintV r.droppedAttributesCount.toNat),
  (8, fun r => fixed32V r.flags), (9, fun r => bytesV r.traceId), (10, fun r => bytesV r.spanId), (11, fun r => fixed64V r.observedTimeUnixNano),
  (12, fun r => stringV r.eventName)]

/-- `metrics.proto`: the oneof of a number. -/
def doubleOf : Option Num → List Val
  | some (.asDouble f) => [.i64 f]
  | _ => []
def intOf : Option Num → List Val
  | some (.asInt i) => [.i64 i]
  | _ => []

def exemplarTable : Table Exemplar := [
  (2, fun e => fixed64V e.timeUnixNano), (3, fun e => doubleOf e.value), (4, fun e => bytesV e.spanId), (5, fun e => bytesV e.traceId),
  (6, fun e => intOf e.value), (7, fun e => messagesV kvF e.filteredAttributes)]

def numPointTable : Table NumPoint := [
  (2, fun p => fixed64V p.startTimeUnixNano), (3, fun p => fixed64V p.timeUnixNano), (4, fun p => doubleOf p.value),
  (5, fun p => messagesV exemplarF p.exemplars), (6, fun p => intOf p.value), (7, fun p => messagesV kvF p.attributes), (8, fun p => uintV p.flags.toNat)]

def histPointTable : Table HistPoint := [
  (2, fun p => fixed64V p.startTimeUnixNano), (3, fun p => fixed64V p.timeUnixNano), (4, fun p => fixed64V p.count), (5, fun p => optDoubleV p.sum),
  (6, fun p => fixed64sV p.bucketCounts), (7, fun p => fixed64sV p.explicitBounds), (8, fun p => messagesV exemplarF p.exemplars),
  (9, fun p => messagesV kvF p.attributes), (10, fun p => uintV p.flags.toNat), (11, fun p => optDoubleV p.min), (12, fun p => optDoubleV p.max)]

def bucketsTable : Table Buckets := [(1, fun b => sintV b.offset.toInt), (2, fun b => uint64sV b.bucketCounts)]

def expoPointTable : Table ExpoPoint := [
  (1, fun p => messagesV kvF p.attributes), (2, fun p => fixed64V p.startTimeUnixNano), (3, fun p => fixed64V p.timeUnixNano), (4, fun p => fixed64V p.count),
  (5, fun p => optDoubleV p.sum), (6, fun p => sintV p.scale.toInt), (7, fun p => fixed64V p.zeroCount), (8, fun p => messagesV bucketsF p.positive.toList),
  (9, fun p => messagesV bucketsF p.negative.toList), (10, fun p => uintV p.flags.toNat), (11, fun p => messagesV exemplarF p.exemplars),
  (12, fun p => optDoubleV p.min), (13, fun p => optDoubleV p.max), (14, fun p => doubleV p.zeroThreshold)]

/-- The messages of the oneof of a metric: `Gauge`, `Sum`, `Histogram`, `ExponentialHistogram`, with their fields. -/
def gaugeTable : Table (List NumPoint) := [(1, messagesV numPointF)]
def sumTable : Table (List NumPoint × BitVec 32 × Bool) := [(1, fun s => messagesV numPointF s.1), (2, fun s => intV s.2.1.toInt), (3, fun s => boolV s.2.2)]
def histogramTable : Table (List HistPoint × BitVec 32) := [(1, fun s => messagesV histPointF s.1), (2, fun s => intV s.2.toInt)]
def expoTable : Table (List ExpoPoint × BitVec 32) := [(1, fun s => messagesV expoPointF s.1), (2, fun s => intV s.2.toInt)]

def metricTable : Table Metric := [
  (1, fun m => stringV m.name), (2, fun m => stringV m.description), (3, fun m => stringV m.unit),
  (5, fun m => match m.data with | some (.gauge ps) => [.len (write (gaugeF ps))] | _ => []),
  (7, fun m => match m.data with | some (.sum ps t b) => [.len (write (sumF ps t b))] | _ => []),
  (9, fun m => match m.data with | some (.histogram ps t) => [.len (write (histogramF ps t))] | _ => []),
  (10, fun m => match m.data with | some (.expo ps t) => [.len (write (expoF ps t))] | _ => []),
  (12, fun m => messagesV kvF m.metadata)]

/-- The bytes of a message are readable and hold, under each number of the table, the values of the table, and nothing else. -/
def Follows {α : Type} (table : Table α) (m : α) (bytes : List Byte) : Prop :=
  ∃ rs, parse bytes = some rs ∧ (∀ e ∈ table, sel e.1 rs = e.2 m) ∧ ∀ r ∈ rs, r.1 ∈ table.map (·.1)

/-! ## Nesting -/

mutual
/-- How many levels of messages are inside an `AnyValue`: a list is a message that holds messages, a map is a message that holds entries that hold values. -/
def levels : AVal → Nat
  | .array vs => 1 + levelsArr vs
  | .kvlist kvs => 1 + levelsKvs kvs
  | _ => 0
def levelsArr : List AVal → Nat
  | [] => 0
  | v :: vs => max (1 + levels v) (levelsArr vs)
def levelsKvs : List (Str × Option AVal) → Nat
  | [] => 0
  | (_, none) :: kvs => max 1 (levelsKvs kvs)
  | (_, some v) :: kvs => max (2 + levels v) (levelsKvs kvs)
end

/-- Every value of the attributes has at most so many levels. -/
def Shallow (n : Nat) (kvs : List Kv) : Prop := ∀ kv ∈ kvs, ∀ v, kv.2 = some v → levels v ≤ n

/-- The values of a span that a reader with the limit of 100 reads. -/
structure ShallowSpan (s : Span) : Prop where
  attributes : Shallow 95 s.attributes
  events : ∀ e ∈ s.events, Shallow 94 e.attributes
  links : ∀ l ∈ s.links, Shallow 94 l.attributes

structure ShallowLog (r : LogRecord) : Prop where
  body : ∀ v, r.body = some v → levels v ≤ 96
  attributes : Shallow 95 r.attributes

/-- The exemplars, the attributes, and a threshold that is not the negative zero. -/
def ShallowNum (p : NumPoint) : Prop := Shallow 93 p.attributes ∧ ∀ e ∈ p.exemplars, Shallow 92 e.filteredAttributes
def ShallowHist (p : HistPoint) : Prop := Shallow 93 p.attributes ∧ ∀ e ∈ p.exemplars, Shallow 92 e.filteredAttributes
def ShallowExpo (p : ExpoPoint) : Prop :=
  Shallow 93 p.attributes ∧ (∀ e ∈ p.exemplars, Shallow 92 e.filteredAttributes) ∧ p.zeroThreshold ≠ 0x8000000000000000#64

def ShallowData : Data → Prop
  | .gauge ps => ∀ p ∈ ps, ShallowNum p
  | .sum ps _ _ => ∀ p ∈ ps, ShallowNum p
  | .histogram ps _ => ∀ p ∈ ps, ShallowHist p
  | .expo ps _ => ∀ p ∈ ps, ShallowExpo p

structure ShallowMetric (m : Metric) : Prop where
  metadata : Shallow 95 m.metadata
  data : ∀ d, m.data = some d → ShallowData d

/-- The request: attributes of resources and scopes, and the items. -/
def ShallowRequest {α : Type} (item : α → Prop) (rs : List (ResourceItems α)) : Prop :=
  ∀ r ∈ rs, (∀ x, r.resource = some x → Shallow 96 x.attributes) ∧
    ∀ s ∈ r.scopes, (∀ x, s.scope = some x → Shallow 95 x.attributes) ∧ ∀ i ∈ s.items, item i

end Otel.Otlp.Proto
