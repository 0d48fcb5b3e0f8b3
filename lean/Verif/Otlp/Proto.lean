import Verif.Otlp.Wire
import Verif.Otlp.Json
/-!
# OTLP in protobuf (`opentelemetry-proto/src/proto/tonic/*.rs`), C96

The messages of `Verif.Otlp.Json`, which are the structs `prost` generates, written and read with the numbers and types of their `prost(…)` attributes. `prost`
writes the fields of a struct in the order of their numbers. Reading, a field that occurs several times is the last one, a repeated field is all of them, and a
message field is all its occurrences merged, which is reading their records one after the other.

`Summary`, which no exporter makes, is left out: a metric with field 11 is refused.
-/

namespace Otel.Otlp.Proto
open Rust Wire
open Otel.Otlp.Json

/-! ## Kinds of fields -/

/-- The bytes of a string. -/
def text (s : Str) : List Byte := (utf8 s).map UInt8.toBitVec

/-- `string::merge`: the bytes must be UTF-8. -/
def asText : Val → Option Str
  | .len bs => fromUtf8 (bs.map UInt8.ofBitVec)
  | _ => none

/-- `bytes::merge` -/
def asBytes : Val → Option (List Byte)
  | .len bs => some bs
  | _ => none

/-- `uint32::merge`: `value as u32` -/
def asU32 : Val → Option (BitVec 32)
  | .varint n => some (n.setWidth 32)
  | _ => none

/-- `int32::merge`, also for enumerations: `value as i32` -/
def asI32 : Val → Option (BitVec 32)
  | .varint n => some (n.setWidth 32)
  | _ => none

/-- `int64::merge` -/
def asI64 : Val → Option (BitVec 64)
  | .varint n => some n
  | _ => none

/-- `sint32`: `((value << 1) ^ (value >> 31)) as u32 as u64` -/
def zigzag (n : BitVec 32) : BitVec 64 := ((n <<< 1) ^^^ (n.sshiftRight 31)).setWidth 64

/-- `let value = value as u32; ((value >> 1) as i32) ^ (-((value & 1) as i32))` -/
def unzigzag (n : BitVec 64) : BitVec 32 := (n.setWidth 32 >>> 1) ^^^ (-(n.setWidth 32 &&& 1#32))

/-- `sint32::merge` -/
def asS32 : Val → Option (BitVec 32)
  | .varint n => some (unzigzag n)
  | _ => none

/-- `bool::merge`: `value != 0` -/
def asBool : Val → Option Bool
  | .varint n => some (n != 0#64)
  | _ => none

/-- `fixed64::merge`, `sfixed64::merge`, `double::merge` -/
def as64 : Val → Option (BitVec 64)
  | .i64 b => some b
  | _ => none

/-- `fixed32::merge` -/
def as32 : Val → Option (BitVec 32)
  | .i32 b => some b
  | _ => none

/-- `#[prost(string)]`: written unless empty. -/
def strF (t : Nat) (s : Str) : List Rec := if s = [] then [] else [(t, .len (text s))]

/-- `#[prost(bytes = "vec")]` -/
def bytesF (t : Nat) (bs : List Byte) : List Rec := if bs = [] then [] else [(t, .len bs)]

/-- `#[prost(uint32)]` -/
def u32F (t : Nat) (n : BitVec 32) : List Rec := if n = 0#32 then [] else [(t, .varint (n.setWidth 64))]

/-- `#[prost(enumeration)]`: an `i32`, whose sign is extended. -/
def enumF (t : Nat) (n : BitVec 32) : List Rec := if n = 0#32 then [] else [(t, .varint (n.signExtend 64))]

/-- `#[prost(sint32)]` -/
def s32F (t : Nat) (n : BitVec 32) : List Rec := if n = 0#32 then [] else [(t, .varint (zigzag n))]

/-- `#[prost(bool)]` -/
def boolF (t : Nat) (b : Bool) : List Rec := if b then [(t, .varint 1#64)] else []

/-- `#[prost(fixed64)]` -/
def f64F (t : Nat) (n : BitVec 64) : List Rec := if n = 0#64 then [] else [(t, .i64 n)]

/-- `#[prost(fixed32)]` -/
def f32F (t : Nat) (n : BitVec 32) : List Rec := if n = 0#32 then [] else [(t, .i32 n)]

/-- `#[prost(double)]`: written unless it equals `0.0`, which `-0.0` does. -/
def dblF (t : Nat) (f : BitVec 64) : List Rec := if f <<< 1 = 0#64 then [] else [(t, .i64 f)]

/-- `#[prost(double, optional)]` -/
def optDblF (t : Nat) (f : Option (BitVec 64)) : List Rec := (f.map fun f => (t, Val.i64 f)).toList

/-- `#[prost(message, optional)]` -/
def msgF {α : Type} (t : Nat) (fields : α → List Rec) (m : Option α) : List Rec := (m.map fun a => (t, Val.len (write (fields a)))).toList

/-- `#[prost(message, repeated)]` -/
def repF {α : Type} (t : Nat) (fields : α → List Rec) (ms : List α) : List Rec := ms.map fun a => (t, .len (write (fields a)))

/-- `#[prost(fixed64, repeated)]` and `#[prost(double, repeated)]`, packed. -/
def packed64F (t : Nat) (ns : List (BitVec 64)) : List Rec := if ns = [] then [] else [(t, .len (ns.flatMap fun n => le 8 n.toNat))]

/-- `#[prost(uint64, repeated)]`, packed. -/
def packedVarintF (t : Nat) (ns : List (BitVec 64)) : List Rec := if ns = [] then [] else [(t, .len (ns.flatMap fun n => varint n.toNat))]

/-- A field that is there at most once: the last value, or the default; all of them must be readable. -/
def last {β : Type} (rd : Val → Option β) (d : β) (vs : List Val) : Option β := vs.foldlM (fun _ v => rd v) d

/-- An optional field that is not a message. -/
def lastOpt {β : Type} (rd : Val → Option β) (vs : List Val) : Option (Option β) := vs.foldlM (fun _ v => (rd v).map some) none

/-- `message::merge` into an `Option`: the records of all occurrences. -/
def opt {α : Type} (dec : List Rec → Option α) (vs : List Val) : Option (Option α) :=
  if vs = [] then some none else (vs.mapM payload).bind fun rss => (dec rss.flatten).map some

/-- The message in one value. -/
def inner {α : Type} (dec : List Rec → Option α) (v : Val) : Option α := (payload v).bind dec

/-- `message::merge_repeated` -/
def rep {α : Type} (dec : List Rec → Option α) (vs : List Val) : Option (List α) := vs.mapM (inner dec)

/-- The packed values until the end. -/
def unpack (rd : List Byte → Option (Nat × List Byte)) : Nat → List Byte → Option (List (BitVec 64))
  | _, [] => some []
  | 0, _ :: _ => none
  | n + 1, b :: bs => (rd (b :: bs)).bind fun r => (unpack rd n r.2).map (BitVec.ofNat 64 r.1 :: ·)

/-- `fixed64::merge_repeated`, `double::merge_repeated`: packed or not. -/
def asPacked64 : Val → Option (List (BitVec 64))
  | .len bs => unpack (readLe 8) bs.length bs
  | .i64 b => some [b]
  | _ => none

/-- `uint64::merge_repeated` -/
def asPackedVarint : Val → Option (List (BitVec 64))
  | .len bs => unpack (readVarint 0) bs.length bs
  | .varint n => some [n]
  | _ => none

/-- The repeated field from all its values. -/
def unpacked (rd : Val → Option (List (BitVec 64))) (vs : List Val) : Option (List (BitVec 64)) := (vs.mapM rd).map List.flatten

/-- `DecodeContext`: a message inside can be read if the limit is not reached. -/
def lim {α : Type} (n : Nat) (dec : Nat → List Rec → Option α) : List Rec → Option α :=
  match n with
  | 0 => fun _ => none
  | n + 1 => dec n

/-- `skip_field` for other numbers than these, which also looks at the limit. -/
def skip (n : Nat) (tags : List Nat) (rs : List Rec) : Option Unit := if n = 0 ∧ ∃ r ∈ rs, r.1 ∉ tags then none else some ()

/-! ## Attributes. opentelemetry.proto.common.v1.rs -/

mutual
/-- `AnyValue`: the field of the variant. common.v1.rs:31-47 -/
def anyF : AVal → List Rec
  | .unset => []
  | .str s => [(1, .len (text s))]
  | .bool b => [(2, .varint (if b then 1#64 else 0#64))]
  | .int i => [(3, .varint i)]
  | .double f => [(4, .i64 f)]
  | .array vs => [(5, .len (write (arrF vs)))]
  | .kvlist kvs => [(6, .len (write (kvlF kvs)))]
  | .bytes bs => [(7, .len bs)]
/-- `ArrayValue`: `values` is field 1. common.v1.rs:54-58 -/
def arrF : List AVal → List Rec
  | [] => []
  | v :: vs => (1, .len (write (anyF v))) :: arrF vs
/-- `KeyValueList`: `values` is field 1. common.v1.rs:68-76; the `KeyValue` inside: common.v1.rs:82-87 -/
def kvlF : List (Str × Option AVal) → List Rec
  | [] => []
  | (k, none) :: kvs => (1, .len (write (strF 1 k))) :: kvlF kvs
  | (k, some v) :: kvs => (1, .len (write (strF 1 k ++ [(2, .len (write (anyF v)))]))) :: kvlF kvs
end

/-- `KeyValue`. common.v1.rs:82-87 -/
def kvF (kv : Kv) : List Rec := strF 1 kv.1 ++ msgF 2 anyF kv.2

/-- One record of an `AnyValue`: another variant replaces the value, the same list is continued. -/
def stepAny (arr : List Rec → Option (List AVal)) (kvl : List Rec → Option (List Kv)) (n : Nat) (cur : AVal) (r : Rec) : Option AVal :=
  if r.1 = 1 then (asText r.2).map .str
  else if r.1 = 2 then (asBool r.2).map .bool
  else if r.1 = 3 then (asI64 r.2).map .int
  else if r.1 = 4 then (as64 r.2).map .double
  else if r.1 = 5 then (inner arr r.2).map fun vs => .array ((match cur with | .array us => us | _ => []) ++ vs)
  else if r.1 = 6 then (inner kvl r.2).map fun kvs => .kvlist ((match cur with | .kvlist us => us | _ => []) ++ kvs)
  else if r.1 = 7 then (asBytes r.2).map .bytes
  else if n = 0 then none else some cur

mutual
/-- `AnyValue::merge_field`; the number is how many levels of messages may be inside. -/
def decAny : Nat → List Rec → Option AVal
  | 0, rs => rs.foldlM (stepAny (fun _ => none) (fun _ => none) 0) .unset
  | n + 1, rs => rs.foldlM (stepAny (decArr n) (decKvl n) (n + 1)) .unset
/-- `ArrayValue::merge_field` -/
def decArr : Nat → List Rec → Option (List AVal)
  | 0, rs => if rs = [] then some [] else none
  | n + 1, rs => rep (decAny n) (sel 1 rs)
/-- `KeyValueList::merge_field` -/
def decKvl : Nat → List Rec → Option (List Kv)
  | 0, rs => if rs = [] then some [] else none
  | n + 1, rs => rep (decKv n) (sel 1 rs)
/-- `KeyValue::merge_field` -/
def decKv : Nat → List Rec → Option Kv
  | 0, rs => (skip 0 [1] rs).bind fun _ => (last asText [] (sel 1 rs)).map fun k => (k, none)
  | n + 1, rs => (last asText [] (sel 1 rs)).bind fun k => (opt (decAny n) (sel 2 rs)).map fun v => (k, v)
end

/-- `InstrumentationScope`. common.v1.rs:95-108 -/
def scopeF (s : Scope) : List Rec := strF 1 s.name ++ strF 2 s.version ++ repF 3 kvF s.attributes ++ u32F 4 s.droppedAttributesCount

def decScope (n : Nat) (rs : List Rec) : Option Scope := do
  skip n [1, 2, 3, 4] rs
  let name ← last asText [] (sel 1 rs)
  let version ← last asText [] (sel 2 rs)
  let attributes ← rep (lim n decKv) (sel 3 rs)
  let droppedAttributesCount ← last asU32 0#32 (sel 4 rs)
  some { name, version, attributes, droppedAttributesCount }

/-- `Resource`. opentelemetry.proto.resource.v1.rs:8-18 -/
def resF (r : Res) : List Rec := repF 1 kvF r.attributes ++ u32F 2 r.droppedAttributesCount

def decRes (n : Nat) (rs : List Rec) : Option Res := do
  skip n [1, 2] rs
  let attributes ← rep (lim n decKv) (sel 1 rs)
  let droppedAttributesCount ← last asU32 0#32 (sel 2 rs)
  some { attributes, droppedAttributesCount }

/-! ## Traces. opentelemetry.proto.trace.v1.rs -/

/-- `span::Event`. trace.v1.rs:245-271 -/
def eventF (e : Event) : List Rec := f64F 1 e.timeUnixNano ++ strF 2 e.name ++ repF 3 kvF e.attributes ++ u32F 4 e.droppedAttributesCount

def decEvent (n : Nat) (rs : List Rec) : Option Event := do
  skip n [1, 2, 3, 4] rs
  let timeUnixNano ← last as64 0#64 (sel 1 rs)
  let name ← last asText [] (sel 2 rs)
  let attributes ← rep (lim n decKv) (sel 3 rs)
  let droppedAttributesCount ← last asU32 0#32 (sel 4 rs)
  some { timeUnixNano, name, attributes, droppedAttributesCount }

/-- `span::Link`. trace.v1.rs:281-335 -/
def linkF (l : Link) : List Rec :=
  bytesF 1 l.traceId ++ bytesF 2 l.spanId ++ strF 3 l.traceState ++ repF 4 kvF l.attributes ++ u32F 5 l.droppedAttributesCount ++ f32F 6 l.flags

def decLink (n : Nat) (rs : List Rec) : Option Link := do
  skip n [1, 2, 3, 4, 5, 6] rs
  let traceId ← last asBytes [] (sel 1 rs)
  let spanId ← last asBytes [] (sel 2 rs)
  let traceState ← last asText [] (sel 3 rs)
  let attributes ← rep (lim n decKv) (sel 4 rs)
  let droppedAttributesCount ← last asU32 0#32 (sel 5 rs)
  let flags ← last as32 0#32 (sel 6 rs)
  some { traceId, spanId, traceState, attributes, droppedAttributesCount, flags }

/-- `Status`. trace.v1.rs:412-419 -/
def statusF (s : Status) : List Rec := strF 2 s.message ++ enumF 3 s.code

def decStatus (n : Nat) (rs : List Rec) : Option Status := do
  skip n [2, 3] rs
  let message ← last asText [] (sel 2 rs)
  let code ← last asI32 0#32 (sel 3 rs)
  some { message, code }

/-- `Span`. trace.v1.rs:79-234 -/
def spanF (s : Span) : List Rec :=
  bytesF 1 s.traceId ++ bytesF 2 s.spanId ++ strF 3 s.traceState ++ bytesF 4 s.parentSpanId ++ strF 5 s.name ++ enumF 6 s.kind ++
    f64F 7 s.startTimeUnixNano ++ f64F 8 s.endTimeUnixNano ++ repF 9 kvF s.attributes ++ u32F 10 s.droppedAttributesCount ++ repF 11 eventF s.events ++
    u32F 12 s.droppedEventsCount ++ repF 13 linkF s.links ++ u32F 14 s.droppedLinksCount ++ msgF 15 statusF s.status ++ f32F 16 s.flags

def decSpan (n : Nat) (rs : List Rec) : Option Span := do
  skip n [1, 2, 3, 4, 5, 6, 7, 8, 9, 10, 11, 12, 13, 14, 15, 16] rs
  let traceId ← last asBytes [] (sel 1 rs)
  let spanId ← last asBytes [] (sel 2 rs)
  let traceState ← last asText [] (sel 3 rs)
  let parentSpanId ← last asBytes [] (sel 4 rs)
  let flags ← last as32 0#32 (sel 16 rs)
  let name ← last asText [] (sel 5 rs)
  let kind ← last asI32 0#32 (sel 6 rs)
  let startTimeUnixNano ← last as64 0#64 (sel 7 rs)
  let endTimeUnixNano ← last as64 0#64 (sel 8 rs)
  let attributes ← rep (lim n decKv) (sel 9 rs)
  let droppedAttributesCount ← last asU32 0#32 (sel 10 rs)
  let events ← rep (lim n decEvent) (sel 11 rs)
  let droppedEventsCount ← last asU32 0#32 (sel 12 rs)
  let links ← rep (lim n decLink) (sel 13 rs)
  let droppedLinksCount ← last asU32 0#32 (sel 14 rs)
  let status ← opt (lim n decStatus) (sel 15 rs)
  some { traceId, spanId, traceState, parentSpanId, flags, name, kind, startTimeUnixNano, endTimeUnixNano, attributes, droppedAttributesCount, events,
         droppedEventsCount, links, droppedLinksCount, status }

section
variable {α : Type} (fields : α → List Rec) (dec : Nat → List Rec → Option α)

/-- `ScopeSpans` / `ScopeLogs` / `ScopeMetrics`. trace.v1.rs:54-70, logs.v1.rs:54-70, metrics.v1.rs:72-87 -/
def scopeItemsF (s : ScopeItems α) : List Rec := msgF 1 scopeF s.scope ++ repF 2 fields s.items ++ strF 3 s.schemaUrl

def decScopeItems (n : Nat) (rs : List Rec) : Option (ScopeItems α) := do
  skip n [1, 2, 3] rs
  let scope ← opt (lim n decScope) (sel 1 rs)
  let items ← rep (lim n dec) (sel 2 rs)
  let schemaUrl ← last asText [] (sel 3 rs)
  some { scope, items, schemaUrl }

/-- `ResourceSpans` / `ResourceLogs` / `ResourceMetrics`. trace.v1.rs:31-46, logs.v1.rs:31-46, metrics.v1.rs:49-64 -/
def resourceItemsF (s : ResourceItems α) : List Rec := msgF 1 resF s.resource ++ repF 2 (scopeItemsF fields) s.scopes ++ strF 3 s.schemaUrl

def decResourceItems (n : Nat) (rs : List Rec) : Option (ResourceItems α) := do
  skip n [1, 2, 3] rs
  let resource ← opt (lim n decRes) (sel 1 rs)
  let scopes ← rep (lim n (decScopeItems dec)) (sel 2 rs)
  let schemaUrl ← last asText [] (sel 3 rs)
  some { resource, scopes, schemaUrl }

/-- `Export{Trace,Logs,Metrics}ServiceRequest`. collector.trace.v1.rs:6-16, collector.logs.v1.rs:6-16, collector.metrics.v1.rs:6-16 -/
def requestF (rs : List (ResourceItems α)) : List Rec := repF 1 (resourceItemsF fields) rs

def decRequest (n : Nat) (rs : List Rec) : Option (List (ResourceItems α)) := do
  skip n [1] rs
  rep (lim n (decResourceItems dec)) (sel 1 rs)

/-- `encode_to_vec` of a request. -/
def encode (rs : List (ResourceItems α)) : List Byte := write (requestF fields rs)

/-- prost's `RECURSION_LIMIT` -/
def limit : Nat := 100

/-- `Message::decode` -/
def decode (bs : List Byte) : Option (List (ResourceItems α)) := (parse bs).bind (decRequest dec limit)
end

/-! ## Logs. opentelemetry.proto.logs.v1.rs -/

/-- `LogRecord`. logs.v1.rs:78-196 -/
def logF (r : LogRecord) : List Rec :=
  f64F 1 r.timeUnixNano ++ enumF 2 r.severityNumber ++ strF 3 r.severityText ++ msgF 5 anyF r.body ++ repF 6 kvF r.attributes ++
    u32F 7 r.droppedAttributesCount ++ f32F 8 r.flags ++ bytesF 9 r.traceId ++ bytesF 10 r.spanId ++ f64F 11 r.observedTimeUnixNano ++ strF 12 r.eventName

def decLog (n : Nat) (rs : List Rec) : Option LogRecord := do
  skip n [1, 2, 3, 5, 6, 7, 8, 9, 10, 11, 12] rs
  let timeUnixNano ← last as64 0#64 (sel 1 rs)
  let observedTimeUnixNano ← last as64 0#64 (sel 11 rs)
  let severityNumber ← last asI32 0#32 (sel 2 rs)
  let severityText ← last asText [] (sel 3 rs)
  let body ← opt (lim n decAny) (sel 5 rs)
  let attributes ← rep (lim n decKv) (sel 6 rs)
  let droppedAttributesCount ← last asU32 0#32 (sel 7 rs)
  let flags ← last as32 0#32 (sel 8 rs)
  let traceId ← last asBytes [] (sel 9 rs)
  let spanId ← last asBytes [] (sel 10 rs)
  let eventName ← last asText [] (sel 12 rs)
  some { timeUnixNano, observedTimeUnixNano, severityNumber, severityText, body, attributes, droppedAttributesCount, flags, traceId, spanId, eventName }

/-! ## Metrics. opentelemetry.proto.metrics.v1.rs -/

/-- `exemplar::Value` and `number_data_point::Value`, which differ in the number of the double. metrics.v1.rs:374-379, 752-757 -/
def numF (d : Nat) : Option Num → List Rec
  | none => []
  | some (.asDouble f) => [(d, .i64 f)]
  | some (.asInt i) => [(6, .i64 i)]

/-- The variant of the last of the two fields. -/
def decNum (d : Nat) (rs : List Rec) : Option (Option Num) := rs.foldlM (fun cur r =>
  if r.1 = d then (as64 r.2).map (some ∘ .asDouble) else if r.1 = 6 then (as64 r.2).map (some ∘ .asInt) else some cur) none

/-- `Exemplar`. metrics.v1.rs:699-743 -/
def exemplarF (e : Exemplar) : List Rec :=
  f64F 2 e.timeUnixNano ++ numF 3 e.value ++ bytesF 4 e.spanId ++ bytesF 5 e.traceId ++ repF 7 kvF e.filteredAttributes

def decExemplar (n : Nat) (rs : List Rec) : Option Exemplar := do
  skip n [2, 3, 4, 5, 6, 7] rs
  let filteredAttributes ← rep (lim n decKv) (sel 7 rs)
  let timeUnixNano ← last as64 0#64 (sel 2 rs)
  let spanId ← last asBytes [] (sel 4 rs)
  let traceId ← last asBytes [] (sel 5 rs)
  let value ← decNum 3 rs
  some { filteredAttributes, timeUnixNano, spanId, traceId, value }

/-- `NumberDataPoint`. metrics.v1.rs:318-364 -/
def numPointF (p : NumPoint) : List Rec :=
  f64F 2 p.startTimeUnixNano ++ f64F 3 p.timeUnixNano ++ numF 4 p.value ++ repF 5 exemplarF p.exemplars ++ repF 7 kvF p.attributes ++ u32F 8 p.flags

def decNumPoint (n : Nat) (rs : List Rec) : Option NumPoint := do
  skip n [2, 3, 4, 5, 6, 7, 8] rs
  let attributes ← rep (lim n decKv) (sel 7 rs)
  let startTimeUnixNano ← last as64 0#64 (sel 2 rs)
  let timeUnixNano ← last as64 0#64 (sel 3 rs)
  let exemplars ← rep (lim n decExemplar) (sel 5 rs)
  let flags ← last asU32 0#32 (sel 8 rs)
  let value ← decNum 4 rs
  some { attributes, startTimeUnixNano, timeUnixNano, exemplars, flags, value }

/-- `HistogramDataPoint`. metrics.v1.rs:396-487 -/
def histPointF (p : HistPoint) : List Rec :=
  f64F 2 p.startTimeUnixNano ++ f64F 3 p.timeUnixNano ++ f64F 4 p.count ++ optDblF 5 p.sum ++ packed64F 6 p.bucketCounts ++ packed64F 7 p.explicitBounds ++
    repF 8 exemplarF p.exemplars ++ repF 9 kvF p.attributes ++ u32F 10 p.flags ++ optDblF 11 p.min ++ optDblF 12 p.max

def decHistPoint (n : Nat) (rs : List Rec) : Option HistPoint := do
  skip n [2, 3, 4, 5, 6, 7, 8, 9, 10, 11, 12] rs
  let attributes ← rep (lim n decKv) (sel 9 rs)
  let startTimeUnixNano ← last as64 0#64 (sel 2 rs)
  let timeUnixNano ← last as64 0#64 (sel 3 rs)
  let count ← last as64 0#64 (sel 4 rs)
  let sum ← lastOpt as64 (sel 5 rs)
  let bucketCounts ← unpacked asPacked64 (sel 6 rs)
  let explicitBounds ← unpacked asPacked64 (sel 7 rs)
  let exemplars ← rep (lim n decExemplar) (sel 8 rs)
  let flags ← last asU32 0#32 (sel 10 rs)
  let min ← lastOpt as64 (sel 11 rs)
  let max ← lastOpt as64 (sel 12 rs)
  some { attributes, startTimeUnixNano, timeUnixNano, count, sum, bucketCounts, explicitBounds, exemplars, flags, min, max }

/-- `exponential_histogram_data_point::Buckets`. metrics.v1.rs:597-614 -/
def bucketsF (b : Buckets) : List Rec := s32F 1 b.offset ++ packedVarintF 2 b.bucketCounts

def decBuckets (n : Nat) (rs : List Rec) : Option Buckets := do
  skip n [1, 2] rs
  let offset ← last asS32 0#32 (sel 1 rs)
  let bucketCounts ← unpacked asPackedVarint (sel 2 rs)
  some { offset, bucketCounts }

/-- `ExponentialHistogramDataPoint`. metrics.v1.rs:498-587 -/
def expoPointF (p : ExpoPoint) : List Rec :=
  repF 1 kvF p.attributes ++ f64F 2 p.startTimeUnixNano ++ f64F 3 p.timeUnixNano ++ f64F 4 p.count ++ optDblF 5 p.sum ++ s32F 6 p.scale ++
    f64F 7 p.zeroCount ++ msgF 8 bucketsF p.positive ++ msgF 9 bucketsF p.negative ++ u32F 10 p.flags ++ repF 11 exemplarF p.exemplars ++
    optDblF 12 p.min ++ optDblF 13 p.max ++ dblF 14 p.zeroThreshold

def decExpoPoint (n : Nat) (rs : List Rec) : Option ExpoPoint := do
  skip n [1, 2, 3, 4, 5, 6, 7, 8, 9, 10, 11, 12, 13, 14] rs
  let attributes ← rep (lim n decKv) (sel 1 rs)
  let startTimeUnixNano ← last as64 0#64 (sel 2 rs)
  let timeUnixNano ← last as64 0#64 (sel 3 rs)
  let count ← last as64 0#64 (sel 4 rs)
  let sum ← lastOpt as64 (sel 5 rs)
  let scale ← last asS32 0#32 (sel 6 rs)
  let zeroCount ← last as64 0#64 (sel 7 rs)
  let positive ← opt (lim n decBuckets) (sel 8 rs)
  let negative ← opt (lim n decBuckets) (sel 9 rs)
  let flags ← last asU32 0#32 (sel 10 rs)
  let exemplars ← rep (lim n decExemplar) (sel 11 rs)
  let min ← lastOpt as64 (sel 12 rs)
  let max ← lastOpt as64 (sel 13 rs)
  let zeroThreshold ← last as64 0#64 (sel 14 rs)
  some { attributes, startTimeUnixNano, timeUnixNano, count, sum, scale, zeroCount, positive, negative, flags, exemplars, min, max, zeroThreshold }

/-- `Gauge`. metrics.v1.rs:241-244 -/
def gaugeF (ps : List NumPoint) : List Rec := repF 1 numPointF ps

/-- `Sum`. metrics.v1.rs:252-262 -/
def sumF (ps : List NumPoint) (t : BitVec 32) (m : Bool) : List Rec := repF 1 numPointF ps ++ enumF 2 t ++ boolF 3 m

/-- `Histogram`. metrics.v1.rs:270-277 -/
def histogramF (ps : List HistPoint) (t : BitVec 32) : List Rec := repF 1 histPointF ps ++ enumF 2 t

/-- `ExponentialHistogram`. metrics.v1.rs:285-292 -/
def expoF (ps : List ExpoPoint) (t : BitVec 32) : List Rec := repF 1 expoPointF ps ++ enumF 2 t

/-- `metric::Data`. metrics.v1.rs:214-225 -/
def dataF : Option Data → List Rec
  | none => []
  | some (.gauge ps) => [(5, .len (write (gaugeF ps)))]
  | some (.sum ps t m) => [(7, .len (write (sumF ps t m)))]
  | some (.histogram ps t) => [(9, .len (write (histogramF ps t)))]
  | some (.expo ps t) => [(10, .len (write (expoF ps t)))]

def decGauge (n : Nat) (rs : List Rec) : Option Data := do
  skip n [1] rs
  let ps ← rep (lim n decNumPoint) (sel 1 rs)
  some (.gauge ps)

def decSum (n : Nat) (rs : List Rec) : Option Data := do
  skip n [1, 2, 3] rs
  let ps ← rep (lim n decNumPoint) (sel 1 rs)
  let t ← last asI32 0#32 (sel 2 rs)
  let m ← last asBool false (sel 3 rs)
  some (.sum ps t m)

def decHistogram (n : Nat) (rs : List Rec) : Option Data := do
  skip n [1, 2] rs
  let ps ← rep (lim n decHistPoint) (sel 1 rs)
  let t ← last asI32 0#32 (sel 2 rs)
  some (.histogram ps t)

def decExpo (n : Nat) (rs : List Rec) : Option Data := do
  skip n [1, 2] rs
  let ps ← rep (lim n decExpoPoint) (sel 1 rs)
  let t ← last asI32 0#32 (sel 2 rs)
  some (.expo ps t)

/-- The messages a variant of `metric::Data` can be. -/
def dataDec (n t : Nat) : Option (List Rec → Option Data) :=
  if t = 5 then some (lim n decGauge) else if t = 7 then some (lim n decSum) else if t = 9 then some (lim n decHistogram)
  else if t = 10 then some (lim n decExpo) else if t = 11 then some fun _ => none else none

/-- The records of the variant read so far and its number. -/
abbrev Variant := Option (Nat × List Rec)

/-- A record of a variant: the same variant is continued, another replaces it. -/
def stepData (n : Nat) (cur : Variant) (r : Rec) : Option Variant :=
  match dataDec n r.1 with
  | none => some cur
  | some dec => (payload r.2).bind fun rs =>
      let all := (match cur with | some c => if c.1 = r.1 then c.2 else [] | none => []) ++ rs
      (dec all).map fun _ => some (r.1, all)

/-- `metric::Data::merge` over the records of a metric. -/
def decData (n : Nat) (rs : List Rec) : Option (Option Data) :=
  (rs.foldlM (stepData n) none).bind fun cur =>
    match cur with
    | none => some none
    | some c => ((dataDec n c.1).bind fun dec => dec c.2).map some

/-- `Metric`. metrics.v1.rs:178-204 -/
def metricF (m : Metric) : List Rec := strF 1 m.name ++ strF 2 m.description ++ strF 3 m.unit ++ dataF m.data ++ repF 12 kvF m.metadata

def decMetric (n : Nat) (rs : List Rec) : Option Metric := do
  skip n [1, 2, 3, 5, 7, 9, 10, 11, 12] rs
  let name ← last asText [] (sel 1 rs)
  let description ← last asText [] (sel 2 rs)
  let unit ← last asText [] (sel 3 rs)
  let metadata ← rep (lim n decKv) (sel 12 rs)
  let data ← decData n rs
  some { name, description, unit, metadata, data }

/-! ## Requests -/

/-- `ExportTraceServiceRequest::encode_to_vec`. opentelemetry-otlp/src/exporter/http/mod.rs:303 -/
def encTraces : List (ResourceItems Span) → List Byte := encode spanF

def decTraces : List Byte → Option (List (ResourceItems Span)) := decode decSpan

/-- `ExportLogsServiceRequest::encode_to_vec`. opentelemetry-otlp/src/exporter/http/mod.rs:322 -/
def encLogs : List (ResourceItems LogRecord) → List Byte := encode logF

def decLogs : List Byte → Option (List (ResourceItems LogRecord)) := decode decLog

/-- `ExportMetricsServiceRequest::encode_to_vec`. opentelemetry-otlp/src/exporter/http/mod.rs:344 -/
def encMetrics : List (ResourceItems Metric) → List Byte := encode metricF

def decMetrics : List Byte → Option (List (ResourceItems Metric)) := decode decMetric

end Otel.Otlp.Proto
