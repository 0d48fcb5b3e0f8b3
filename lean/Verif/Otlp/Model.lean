import Verif.Common.Attr
import Verif.Sdk.Span
import Verif.Logs.Logger
import Verif.Trace.IdsProps
/-!
# Conversion to OTLP messages (`opentelemetry-proto/src/transform/{common,trace,logs}.rs`), C53, C54

The protobuf messages are the structures `prost` generates (`opentelemetry-proto/src/proto/tonic/*.rs`), with their field names. A message field
that the conversion always fills (`Some(..)`) is not an `Option` here. Serialising a message to bytes is `prost`'s work and is not modelled.
Attribute keys are of a type `K`, which the conversion copies. A `f64` is its 64 bits, a `SystemTime` the nanoseconds since the epoch.
-/

namespace Otel.Otlp
open Common (Val Arr Scope)
open Rust

variable {K : Type}

/-- `to_nanos`: a time before the epoch is 0, one past `2^64` nanoseconds wraps. common.rs:11-15 -/
def toNanos (t : Int) : BitVec 64 := BitVec.ofNat 64 t.toNat

/-- `AnyValue` with its `any_value::Value`. proto/tonic/opentelemetry.proto.common.v1.rs:9-49 -/
inductive PVal (K : Type) where
  | string (s : String)
  | bool (b : Bool)
  | int (i : BitVec 64)
  | double (f : BitVec 64)
  | array (vs : List (PVal K))
  | kvlist (kvs : List (K × PVal K))
  | bytes (bs : List (BitVec 8))

/-- `KeyValue` -/
abbrev PKv (K : Type) := K × PVal K

/-- `From<Value> for AnyValue` and `array_into_proto`, which makes a value of each element. common.rs:138-169 -/
def ofVal : Val → PVal K
  | .bool b => .bool b
  | .int i => .int i
  | .float f => .double f
  | .str s => .string s
  | .arr (.bools l) => .array (l.map .bool)
  | .arr (.ints l) => .array (l.map .int)
  | .arr (.floats l) => .array (l.map .double)
  | .arr (.strs l) => .array (l.map .string)

/-- `From<IntoIterator<Item = KeyValue>> for Attributes`. common.rs:111-122 -/
def attributes (kvs : List (K × Val)) : List (PKv K) := kvs.map fun kv => (kv.1, ofVal kv.2)

/-- `InstrumentationScope` of the protocol; its dropped attribute count is 0. -/
structure PScope (K : Type) where
  name : String
  version : String
  attributes : List (PKv K)

/-- `From<(&InstrumentationScope, Option<Cow<str>>)>`. common.rs:76-105 -/
def scopeOf (s : Scope K) (target : Option String) : PScope K :=
  match target with
  | some t => ⟨t, "", []⟩
  | none => ⟨s.name, s.version.getD "", attributes s.attrs⟩

/-- `ResourceAttributesWithSchema`; the attributes in the order the resource's map is iterated. common.rs:25-40, 171-178 -/
structure Res (K : Type) where
  attributes : List (PKv K)
  schemaUrl : Option String

/-! ## Spans -/

/-- `From<SpanKind>` and the number of the variant. trace.rs:14-24, proto/tonic/opentelemetry.proto.trace.v1.rs:354-375 -/
def kindNumber : Sdk.SpanKind → Nat
  | .client => 3
  | .consumer => 5
  | .internal => 1
  | .producer => 4
  | .server => 2

/-- `From<&Status> for StatusCode` and the number of the variant. trace.rs:26-34 -/
def statusNumber : Sdk.Status → Nat
  | .ok => 1
  | .unset => 0
  | .error _ => 2

/-- The status message. trace.rs:84-87 -/
def statusMessage : Sdk.Status → Str
  | .error d => d
  | _ => []

/-- `span::Link` -/
structure PLink (K : Type) where
  traceId : List (BitVec 8)
  spanId : List (BitVec 8)
  traceState : Str
  attributes : List (PKv K)
  droppedAttributesCount : BitVec 32
  flags : BitVec 32

/-- `span::Event` -/
structure PEvent (K : Type) where
  timeUnixNano : BitVec 64
  name : Str
  attributes : List (PKv K)
  droppedAttributesCount : BitVec 32

/-- `Span` of the protocol. -/
structure PSpan (K : Type) where
  traceId : List (BitVec 8)
  spanId : List (BitVec 8)
  traceState : Str
  parentSpanId : List (BitVec 8)
  flags : BitVec 32
  name : Str
  kind : Nat
  startTimeUnixNano : BitVec 64
  endTimeUnixNano : BitVec 64
  attributes : List (PKv K)
  droppedAttributesCount : BitVec 32
  events : List (PEvent K)
  droppedEventsCount : BitVec 32
  links : List (PLink K)
  droppedLinksCount : BitVec 32
  statusCode : Nat
  statusMessage : Str

/-- A finished span as the SDK hands it to the exporter. -/
abbrev SdkSpan (K : Type) := Sdk.Exported (K × Val) (Scope K)

/-- `From<Link>`. trace.rs:36-47 -/
def linkOf (l : Sdk.Link (K × Val)) : PLink K where
  traceId := l.spanContext.traceId.toBytes
  spanId := l.spanContext.spanId.toBytes
  traceState := l.spanContext.traceState.header
  attributes := attributes l.attributes
  droppedAttributesCount := l.droppedAttributesCount
  flags := l.spanContext.flags.setWidth 32

/-- The event closure. trace.rs:73-78 -/
def eventOf (e : Sdk.Event (K × Val)) : PEvent K where
  timeUnixNano := toNanos e.timestamp
  name := e.name
  attributes := attributes e.attributes
  droppedAttributesCount := e.droppedAttributesCount

/-- `From<SpanData> for Span`. trace.rs:48-91 -/
def spanOf (x : SdkSpan K) : PSpan K where
  traceId := x.spanContext.traceId.toBytes
  spanId := x.spanContext.spanId.toBytes
  traceState := x.spanContext.traceState.header
  parentSpanId := if x.data.parentSpanId ≠ SpanId.invalid then x.data.parentSpanId.toBytes else []
  flags := x.spanContext.flags.setWidth 32
  name := x.data.name
  kind := kindNumber x.data.spanKind
  startTimeUnixNano := toNanos x.data.startTime
  endTimeUnixNano := toNanos x.data.endTime
  attributes := attributes x.data.attributes
  droppedAttributesCount := x.data.droppedAttributesCount
  events := x.data.events.events.map eventOf
  droppedEventsCount := x.data.events.droppedCount
  links := x.data.links.links.map linkOf
  droppedLinksCount := x.data.links.droppedCount
  statusCode := statusNumber x.data.status
  statusMessage := statusMessage x.data.status

/-! ## Grouping -/

/-- `entry(key).or_default().push(x)`; `hit` tells whether a key is found under another one. -/
def pushInto {G V : Type} (hit : G → G → Bool) (k : G) (v : V) : List (G × List V) → List (G × List V)
  | [] => [(k, [v])]
  | g :: gs => if hit g.1 k then (g.1, g.2 ++ [v]) :: gs else g :: pushInto hit k v gs

/-- The fold that fills the map. -/
def groupBy {G V : Type} (hit : G → G → Bool) (key : V → G) (vs : List V) : List (G × List V) :=
  vs.foldl (fun m v => pushInto hit (key v) v m) []

/-- `ScopeSpans` / `ScopeLogs` -/
structure PGroup (K I : Type) where
  scope : PScope K
  schemaUrl : String
  items : List I

/-- `ResourceSpans` / `ResourceLogs`; the resource's dropped attribute count is 0. -/
structure PRequest (K I : Type) where
  resource : List (PKv K)
  groups : List (PGroup K I)
  schemaUrl : String

/-- The iteration order of a hash map: any permutation. -/
structure Order (α : Type) where
  run : List α → List α
  perm : ∀ l, (run l).Perm l

/-- `group_spans_by_resource_and_scope`, which returns one `ResourceSpans`. trace.rs:153-189 -/
def groupSpans (hit : Scope K → Scope K → Bool) (ord : Order (Scope K × List (SdkSpan K))) (res : Res K) (batch : List (SdkSpan K)) :
    PRequest K (PSpan K) where
  resource := res.attributes
  groups := (ord.run (groupBy hit (·.scope) batch)).map fun g => ⟨scopeOf g.1 none, res.schemaUrl.getD "", g.2.map spanOf⟩
  schemaUrl := res.schemaUrl.getD ""

/-! ## Log records -/

/-- `AnyValue` of the logs API; a map is the list of its entries in the order in which it is iterated. opentelemetry/src/logs/record.rs:70-87 -/
inductive LVal (K : Type) where
  | int (i : BitVec 64)
  | double (f : BitVec 64)
  | string (s : String)
  | boolean (b : Bool)
  | bytes (bs : List (BitVec 8))
  | list (vs : List (LVal K))
  | map (kvs : List (K × LVal K))

mutual
/-- `From<LogsAnyValue> for Value`. logs.rs:27-57 -/
def ofLVal : LVal K → PVal K
  | .double f => .double f
  | .int i => .int i
  | .string s => .string s
  | .boolean b => .bool b
  | .list vs => .array (ofLVals vs)
  | .map kvs => .kvlist (ofLMap kvs)
  | .bytes bs => .bytes bs

/-- `v.into_iter().map(..).collect()` of a list. logs.rs:35-40 -/
def ofLVals : List (LVal K) → List (PVal K)
  | [] => []
  | v :: vs => ofLVal v :: ofLVals vs

/-- `m.into_iter().map(..).collect()` of a map. logs.rs:43-51 -/
def ofLMap : List (K × LVal K) → List (K × PVal K)
  | [] => []
  | (k, v) :: kvs => (k, ofLVal v) :: ofLMap kvs
end

/-- `Severity`. opentelemetry/src/logs/record.rs:142-192 -/
inductive Severity where
  | trace | trace2 | trace3 | trace4 | debug | debug2 | debug3 | debug4 | info | info2 | info3 | info4
  | warn | warn2 | warn3 | warn4 | error | error2 | error3 | error4 | fatal | fatal2 | fatal3 | fatal4
deriving DecidableEq

/-- The severity table and the numbers of the variants. logs.rs:62-88, proto/tonic/opentelemetry.proto.logs.v1.rs:204-231 -/
def severityNumber : Option Severity → Nat
  | some .trace => 1
  | some .trace2 => 2
  | some .trace3 => 3
  | some .trace4 => 4
  | some .debug => 5
  | some .debug2 => 6
  | some .debug3 => 7
  | some .debug4 => 8
  | some .info => 9
  | some .info2 => 10
  | some .info3 => 11
  | some .info4 => 12
  | some .warn => 13
  | some .warn2 => 14
  | some .warn3 => 15
  | some .warn4 => 16
  | some .error => 17
  | some .error2 => 18
  | some .error3 => 19
  | some .error4 => 20
  | some .fatal => 21
  | some .fatal2 => 22
  | some .fatal3 => 23
  | some .fatal4 => 24
  | none => 0

/-- `LogRecord` of the protocol. -/
structure PLog (K : Type) where
  timeUnixNano : BitVec 64
  observedTimeUnixNano : BitVec 64
  attributes : List (Str × PVal K)
  eventName : Str
  severityNumber : Nat
  severityText : Str
  body : Option (PVal K)
  droppedAttributesCount : BitVec 32
  flags : BitVec 32
  spanId : List (BitVec 8)
  traceId : List (BitVec 8)

/-- A record as the SDK hands it to the exporter. -/
abbrev SdkLog (K : Type) := Logs.Record (LVal K) Int Severity

/-- `From<&SdkLogRecord> for LogRecord`; `none` is the panic of `observed_timestamp().unwrap()`. logs.rs:59-127 -/
def logOf (r : SdkLog K) : Option (PLog K) :=
  r.observedTimestamp.map fun observed =>
    { timeUnixNano := (r.timestamp.map toNanos).getD 0
      observedTimeUnixNano := toNanos observed
      attributes := r.attributesIter.map fun kv => (kv.1, ofLVal kv.2)
      eventName := r.eventName.getD []
      severityNumber := severityNumber r.severityNumber
      severityText := r.severityText.getD []
      body := r.body.map ofLVal
      droppedAttributesCount := 0
      flags := (r.traceContext.map fun c => (c.traceFlags.map fun f => f.setWidth 32).getD 0).getD 0
      spanId := (r.traceContext.map fun c => c.spanId.toBytes).getD []
      traceId := (r.traceContext.map fun c => c.traceId.toBytes).getD [] }

/-- The key of a record: its target, or else the name of its scope. logs.rs:182-185 -/
def logKey (x : SdkLog K × Scope K) : String := (x.1.target.map String.ofList).getD x.2.name

/-- One `ScopeLogs`; `none` is a panic. logs.rs:196-206 -/
def logGroup (res : Res K) (g : String × List (SdkLog K × Scope K)) : Option (PGroup K (PLog K)) := do
  let first ← g.2.head?
  let records ← g.2.mapM fun x => logOf x.1
  some ⟨scopeOf first.2 (some g.1), res.schemaUrl.getD "", records⟩

/-- `group_logs_by_resource_and_scope`; `none` is a panic. logs.rs:167-217 -/
def groupLogs (ord : Order (String × List (SdkLog K × Scope K))) (res : Res K) (batch : List (SdkLog K × Scope K)) :
    Option (PRequest K (PLog K)) :=
  ((ord.run (groupBy (fun a b => decide (a = b)) logKey batch)).mapM (logGroup res)).map fun gs =>
    ⟨res.attributes, gs, res.schemaUrl.getD ""⟩

end Otel.Otlp
