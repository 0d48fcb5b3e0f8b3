import Verif.Sdk.Span
import Verif.Rust.Assoc
/-!
# The Zipkin exporter (`opentelemetry-zipkin/src/exporter`)

The JSON text of the body is in `Verif/Zipkin/Body.lean`. Not modelled: the HTTP client, which is a parameter. Attribute values appear through their text
(`Value::to_string`, a parameter). Times are nanoseconds counted from some origin; `epoch` is the Unix epoch on that scale.
-/

namespace Otel.Zipkin
open Rust Sdk

/-- The parts of an `InstrumentationScope` that are exported. -/
structure Scope where
  name : Str
  version : Option Str

/-- `INSTRUMENTATION_LIBRARY_NAME`. model/mod.rs:15 -/
def tagName : Str := "otel.library.name".toList
/-- `INSTRUMENTATION_LIBRARY_VERSION`. model/mod.rs:16 -/
def tagVersion : Str := "otel.library.version".toList
/-- `OTEL_ERROR_DESCRIPTION`. model/mod.rs:17 -/
def tagError : Str := "error".toList
/-- `OTEL_STATUS_CODE`. model/mod.rs:18 -/
def tagStatus : Str := "otel.status_code".toList
/-- The key `span.kind`. model/mod.rs:41 -/
def keyKind : Str := "span.kind".toList

/-- `span::Kind`. model/span.rs:7-12 -/
inductive Kind where
  | client | server | producer | consumer
deriving DecidableEq

/-- `Annotation`. model/annotation.rs:7-14 -/
structure Annotation where
  timestamp : Nat
  value : Str
deriving DecidableEq

/-- `span::Span` with the fields that `into_zipkin_span` sets (the builder wraps them in `Some`). model/span.rs:16-54; `E` is `Endpoint`. -/
structure ZSpan (E : Type) where
  traceId : Str
  parentId : Str
  id : Str
  kind : Option Kind
  name : Str
  timestamp : Nat
  duration : Nat
  localEndpoint : E
  annotations : List Annotation
  tags : List (Str × Str)
deriving DecidableEq

/-- `into_zipkin_span_kind`. model/mod.rs:21-29 -/
def zipkinKind : SpanKind → Option Kind
  | .client => some .client
  | .server => some .server
  | .producer => some .producer
  | .consumer => some .consumer
  | .internal => none

/-- `later.duration_since(earlier).unwrap_or_else(|_| 0).as_micros() as u64`. model/mod.rs:90-103 -/
def micros (later earlier : Time) : Nat := (if earlier ≤ later then later - earlier else 0) / 1000 % 2 ^ 64

/-- `map_from_kvs`. model/mod.rs:110-119 -/
def mapFromKvs {V : Type} (toText : V → Str) (kvs : List (Str × V)) : List (Str × Str) :=
  kvs.foldl (fun m kv => Assoc.insert m kv.1 (toText kv.2)) []

/-- The attributes and the scope's name and version, without the key `error`. model/mod.rs:36-61; `ofText` is `Value::String`. -/
def tagSource {V : Type} (ofText : Str → V) (attrs : List (Str × V)) (s : Scope) : List (Str × V) :=
  (attrs ++ [(tagName, some s.name), (tagVersion, s.version)].filterMap
    (fun p => p.2.map fun v => (p.1, ofText v))).filter fun kv => decide (kv.1 ≠ tagError)

/-- The status tags. model/mod.rs:63-74 -/
def withStatus (tags : List (Str × Str)) : Status → List (Str × Str)
  | .unset => tags
  | .ok => Assoc.insert tags tagStatus "OK".toList
  | .error m => Assoc.insert (Assoc.insert tags tagStatus "ERROR".toList) tagError m

/-- `From<Event> for Annotation`. model/annotation.rs:17-30 -/
def annotation {A : Type} (epoch : Time) (e : Event A) : Annotation := ⟨micros e.timestamp epoch, e.name⟩

/-- `into_zipkin_span`. model/mod.rs:33-108 -/
def intoZipkin {V E : Type} (toText : V → Str) (ofText : Str → V) (epoch : Time) (ep : E) (x : Exported (Str × V) Scope) : ZSpan E where
  traceId := x.spanContext.traceId.toText
  parentId := x.data.parentSpanId.toText
  id := x.spanContext.spanId.toText
  kind := if x.data.attributes.any (fun kv => decide (kv.1 = keyKind)) then none else zipkinKind x.data.spanKind
  name := x.data.name
  timestamp := micros x.data.startTime epoch
  duration := micros x.data.endTime x.data.startTime
  localEndpoint := ep
  annotations := x.data.events.events.map (annotation epoch)
  tags := withStatus (mapFromKvs toText (tagSource ofText x.data.attributes x.scope)) x.data.status

/-- The answer of an HTTP client: `none` if sending failed, else the status code. -/
abbrev Answer := Option Nat

/-- `zipkin_export` and `JsonV2Client::upload`: one request holding the whole batch; `Ok` for an answer with a status of success
(`error_for_status`). mod.rs:121-132, uploader.rs:38-62. Serialising the batch cannot fail. -/
def exportBatch {V E : Type} (toText : V → Str) (ofText : Str → V) (epoch : Time) (ep : E) (send : List (ZSpan E) → Answer)
    (batch : List (Exported (Str × V) Scope)) : Bool × List (List (ZSpan E)) :=
  let spans := batch.map (intoZipkin toText ofText epoch ep)
  (match send spans with | some status => decide (200 ≤ status ∧ status < 300) | none => false, [spans])

/-- `get_endpoint` (env.rs:34-39) and `with_collector_endpoint` (mod.rs:115-118): `calls` are the program's calls, oldest first. -/
def endpoint (env : Option Str) (calls : List Str) : Str :=
  calls.foldl (fun _ e => e) (match env with
    | some v => if v.isEmpty then "http://127.0.0.1:9411/api/v2/spans".toList else v
    | none => "http://127.0.0.1:9411/api/v2/spans".toList)

end Otel.Zipkin
