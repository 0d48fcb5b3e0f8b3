import Verif.Logs.GrowableArray
import Verif.Sdk.Sampler
/-! # Log records and the logger (`opentelemetry-sdk/src/logs/record.rs`, `logger.rs`, `simple_log_processor.rs`) -/

namespace Otel.Logs

open Otel.Sdk (Cx)

open Rust

/-- `TraceContext`. record.rs:207-216 -/
structure TraceContext where
  traceId : TraceId
  spanId : SpanId
  traceFlags : Option TraceFlags
deriving DecidableEq

/-- `From<&SpanContext> for TraceContext`. record.rs:218-226 -/
def TraceContext.ofSpanContext (sc : SpanContext) : TraceContext := ⟨sc.traceId, sc.spanId, some sc.flags⟩

/-- `SdkLogRecord`; `V` is `AnyValue`, `Time` is `SystemTime`, `Sev` is `Severity`. record.rs:25-52 -/
structure Record (V Time Sev : Type) where
  eventName : Option Str
  target : Option Str
  timestamp : Option Time
  observedTimestamp : Option Time
  traceContext : Option TraceContext
  severityText : Option Str
  severityNumber : Option Sev
  body : Option V
  attributes : GrowableArray (Option (Str × V))

variable {V Time Sev : Type}

/-- `PREALLOCATED_ATTRIBUTE_CAPACITY`. record.rs:11 -/
def attrCap : Nat := 5

/-- `SdkLogRecord::new`. record.rs:122-134 -/
def Record.new : Record V Time Sev :=
  ⟨none, none, none, none, none, none, none, none, GrowableArray.empty attrCap⟩

/-- `add_attribute`; `none` is a panic. record.rs:98-104 -/
def Record.addAttribute? (r : Record V Time Sev) (k : Str) (v : V) : Option (Record V Time Sev) :=
  (r.attributes.push? attrCap (some (k, v))).map fun a => { r with attributes := a }

/-- `attributes_iter`. record.rs:187-189 -/
def Record.attributesIter (r : Record V Time Sev) : List (Str × V) := r.attributes.iter.filterMap id

/-- The calls application code can make on a record. record.rs:54-118 -/
inductive RecOp (V Time Sev : Type) where
  | eventName (n : Str)
  | target (n : Str)
  | timestamp (t : Time)
  | observedTimestamp (t : Time)
  | severityText (n : Str)
  | severityNumber (n : Sev)
  | body (v : V)
  | attr (k : Str) (v : V)
  | attrs (kvs : List (Str × V))
  | traceContext (t : TraceId) (s : SpanId) (f : Option TraceFlags)

/-- One call. record.rs:54-118 -/
def RecOp.run? (r : Record V Time Sev) : RecOp V Time Sev → Option (Record V Time Sev)
  | .eventName n => some { r with eventName := some n }
  | .target n => some { r with target := some n }
  | .timestamp t => some { r with timestamp := some t }
  | .observedTimestamp t => some { r with observedTimestamp := some t }
  | .severityText n => some { r with severityText := some n }
  | .severityNumber n => some { r with severityNumber := some n }
  | .body v => some { r with body := some v }
  | .attr k v => r.addAttribute? k v
  | .attrs kvs => kvs.foldlM (fun r kv => r.addAttribute? kv.1 kv.2) r
  | .traceContext t s f => some { r with traceContext := some ⟨t, s, f⟩ }

/-- A processor: given the record (which it may change), the scope and the state of the world. -/
abbrev Processor (V Time Sev I W : Type) := Record V Time Sev → I → W → Record V Time Sev × W

/-- What `emit` puts into the record before the processors see it. logger.rs:40-50 -/
def prepare {B : Type} {U : Nat → Type} (cx : Cx B U) (now : Time) (r : Record V Time Sev) : Record V Time Sev :=
  let r := if r.traceContext.isNone ∧ cx.hasActiveSpan then
      { r with traceContext := some (TraceContext.ofSpanContext (Otel.Sdk.spanContextOf cx)) } else r
  if r.observedTimestamp.isNone then { r with observedTimestamp := some now } else r

/-- The loop over the processors. logger.rs:52-54 -/
def runProcessors {I W : Type} (scope : I) : List (Processor V Time Sev I W) → Record V Time Sev → W → Record V Time Sev × W
  | [], r, w => (r, w)
  | p :: ps, r, w => runProcessors scope ps (p r scope w).1 (p r scope w).2

/-- `SdkLogger::emit`. logger.rs:31-53 -/
def emit {I W B : Type} {U : Nat → Type} (scope : I) (ps : List (Processor V Time Sev I W)) (cx : Cx B U) (now : Time)
    (r : Record V Time Sev) (w : W) : W :=
  if cx.suppress then w else (runProcessors scope ps (prepare cx now r) w).2

/-- `event_enabled`: the processors' answers. logger.rs:57-66 -/
def eventEnabled {B : Type} {U : Nat → Type} (answers : List Bool) (cx : Cx B U) : Bool :=
  if cx.suppress then false else answers.any id

end Otel.Logs
