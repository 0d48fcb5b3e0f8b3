import Verif.Rust.Decimal
import Verif.Otlp.Model
/-!
# The bridge from `tracing` events to log records (`opentelemetry-appender-tracing/src/layer.rs`), C80

`tracing` calls one `record_*` method of the visitor for every field of an event, in order; which one follows from the type of the value. A field
is therefore a name and a value tagged with that type. `Debug` and `Display` texts of foreign values are given, an `f64` is its 64 bits. The
logger is the SDK's (`Verif/Logs/Logger.lean`). The three cargo features that change the code are the fields of `Features`.
-/

namespace Otel.Appender
open Rust
open Logs (RecOp Record Processor)
open Otlp (LVal Severity)
open Otel.Sdk (Cx)

/-- A value of the logs API, with text keys. -/
abbrev Any := LVal Str

/-- The cargo features. opentelemetry-appender-tracing/Cargo.toml:36-40 -/
structure Features where
  metadataAttributes : Bool
  logsEnabled : Bool
  spanContext : Bool

/-- `tracing_core::Level` -/
inductive Level where
  | trace | debug | info | warn | error
deriving DecidableEq

/-- `Level::as_str` of `tracing_core` and of `log`. -/
def Level.text : Level → Str
  | .trace => "TRACE".toList
  | .debug => "DEBUG".toList
  | .info => "INFO".toList
  | .warn => "WARN".toList
  | .error => "ERROR".toList

/-- `severity_of_level`. layer.rs:272-280; opentelemetry-appender-log/src/lib.rs:204-212 -/
def severityOfLevel : Level → Severity
  | .trace => .trace
  | .debug => .debug
  | .info => .info
  | .warn => .warn
  | .error => .error

/-- The value of a field, by the `record_*` method it is handed to; `debug` and `error` hold the text printed for it. layer.rs:69-177 -/
inductive FieldVal where
  | debug (text : Str)
  | error (text : Str)
  | bytes (bs : List (BitVec 8))
  | str (s : Str)
  | bool (b : Bool)
  | f64 (bits : BitVec 64)
  | i64 (i : BitVec 64)
  | u64 (n : BitVec 64)
  | i128 (i : BitVec 128)
  | u128 (n : BitVec 128)

/-- `i64::try_from` of an integer of any type. -/
def toI64? (n : Int) : Option (BitVec 64) := if -2 ^ 63 ≤ n ∧ n < 2 ^ 63 then some (BitVec.ofInt 64 n) else none

/-- An integer is an `Int` if it fits, else its decimal text. layer.rs:136-176; opentelemetry-appender-log/src/lib.rs:272-294, 424-458 -/
def integer (n : Int) : Any :=
  match toI64? n with
  | some i => .int i
  | none => .string (String.ofList (fmtInt n))

/-- The name of the field that becomes the body. layer.rs:75, 107 -/
def messageName : Str := "message".toList

/-- `str::strip_prefix`. -/
def stripPrefix (p s : Str) : Option Str := if p.isPrefixOf s then some (s.drop p.length) else none

/-- `is_duplicated_metadata`. layer.rs:17-24 -/
def isDuplicatedMetadata (field : Str) : Bool :=
  match stripPrefix "log.".toList field with
  | some rest => rest = "file".toList || rest = "line".toList || rest = "module_path".toList || rest = "target".toList
  | none => false

/-- `str::rsplit_once(c)`'s second part: what follows the last `c`. -/
def afterLast (c : Char) (s : Str) : Option Str := if c ∈ s then some (s.reverse.takeWhile (· ≠ c)).reverse else none

/-- `get_filename`. layer.rs:26-35 -/
def getFilename (path : Str) : Str :=
  match afterLast '/' path with
  | some f => f
  | none =>
    match afterLast '\\' path with
    | some f => f
    | none => path

/-- The calls on a record. -/
abbrev Op (Time : Type) := RecOp Any Time Severity

variable {Time : Type}

/-- Text becomes the body or an attribute. layer.rs:75-80, 107-112 -/
def textOps (name text : Str) : List (Op Time) :=
  if name = messageName then [.body (.string (String.ofList text))] else [.attr name (.string (String.ofList text))]

/-- The calls on the record made for one field: `record_debug`, `record_error`, `record_bytes`, `record_str`, `record_bool`, `record_f64`,
`record_i64`, `record_u64`, `record_i128`, `record_u128`. layer.rs:69-177 -/
def fieldOps (ft : Features) (name : Str) : FieldVal → List (Op Time)
  | .debug text => if ft.metadataAttributes && isDuplicatedMetadata name then [] else textOps name text
  | .error text => [.attr "exception.message".toList (.string (String.ofList text))]
  | .bytes bs => [.attr name (.bytes bs)]
  | .str s => if ft.metadataAttributes && isDuplicatedMetadata name then [] else textOps name s
  | .bool b => [.attr name (.boolean b)]
  | .f64 bits => [.attr name (.double bits)]
  | .i64 i => if ft.metadataAttributes && isDuplicatedMetadata name then [] else [.attr name (.int i)]
  | .u64 n => if ft.metadataAttributes && isDuplicatedMetadata name then [] else [.attr name (integer n.toNat)]
  | .i128 i => if ft.metadataAttributes && isDuplicatedMetadata name then [] else [.attr name (integer i.toInt)]
  | .u128 n => if ft.metadataAttributes && isDuplicatedMetadata name then [] else [.attr name (integer n.toNat)]

/-- The parts of `Metadata` that are used. -/
structure Meta where
  level : Level
  target : Str
  name : Str
  modulePath : Option Str
  file : Option Str
  line : Option (BitVec 32)

/-- `visit_experimental_metadata`. layer.rs:42-66 -/
def metaOps (m : Meta) : List (Op Time) :=
  (match m.modulePath with
    | some p => [.attr "code.namespace".toList (.string (String.ofList p))]
    | none => []) ++
  (match m.file with
    | some f => [.attr "code.filepath".toList (.string (String.ofList f)), .attr "code.filename".toList (.string (String.ofList (getFilename f)))]
    | none => []) ++
  (match m.line with
    | some l => [.attr "code.lineno".toList (.int (BitVec.ofNat 64 l.toNat))]
    | none => [])

/-- The ids `tracing-opentelemetry` keeps in a span's extensions. -/
structure OtelData where
  traceId : Option TraceId
  spanId : Option SpanId

/-- An event: its metadata, the metadata `tracing-log` finds in it if it comes from the `log` crate, its fields, and the `tracing` spans it is
in, from its own span to the root. -/
structure Event where
  metadata : Meta
  normalized : Option Meta
  fields : List (Str × FieldVal)
  spans : List (Option OtelData)

/-- The trace context found in the `tracing` spans. layer.rs:247-265 -/
def spanOps (ev : Event) : List (Op Time) :=
  match ev.spans with
  | [] => []
  | own :: rest =>
    match (own :: rest).getLast?.join.bind (·.traceId), own.bind (·.spanId) with
    | some t, some s => [.traceContext t s none]
    | _, _ => []

/-- The calls `on_event` makes on the new record, in order. layer.rs:229-265 -/
def eventOps (ft : Features) (ev : Event) : List (Op Time) :=
  [.target ev.metadata.target, .eventName ev.metadata.name, .severityNumber (severityOfLevel ev.metadata.level),
    .severityText ev.metadata.level.text]
  ++ (if ft.metadataAttributes then metaOps (ev.normalized.getD ev.metadata) else [])
  ++ ev.fields.flatMap (fun f => fieldOps ft f.1 f.2)
  ++ (if ft.spanContext then spanOps ev else [])

/-- A processor's `event_enabled`. -/
abbrev Filter := Severity → Str → Option Str → Bool

/-- `on_event`; `none` is a panic. The record is made by `create_log_record` and handed to the SDK logger's `emit`. layer.rs:214-269 -/
def onEvent {I W B : Type} {U : Nat → Type} (ft : Features) (scope : I) (filters : List Filter)
    (ps : List (Processor Any Time Severity I W)) (cx : Cx B U) (now : Time) (ev : Event) (w : W) : Option W :=
  if ft.logsEnabled && !Logs.eventEnabled (filters.map fun f => f (severityOfLevel ev.metadata.level) ev.metadata.target (some ev.metadata.name)) cx then
    some w
  else
    ((eventOps ft ev).foldlM RecOp.run? Record.new).map fun r => Logs.emit scope ps cx now r w

end Otel.Appender
