import Verif.Rust.Bytes
/-!
# OTLP as JSON (`opentelemetry-proto/src/proto.rs`, `opentelemetry-proto/src/proto/tonic/*.rs` with feature `with-serde`), C83, C84

The messages are the structs `prost` generates, with the serde attributes written on them; `serde` and `serde_json` are modelled by their documented
behaviour:

* a derived struct is an object with one entry per field, in order; reading it, unknown entries are skipped, an entry that occurs twice is an error,
  an entry that is missing is an error unless the struct has `serde(default)` or the field is an `Option`;
* a flattened `Option` of an enum writes the entry of its variant or nothing; reading it, the first entry with the name of a variant is tried,
  and if there is none or it cannot be read the value is `None`;
* a `f64` that is not finite is written as `null`;
* the reader refuses a document with more than 127 nested arrays and objects.

A JSON document is the tree `Json`; its text is in `Verif/Json/Text.lean`. The digits of a double are not modelled, except that the reader may make another
double of a written double (`reparse`; serde_json is used without its feature `float_roundtrip`). Strings are `List Char`, a `f64` is its 64 bits, keys
of objects are Lean's `String`. A struct written as an array, which serde also reads, is refused here. Nesting inside skipped entries counts
for the limit here and does not in serde_json.
-/

namespace Otel.Otlp.Json
open Rust

/-- A JSON document. `float` is a number written with a fraction or an exponent, `int` one without. -/
inductive Json where
  | null
  | bool (b : Bool)
  | int (i : Int)
  | float (f : BitVec 64)
  | str (s : Str)
  | arr (xs : List Json)
  | obj (fs : List (String × Json))

/-- The entries of an object. -/
abbrev Obj := List (String × Json)

mutual
/-- How many arrays and objects are inside each other. -/
def Json.depth : Json → Nat
  | .arr xs => 1 + depthList xs
  | .obj fs => 1 + depthObj fs
  | _ => 0
def depthList : List Json → Nat
  | [] => 0
  | x :: xs => max x.depth (depthList xs)
def depthObj : List (String × Json) → Nat
  | [] => 0
  | (_, x) :: fs => max x.depth (depthObj fs)
end

mutual
/-- Writing the document as text and parsing it: each double `f` comes back as `rd f`. -/
def reparse (rd : BitVec 64 → BitVec 64) : Json → Json
  | .float f => .float (rd f)
  | .arr xs => .arr (reparseList rd xs)
  | .obj fs => .obj (reparseObj rd fs)
  | .null => .null
  | .bool b => .bool b
  | .int i => .int i
  | .str s => .str s
def reparseList (rd : BitVec 64 → BitVec 64) : List Json → List Json
  | [] => []
  | x :: xs => reparse rd x :: reparseList rd xs
def reparseObj (rd : BitVec 64 → BitVec 64) : List (String × Json) → List (String × Json)
  | [] => []
  | (k, x) :: fs => (k, reparse rd x) :: reparseObj rd fs
end

/-! ## Scalars -/

/-- `f64::is_finite` -/
def finite (f : BitVec 64) : Bool := f.extractLsb' 52 11 != 0x7FF#11

/-- `Serialize` for `f64` -/
def encF64 (f : BitVec 64) : Json := if finite f then .float f else .null

/-- `Deserialize` for `f64`: any number. `cast` is `as f64` of an integer. -/
def decF64 (cast : Int → BitVec 64) : Json → Option (BitVec 64)
  | .float f => some f
  | .int i => some (cast i)
  | _ => none

/-- `Serialize` for `u32`, `u64` -/
def encU {w : Nat} (n : BitVec w) : Json := .int n.toNat

/-- `Deserialize` for `u32`, `u64`: a number in range, no string. -/
def decU (w : Nat) : Json → Option (BitVec w)
  | .int i => if 0 ≤ i ∧ i < 2 ^ w then some (BitVec.ofInt w i) else none
  | _ => none

/-- `Serialize` for `i32`, `i64` -/
def encI {w : Nat} (n : BitVec w) : Json := .int n.toInt

/-- `Deserialize` for `i32`, `i64` -/
def decI (w : Nat) : Json → Option (BitVec w)
  | .int i => if -2 ^ (w - 1) ≤ i ∧ i < 2 ^ (w - 1) then some (BitVec.ofInt w i) else none
  | _ => none

/-- `Deserialize` for `String` -/
def decStr : Json → Option Str
  | .str s => some s
  | _ => none

/-- `Deserialize` for `bool` -/
def decBool : Json → Option Bool
  | .bool b => some b
  | _ => none

/-- `serialize_u64_to_string`. proto.rs:157-163 -/
def encTime (n : BitVec 64) : Json := .str (fmtNat n.toNat)

/-- `deserialize_string_to_u64`: a string, no number. proto.rs:165-171 -/
def decTime : Json → Option (BitVec 64)
  | .str s => (parseDec 64 s).map (BitVec.ofNat 64)
  | _ => none

/-- `serialize_to_hex_string`. proto.rs:15-21 -/
def encHex (bs : List Byte) : Json := .str (hexEncode bs)

/-- `deserialize_from_hex_string`. proto.rs:23-45 -/
def decHex : Json → Option (List Byte)
  | .str s => hexDecode s
  | _ => none

/-- `Serialize` for `Option` -/
def encOpt {α : Type} (enc : α → Json) : Option α → Json
  | none => .null
  | some a => enc a

/-- `Deserialize` for `Option` -/
def decOpt {α : Type} (dec : Json → Option α) : Json → Option (Option α)
  | .null => some none
  | j => (dec j).map some

/-- `Serialize` for `Vec` -/
def encArr {α : Type} (enc : α → Json) (xs : List α) : Json := .arr (xs.map enc)

/-- `Deserialize` for `Vec` -/
def decArr {α : Type} (dec : Json → Option α) : Json → Option (List α)
  | .arr xs => xs.mapM dec
  | _ => none

/-! ## Objects -/

/-- The value of an entry. -/
def get (o : Obj) (k : String) : Option Json := (o.find? (·.1 == k)).map (·.2)

/-- The entries of a derived struct with these fields: none of them twice. -/
def entries (names : List String) : Json → Option Obj
  | .obj o => if names.all (fun k => (o.filter (·.1 == k)).length ≤ 1) then some o else none
  | _ => none

/-- A field of a struct with `serde(default)`. -/
def fieldOr {α : Type} (o : Obj) (k : String) (dflt : α) (dec : Json → Option α) : Option α :=
  match get o k with
  | none => some dflt
  | some j => dec j

/-- A field that must be present. -/
def field {α : Type} (o : Obj) (k : String) (dec : Json → Option α) : Option α :=
  match get o k with
  | none => none
  | some j => dec j

/-- A field of type `Option`. -/
def fieldOpt {α : Type} (o : Obj) (k : String) (dec : Json → Option α) : Option (Option α) := fieldOr o k none (decOpt dec)

/-- A flattened `Option` of an enum: the first entry that is named like a variant, or `None` if it cannot be read. -/
def flat {α : Type} (o : Obj) (variants : List (String × (Json → Option α))) : Option α :=
  match o.find? (fun e => variants.any (·.1 == e.1)) with
  | none => none
  | some e => (variants.find? (·.1 == e.1)).bind fun v => v.2 e.2

/-- An enum that is not flattened: an object with one entry, named like the variant. -/
def tagged {α : Type} (variants : List (String × (Json → Option α))) : Json → Option α
  | .obj [e] => (variants.find? (·.1 == e.1)).bind fun v => v.2 e.2
  | _ => none

/-! ## Attributes. opentelemetry.proto.common.v1.rs -/

/-- `AnyValue`; `unset` is `value: None`. common.v1.rs:9-49, 54-58, 68-76. A `KeyValue` (82-87) is a pair. -/
inductive AVal where
  | unset
  | str (s : Str)
  | bool (b : Bool)
  | int (i : BitVec 64)
  | double (f : BitVec 64)
  | array (vs : List AVal)
  | kvlist (kvs : List (Str × Option AVal))
  | bytes (bs : List Byte)

/-- `KeyValue`. common.v1.rs:82-87 -/
abbrev Kv := Str × Option AVal

mutual
/-- `AnyValue`: `serialize_to_value`, flattened; without a value nothing is written. proto.rs:48-68 -/
def encAny : AVal → Json
  | .unset => .obj []
  | .str s => .obj [("stringValue", .str s)]
  | .bool b => .obj [("boolValue", .bool b)]
  | .int i => .obj [("intValue", .str (fmtInt i.toInt))]
  | .double f => .obj [("doubleValue", encF64 f)]
  | .array vs => .obj [("arrayValue", .obj [("values", .arr (encAnys vs))])]
  | .kvlist kvs => .obj [("kvlistValue", .obj [("values", .arr (encKvs kvs))])]
  | .bytes bs => .obj [("bytesValue", .str (b64Encode bs))]
def encAnys : List AVal → List Json
  | [] => []
  | v :: vs => encAny v :: encAnys vs
def encKvs : List (Str × Option AVal) → List Json
  | [] => []
  | (k, none) :: kvs => .obj [("key", .str k), ("value", .null)] :: encKvs kvs
  | (k, some v) :: kvs => .obj [("key", .str k), ("value", encAny v)] :: encKvs kvs
end

variable (cast : Int → BitVec 64)

/-- `StringOrInt::get_int`. proto.rs:76-95 -/
def decInt : Json → Option (BitVec 64)
  | .int i => decI 64 (.int i)
  | .str s => (parseI64 s).map (BitVec.ofInt 64)
  | _ => none

/-- `base64::decode` of the string. proto.rs:134-139 -/
def decB64 : Json → Option (List Byte)
  | .str s => b64Decode s
  | _ => none

/-- One entry in `visit_map`: `value` so far, and the entry. proto.rs:108-145 -/
def visit (any : Json → Option AVal) (kv : Json → Option Kv) (value : Option AVal) (e : String × Json) : Option (Option AVal) :=
  if e.1 = "stringValue" then (decStr e.2).map (some ∘ .str)
  else if e.1 = "boolValue" then (decBool e.2).map (some ∘ .bool)
  else if e.1 = "intValue" then (decInt e.2).map (some ∘ .int)
  else if e.1 = "doubleValue" then (decF64 cast e.2).map (some ∘ .double)
  else if e.1 = "arrayValue" then do
    let o ← entries ["values"] e.2
    let vs ← field o "values" (decArr any)
    some (some (.array vs))
  else if e.1 = "kvlistValue" then do
    let o ← entries ["values"] e.2
    let kvs ← field o "values" (decArr kv)
    some (some (.kvlist kvs))
  else if e.1 = "bytesValue" then (decB64 e.2).map (some ∘ .bytes)
  else some value

/-- `KeyValue`. common.v1.rs:82-87 -/
def decKvWith (any : Json → Option AVal) (j : Json) : Option Kv := do
  let o ← entries ["key", "value"] j
  let k ← field o "key" decStr
  let v ← fieldOpt o "value" any
  some (k, v)

/-- `AnyValue`: `deserialize_from_value`. Without an entry that is known there is an error. The number bounds how deeply values are nested, as the
parser's limit does. proto.rs:70-155 -/
def decAny : Nat → Json → Option AVal
  | 0, _ => none
  | n + 1, .obj o => (o.foldlM (visit cast (decAny n) (decKvWith (decAny n))) none).join
  | _ + 1, _ => none

/-- The nesting a document within the parser's limit cannot exceed. -/
def maxDepth : Nat := 127

/-- `Deserialize` for `KeyValue` -/
def decKv : Json → Option Kv := decKvWith (decAny cast maxDepth)

/-- `attributes: Vec<KeyValue>` -/
def encAttrs (kvs : List Kv) : Json := .arr (encKvs kvs)

def decAttrs : Json → Option (List Kv) := decArr (decKv cast)

/-- `InstrumentationScope`. common.v1.rs:95-108 -/
structure Scope where
  name : Str
  version : Str
  attributes : List Kv
  droppedAttributesCount : BitVec 32

def encScope (s : Scope) : Json := .obj
  [("name", .str s.name), ("version", .str s.version), ("attributes", encAttrs s.attributes), ("droppedAttributesCount", encU s.droppedAttributesCount)]

def decScope (j : Json) : Option Scope := do
  let o ← entries ["name", "version", "attributes", "droppedAttributesCount"] j
  let name ← fieldOr o "name" [] decStr
  let version ← fieldOr o "version" [] decStr
  let attributes ← fieldOr o "attributes" [] (decAttrs cast)
  let droppedAttributesCount ← fieldOr o "droppedAttributesCount" 0#32 (decU 32)
  some { name, version, attributes, droppedAttributesCount }

/-- `Resource`. opentelemetry.proto.resource.v1.rs:8-18 -/
structure Res where
  attributes : List Kv
  droppedAttributesCount : BitVec 32

def encRes (r : Res) : Json := .obj [("attributes", encAttrs r.attributes), ("droppedAttributesCount", encU r.droppedAttributesCount)]

def decRes (j : Json) : Option Res := do
  let o ← entries ["attributes", "droppedAttributesCount"] j
  let attributes ← fieldOr o "attributes" [] (decAttrs cast)
  let droppedAttributesCount ← fieldOr o "droppedAttributesCount" 0#32 (decU 32)
  some { attributes, droppedAttributesCount }

/-! ## Traces. opentelemetry.proto.trace.v1.rs -/

/-- `span::Event`. trace.v1.rs:245-271 -/
structure Event where
  timeUnixNano : BitVec 64
  name : Str
  attributes : List Kv
  droppedAttributesCount : BitVec 32

def encEvent (e : Event) : Json := .obj
  [("timeUnixNano", encTime e.timeUnixNano), ("name", .str e.name), ("attributes", encAttrs e.attributes),
    ("droppedAttributesCount", encU e.droppedAttributesCount)]

def decEvent (j : Json) : Option Event := do
  let o ← entries ["timeUnixNano", "name", "attributes", "droppedAttributesCount"] j
  let timeUnixNano ← fieldOr o "timeUnixNano" 0#64 decTime
  let name ← fieldOr o "name" [] decStr
  let attributes ← fieldOr o "attributes" [] (decAttrs cast)
  let droppedAttributesCount ← fieldOr o "droppedAttributesCount" 0#32 (decU 32)
  some { timeUnixNano, name, attributes, droppedAttributesCount }

/-- `span::Link`. trace.v1.rs:281-333 -/
structure Link where
  traceId : List Byte
  spanId : List Byte
  traceState : Str
  attributes : List Kv
  droppedAttributesCount : BitVec 32
  flags : BitVec 32

def encLink (l : Link) : Json := .obj
  [("traceId", encHex l.traceId), ("spanId", encHex l.spanId), ("traceState", .str l.traceState), ("attributes", encAttrs l.attributes),
    ("droppedAttributesCount", encU l.droppedAttributesCount), ("flags", encU l.flags)]

def decLink (j : Json) : Option Link := do
  let o ← entries ["traceId", "spanId", "traceState", "attributes", "droppedAttributesCount", "flags"] j
  let traceId ← fieldOr o "traceId" [] decHex
  let spanId ← fieldOr o "spanId" [] decHex
  let traceState ← fieldOr o "traceState" [] decStr
  let attributes ← fieldOr o "attributes" [] (decAttrs cast)
  let droppedAttributesCount ← fieldOr o "droppedAttributesCount" 0#32 (decU 32)
  let flags ← fieldOr o "flags" 0#32 (decU 32)
  some { traceId, spanId, traceState, attributes, droppedAttributesCount, flags }

/-- `Status`. trace.v1.rs:412-419 -/
structure Status where
  message : Str
  code : BitVec 32

def encStatus (s : Status) : Json := .obj [("message", .str s.message), ("code", encI s.code)]

def decStatus (j : Json) : Option Status := do
  let o ← entries ["message", "code"] j
  let message ← fieldOr o "message" [] decStr
  let code ← fieldOr o "code" 0#32 (decI 32)
  some { message, code }

/-- `Span`. trace.v1.rs:79-234 -/
structure Span where
  traceId : List Byte
  spanId : List Byte
  traceState : Str
  parentSpanId : List Byte
  flags : BitVec 32
  name : Str
  kind : BitVec 32
  startTimeUnixNano : BitVec 64
  endTimeUnixNano : BitVec 64
  attributes : List Kv
  droppedAttributesCount : BitVec 32
  events : List Event
  droppedEventsCount : BitVec 32
  links : List Link
  droppedLinksCount : BitVec 32
  status : Option Status

def encSpan (s : Span) : Json := .obj
  [("traceId", encHex s.traceId), ("spanId", encHex s.spanId), ("traceState", .str s.traceState), ("parentSpanId", encHex s.parentSpanId),
    ("flags", encU s.flags), ("name", .str s.name), ("kind", encI s.kind), ("startTimeUnixNano", encTime s.startTimeUnixNano),
    ("endTimeUnixNano", encTime s.endTimeUnixNano), ("attributes", encAttrs s.attributes),
    ("droppedAttributesCount", encU s.droppedAttributesCount), ("events", encArr encEvent s.events), ("droppedEventsCount", encU s.droppedEventsCount),
    ("links", encArr encLink s.links), ("droppedLinksCount", encU s.droppedLinksCount), ("status", encOpt encStatus s.status)]

def decSpan (j : Json) : Option Span := do
  let o ← entries ["traceId", "spanId", "traceState", "parentSpanId", "flags", "name", "kind", "startTimeUnixNano", "endTimeUnixNano", "attributes",
    "droppedAttributesCount", "events", "droppedEventsCount", "links", "droppedLinksCount", "status"] j
  let traceId ← fieldOr o "traceId" [] decHex
  let spanId ← fieldOr o "spanId" [] decHex
  let traceState ← fieldOr o "traceState" [] decStr
  let parentSpanId ← fieldOr o "parentSpanId" [] decHex
  let flags ← fieldOr o "flags" 0#32 (decU 32)
  let name ← fieldOr o "name" [] decStr
  let kind ← fieldOr o "kind" 0#32 (decI 32)
  let startTimeUnixNano ← fieldOr o "startTimeUnixNano" 0#64 decTime
  let endTimeUnixNano ← fieldOr o "endTimeUnixNano" 0#64 decTime
  let attributes ← fieldOr o "attributes" [] (decAttrs cast)
  let droppedAttributesCount ← fieldOr o "droppedAttributesCount" 0#32 (decU 32)
  let events ← fieldOr o "events" [] (decArr (decEvent cast))
  let droppedEventsCount ← fieldOr o "droppedEventsCount" 0#32 (decU 32)
  let links ← fieldOr o "links" [] (decArr (decLink cast))
  let droppedLinksCount ← fieldOr o "droppedLinksCount" 0#32 (decU 32)
  let status ← fieldOpt o "status" decStatus
  some { traceId, spanId, traceState, parentSpanId, flags, name, kind, startTimeUnixNano, endTimeUnixNano, attributes, droppedAttributesCount, events,
         droppedEventsCount, links, droppedLinksCount, status }

/-- `ScopeSpans` / `ScopeLogs` / `ScopeMetrics`, which differ in the field of the items. trace.v1.rs:54-70, logs.v1.rs:54-70, metrics.v1.rs:72-87 -/
structure ScopeItems (α : Type) where
  scope : Option Scope
  items : List α
  schemaUrl : Str

/-- `ResourceSpans` / `ResourceLogs` / `ResourceMetrics`. trace.v1.rs:31-46, logs.v1.rs:31-46, metrics.v1.rs:49-64 -/
structure ResourceItems (α : Type) where
  resource : Option Res
  scopes : List (ScopeItems α)
  schemaUrl : Str

section
variable {α : Type} (itemsName scopesName requestName : String) (enc : α → Json) (dec : Json → Option α)

def encScopeItems (s : ScopeItems α) : Json := .obj
  [("scope", encOpt encScope s.scope), (itemsName, encArr enc s.items), ("schemaUrl", .str s.schemaUrl)]

def decScopeItems (j : Json) : Option (ScopeItems α) := do
  let o ← entries ["scope", itemsName, "schemaUrl"] j
  let scope ← fieldOpt o "scope" (decScope cast)
  let items ← fieldOr o itemsName [] (decArr dec)
  let schemaUrl ← fieldOr o "schemaUrl" [] decStr
  some { scope, items, schemaUrl }

def encResourceItems (s : ResourceItems α) : Json := .obj
  [("resource", encOpt encRes s.resource), (scopesName, encArr (encScopeItems itemsName enc) s.scopes), ("schemaUrl", .str s.schemaUrl)]

def decResourceItems (j : Json) : Option (ResourceItems α) := do
  let o ← entries ["resource", scopesName, "schemaUrl"] j
  let resource ← fieldOpt o "resource" (decRes cast)
  let scopes ← fieldOr o scopesName [] (decArr (decScopeItems cast itemsName dec))
  let schemaUrl ← fieldOr o "schemaUrl" [] decStr
  some { resource, scopes, schemaUrl }

/-- `Export{Trace,Logs,Metrics}ServiceRequest`, without `serde(default)`. collector.trace.v1.rs:6-16 -/
def encRequest (rs : List (ResourceItems α)) : Json := .obj [(requestName, encArr (encResourceItems itemsName scopesName enc) rs)]

def decRequest (j : Json) : Option (List (ResourceItems α)) := do
  let o ← entries [requestName] j
  field o requestName (decArr (decResourceItems cast itemsName scopesName dec))
end

/-- `serde_json::to_string_pretty(&ExportTraceServiceRequest)`. opentelemetry-otlp/src/exporter/http/mod.rs:299-302 -/
def encTraces : List (ResourceItems Span) → Json := encRequest "spans" "scopeSpans" "resourceSpans" encSpan

def decTraces : Json → Option (List (ResourceItems Span)) := decRequest cast "spans" "scopeSpans" "resourceSpans" (decSpan cast)

/-! ## Logs. opentelemetry.proto.logs.v1.rs -/

/-- `LogRecord`. logs.v1.rs:78-196 -/
structure LogRecord where
  timeUnixNano : BitVec 64
  observedTimeUnixNano : BitVec 64
  severityNumber : BitVec 32
  severityText : Str
  body : Option AVal
  attributes : List Kv
  droppedAttributesCount : BitVec 32
  flags : BitVec 32
  traceId : List Byte
  spanId : List Byte
  eventName : Str

def encLog (r : LogRecord) : Json := .obj
  [("timeUnixNano", encTime r.timeUnixNano), ("observedTimeUnixNano", encTime r.observedTimeUnixNano), ("severityNumber", encI r.severityNumber),
    ("severityText", .str r.severityText), ("body", encOpt encAny r.body), ("attributes", encAttrs r.attributes),
    ("droppedAttributesCount", encU r.droppedAttributesCount), ("flags", encU r.flags), ("traceId", encHex r.traceId), ("spanId", encHex r.spanId),
    ("eventName", .str r.eventName)]

def decLog (j : Json) : Option LogRecord := do
  let o ← entries ["timeUnixNano", "observedTimeUnixNano", "severityNumber", "severityText", "body", "attributes", "droppedAttributesCount", "flags",
    "traceId", "spanId", "eventName"] j
  let timeUnixNano ← fieldOr o "timeUnixNano" 0#64 decTime
  let observedTimeUnixNano ← fieldOr o "observedTimeUnixNano" 0#64 decTime
  let severityNumber ← fieldOr o "severityNumber" 0#32 (decI 32)
  let severityText ← fieldOr o "severityText" [] decStr
  let body ← fieldOpt o "body" (decAny cast maxDepth)
  let attributes ← fieldOr o "attributes" [] (decAttrs cast)
  let droppedAttributesCount ← fieldOr o "droppedAttributesCount" 0#32 (decU 32)
  let flags ← fieldOr o "flags" 0#32 (decU 32)
  let traceId ← fieldOr o "traceId" [] decHex
  let spanId ← fieldOr o "spanId" [] decHex
  let eventName ← fieldOr o "eventName" [] decStr
  some { timeUnixNano, observedTimeUnixNano, severityNumber, severityText, body, attributes, droppedAttributesCount, flags, traceId, spanId, eventName }

/-- `serde_json::to_string_pretty(&ExportLogsServiceRequest)`. opentelemetry-otlp/src/exporter/http/mod.rs:318-321 -/
def encLogs : List (ResourceItems LogRecord) → Json := encRequest "logRecords" "scopeLogs" "resourceLogs" encLog

def decLogs : Json → Option (List (ResourceItems LogRecord)) := decRequest cast "logRecords" "scopeLogs" "resourceLogs" (decLog cast)

/-! ## Metrics. opentelemetry.proto.metrics.v1.rs -/

/-- `number_data_point::Value` and `exemplar::Value`. metrics.v1.rs:374-379, 752-757 -/
inductive Num where
  | asDouble (f : BitVec 64)
  | asInt (i : BitVec 64)

/-- The entry of the variant. -/
def encNum : Num → String × Json
  | .asDouble f => ("asDouble", encF64 f)
  | .asInt i => ("asInt", encI i)

/-- The readers of the variants. -/
def numVariants : List (String × (Json → Option Num)) :=
  [("asDouble", fun j => (decF64 cast j).map .asDouble), ("asInt", fun j => (decI 64 j).map .asInt)]

/-- `Exemplar`: the time is a number and the value is not flattened. metrics.v1.rs:699-743 -/
structure Exemplar where
  filteredAttributes : List Kv
  timeUnixNano : BitVec 64
  spanId : List Byte
  traceId : List Byte
  value : Option Num

def encExemplar (e : Exemplar) : Json := .obj
  [("filteredAttributes", encAttrs e.filteredAttributes), ("timeUnixNano", encU e.timeUnixNano), ("spanId", encHex e.spanId), ("traceId", encHex e.traceId),
    ("value", encOpt (fun v => .obj [encNum v]) e.value)]

def decExemplar (j : Json) : Option Exemplar := do
  let o ← entries ["filteredAttributes", "timeUnixNano", "spanId", "traceId", "value"] j
  let filteredAttributes ← field o "filteredAttributes" (decAttrs cast)
  let timeUnixNano ← field o "timeUnixNano" (decU 64)
  let spanId ← field o "spanId" decHex
  let traceId ← field o "traceId" decHex
  let value ← fieldOpt o "value" (tagged (numVariants cast))
  some { filteredAttributes, timeUnixNano, spanId, traceId, value }

/-- `NumberDataPoint`. metrics.v1.rs:318-364 -/
structure NumPoint where
  attributes : List Kv
  startTimeUnixNano : BitVec 64
  timeUnixNano : BitVec 64
  exemplars : List Exemplar
  flags : BitVec 32
  value : Option Num

def encNumPoint (p : NumPoint) : Json := .obj (
  [("attributes", encAttrs p.attributes), ("startTimeUnixNano", encTime p.startTimeUnixNano), ("timeUnixNano", encTime p.timeUnixNano),
    ("exemplars", encArr encExemplar p.exemplars), ("flags", encU p.flags)] ++ (p.value.map encNum).toList)

def decNumPoint (j : Json) : Option NumPoint := do
  let o ← entries ["attributes", "startTimeUnixNano", "timeUnixNano", "exemplars", "flags"] j
  let attributes ← fieldOr o "attributes" [] (decAttrs cast)
  let startTimeUnixNano ← fieldOr o "startTimeUnixNano" 0#64 decTime
  let timeUnixNano ← fieldOr o "timeUnixNano" 0#64 decTime
  let exemplars ← fieldOr o "exemplars" [] (decArr (decExemplar cast))
  let flags ← fieldOr o "flags" 0#32 (decU 32)
  some { attributes, startTimeUnixNano, timeUnixNano, exemplars, flags, value := flat o (numVariants cast) }

/-- `HistogramDataPoint`: the counts are numbers. metrics.v1.rs:396-487 -/
structure HistPoint where
  attributes : List Kv
  startTimeUnixNano : BitVec 64
  timeUnixNano : BitVec 64
  count : BitVec 64
  sum : Option (BitVec 64)
  bucketCounts : List (BitVec 64)
  explicitBounds : List (BitVec 64)
  exemplars : List Exemplar
  flags : BitVec 32
  min : Option (BitVec 64)
  max : Option (BitVec 64)

def encHistPoint (p : HistPoint) : Json := .obj
  [("attributes", encAttrs p.attributes), ("startTimeUnixNano", encTime p.startTimeUnixNano), ("timeUnixNano", encTime p.timeUnixNano),
    ("count", encU p.count), ("sum", encOpt encF64 p.sum), ("bucketCounts", encArr encU p.bucketCounts), ("explicitBounds", encArr encF64 p.explicitBounds),
    ("exemplars", encArr encExemplar p.exemplars), ("flags", encU p.flags), ("min", encOpt encF64 p.min), ("max", encOpt encF64 p.max)]

def decHistPoint (j : Json) : Option HistPoint := do
  let o ← entries ["attributes", "startTimeUnixNano", "timeUnixNano", "count", "sum", "bucketCounts", "explicitBounds", "exemplars", "flags", "min", "max"] j
  let attributes ← fieldOr o "attributes" [] (decAttrs cast)
  let startTimeUnixNano ← fieldOr o "startTimeUnixNano" 0#64 decTime
  let timeUnixNano ← fieldOr o "timeUnixNano" 0#64 decTime
  let count ← fieldOr o "count" 0#64 (decU 64)
  let sum ← fieldOpt o "sum" (decF64 cast)
  let bucketCounts ← fieldOr o "bucketCounts" [] (decArr (decU 64))
  let explicitBounds ← fieldOr o "explicitBounds" [] (decArr (decF64 cast))
  let exemplars ← fieldOr o "exemplars" [] (decArr (decExemplar cast))
  let flags ← fieldOr o "flags" 0#32 (decU 32)
  let min ← fieldOpt o "min" (decF64 cast)
  let max ← fieldOpt o "max" (decF64 cast)
  some { attributes, startTimeUnixNano, timeUnixNano, count, sum, bucketCounts, explicitBounds, exemplars, flags, min, max }

/-- `exponential_histogram_data_point::Buckets`. metrics.v1.rs:597-614 -/
structure Buckets where
  offset : BitVec 32
  bucketCounts : List (BitVec 64)

def encBuckets (b : Buckets) : Json := .obj [("offset", encI b.offset), ("bucketCounts", encArr encU b.bucketCounts)]

def decBuckets (j : Json) : Option Buckets := do
  let o ← entries ["offset", "bucketCounts"] j
  let offset ← field o "offset" (decI 32)
  let bucketCounts ← field o "bucketCounts" (decArr (decU 64))
  some { offset, bucketCounts }

/-- `ExponentialHistogramDataPoint`: times and counts are numbers, and all but the optional fields must be present. metrics.v1.rs:498-587 -/
structure ExpoPoint where
  attributes : List Kv
  startTimeUnixNano : BitVec 64
  timeUnixNano : BitVec 64
  count : BitVec 64
  sum : Option (BitVec 64)
  scale : BitVec 32
  zeroCount : BitVec 64
  positive : Option Buckets
  negative : Option Buckets
  flags : BitVec 32
  exemplars : List Exemplar
  min : Option (BitVec 64)
  max : Option (BitVec 64)
  zeroThreshold : BitVec 64

def encExpoPoint (p : ExpoPoint) : Json := .obj
  [("attributes", encAttrs p.attributes), ("startTimeUnixNano", encU p.startTimeUnixNano), ("timeUnixNano", encU p.timeUnixNano), ("count", encU p.count),
    ("sum", encOpt encF64 p.sum), ("scale", encI p.scale), ("zeroCount", encU p.zeroCount), ("positive", encOpt encBuckets p.positive),
    ("negative", encOpt encBuckets p.negative), ("flags", encU p.flags), ("exemplars", encArr encExemplar p.exemplars), ("min", encOpt encF64 p.min),
    ("max", encOpt encF64 p.max), ("zeroThreshold", encF64 p.zeroThreshold)]

def decExpoPoint (j : Json) : Option ExpoPoint := do
  let o ← entries ["attributes", "startTimeUnixNano", "timeUnixNano", "count", "sum", "scale", "zeroCount", "positive", "negative", "flags", "exemplars", "min",
    "max", "zeroThreshold"] j
  let attributes ← field o "attributes" (decAttrs cast)
  let startTimeUnixNano ← field o "startTimeUnixNano" (decU 64)
  let timeUnixNano ← field o "timeUnixNano" (decU 64)
  let count ← field o "count" (decU 64)
  let sum ← fieldOpt o "sum" (decF64 cast)
  let scale ← field o "scale" (decI 32)
  let zeroCount ← field o "zeroCount" (decU 64)
  let positive ← fieldOpt o "positive" decBuckets
  let negative ← fieldOpt o "negative" decBuckets
  let flags ← field o "flags" (decU 32)
  let exemplars ← field o "exemplars" (decArr (decExemplar cast))
  let min ← fieldOpt o "min" (decF64 cast)
  let max ← fieldOpt o "max" (decF64 cast)
  let zeroThreshold ← field o "zeroThreshold" (decF64 cast)
  some { attributes, startTimeUnixNano, timeUnixNano, count, sum, scale, zeroCount, positive, negative, flags, exemplars, min, max, zeroThreshold }

/-- `metric::Data` with `Gauge`, `Sum`, `Histogram`, `ExponentialHistogram`. `Summary`, which no exporter makes, is left out: an entry `summary` is read as
no data here. metrics.v1.rs:214-312 -/
inductive Data where
  | gauge (dataPoints : List NumPoint)
  | sum (dataPoints : List NumPoint) (aggregationTemporality : BitVec 32) (isMonotonic : Bool)
  | histogram (dataPoints : List HistPoint) (aggregationTemporality : BitVec 32)
  | expo (dataPoints : List ExpoPoint) (aggregationTemporality : BitVec 32)

/-- The entry of the variant. -/
def encData : Data → String × Json
  | .gauge ps => ("gauge", .obj [("dataPoints", encArr encNumPoint ps)])
  | .sum ps t m => ("sum", .obj [("dataPoints", encArr encNumPoint ps), ("aggregationTemporality", encI t), ("isMonotonic", .bool m)])
  | .histogram ps t => ("histogram", .obj [("dataPoints", encArr encHistPoint ps), ("aggregationTemporality", encI t)])
  | .expo ps t => ("exponentialHistogram", .obj [("dataPoints", encArr encExpoPoint ps), ("aggregationTemporality", encI t)])

def decGauge (j : Json) : Option Data := do
  let o ← entries ["dataPoints"] j
  let ps ← fieldOr o "dataPoints" [] (decArr (decNumPoint cast))
  some (.gauge ps)

def decSum (j : Json) : Option Data := do
  let o ← entries ["dataPoints", "aggregationTemporality", "isMonotonic"] j
  let ps ← fieldOr o "dataPoints" [] (decArr (decNumPoint cast))
  let t ← fieldOr o "aggregationTemporality" 0#32 (decI 32)
  let m ← fieldOr o "isMonotonic" false decBool
  some (.sum ps t m)

def decHistogram (j : Json) : Option Data := do
  let o ← entries ["dataPoints", "aggregationTemporality"] j
  let ps ← fieldOr o "dataPoints" [] (decArr (decHistPoint cast))
  let t ← fieldOr o "aggregationTemporality" 0#32 (decI 32)
  some (.histogram ps t)

def decExpo (j : Json) : Option Data := do
  let o ← entries ["dataPoints", "aggregationTemporality"] j
  let ps ← fieldOr o "dataPoints" [] (decArr (decExpoPoint cast))
  let t ← fieldOr o "aggregationTemporality" 0#32 (decI 32)
  some (.expo ps t)

/-- The readers of the variants. -/
def dataVariants : List (String × (Json → Option Data)) :=
  [("gauge", decGauge cast), ("sum", decSum cast), ("histogram", decHistogram cast), ("exponentialHistogram", decExpo cast), ("summary", fun _ => none)]

/-- `Metric`. metrics.v1.rs:178-204 -/
structure Metric where
  name : Str
  description : Str
  unit : Str
  metadata : List Kv
  data : Option Data

def encMetric (m : Metric) : Json := .obj (
  [("name", .str m.name), ("description", .str m.description), ("unit", .str m.unit), ("metadata", encAttrs m.metadata)] ++ (m.data.map encData).toList)

def decMetric (j : Json) : Option Metric := do
  let o ← entries ["name", "description", "unit", "metadata"] j
  let name ← fieldOr o "name" [] decStr
  let description ← fieldOr o "description" [] decStr
  let unit ← fieldOr o "unit" [] decStr
  let metadata ← fieldOr o "metadata" [] (decAttrs cast)
  some { name, description, unit, metadata, data := flat o (dataVariants cast) }

/-- `serde_json::to_string_pretty(&ExportMetricsServiceRequest)`. opentelemetry-otlp/src/exporter/http/mod.rs:339-345 -/
def encMetrics : List (ResourceItems Metric) → Json := encRequest "metrics" "scopeMetrics" "resourceMetrics" encMetric

def decMetrics : Json → Option (List (ResourceItems Metric)) := decRequest cast "metrics" "scopeMetrics" "resourceMetrics" (decMetric cast)

/-! ## Text -/

/-- `serde_json::from_str` of the text of a document: the parser counts the nesting and reads the doubles. -/
def fromText {α : Type} (rd : BitVec 64 → BitVec 64) (dec : Json → Option α) (j : Json) : Option α :=
  if j.depth ≤ maxDepth then dec (reparse rd j) else none

end Otel.Otlp.Json
