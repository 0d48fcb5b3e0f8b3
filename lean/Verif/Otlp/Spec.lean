import Verif.Otlp.Model
/-!
# What a receiver of OTLP messages reads (specification for C53, C54)

Written after the field descriptions of the protocol (`opentelemetry-proto/src/proto/tonic/*.rs`), not after the conversion: a span's `kind` 1 to 5
is internal, server, client, producer, consumer; status code 0, 1, 2 is unset, ok, error; an empty parent id means a root span; times are
nanoseconds since the epoch; severity numbers are 1 to 24 in order.
-/

namespace Otel.Otlp
open Common (Val Arr Scope)
open Rust

variable {K : Type}

/-- Reading all elements of an array as the same kind of value. -/
def allOf {α : Type} (f : PVal K → Option α) : List (PVal K) → Option (List α)
  | [] => some []
  | v :: vs => match f v, allOf f vs with
    | some a, some as => some (a :: as)
    | _, _ => none

def asBool : PVal K → Option Bool
  | .bool b => some b
  | _ => none

def asInt : PVal K → Option (BitVec 64)
  | .int i => some i
  | _ => none

def asDouble : PVal K → Option (BitVec 64)
  | .double f => some f
  | _ => none

def asString : PVal K → Option String
  | .string s => some s
  | _ => none

/-- An attribute value. The element type of an array is that of its first element. -/
def readVal : PVal K → Option Val
  | .bool b => some (.bool b)
  | .int i => some (.int i)
  | .double f => some (.float f)
  | .string s => some (.str s)
  | .array [] => none
  | .array (.bool b :: vs) => (allOf asBool (.bool b :: vs)).map fun l => .arr (.bools l)
  | .array (.int i :: vs) => (allOf asInt (.int i :: vs)).map fun l => .arr (.ints l)
  | .array (.double f :: vs) => (allOf asDouble (.double f :: vs)).map fun l => .arr (.floats l)
  | .array (.string s :: vs) => (allOf asString (.string s :: vs)).map fun l => .arr (.strs l)
  | _ => none

/-- An attribute list. -/
def readAttrs : List (PKv K) → Option (List (K × Val))
  | [] => some []
  | (k, v) :: kvs => match readVal v, readAttrs kvs with
    | some a, some as => some ((k, a) :: as)
    | _, _ => none

/-- A trace id has 16 bytes, most significant first. -/
def readTraceId (bs : List (BitVec 8)) : Option TraceId := if bs.length = 16 then some (TraceId.fromBytes bs) else none

/-- A span id has 8 bytes, most significant first. -/
def readSpanId (bs : List (BitVec 8)) : Option SpanId := if bs.length = 8 then some (SpanId.fromBytes bs) else none

/-- A root span has no parent id. -/
def readParent : List (BitVec 8) → Option SpanId
  | [] => some SpanId.invalid
  | bs => readSpanId bs

/-- The trace flags are the low 8 bits of the flags. -/
def readFlags (f : BitVec 32) : TraceFlags := f.setWidth 8

/-- The trace state in its W3C form. -/
def readTraceState (s : Str) : Option TraceState :=
  match TraceState.fromStr s with
  | .ok t => some t
  | .error _ => none

/-- A span context. Whether it is remote is not in the message; the receiver takes it as not remote. -/
def readContext (t s : List (BitVec 8)) (f : BitVec 32) (ts : Str) : Option SpanContext := do
  some ⟨← readTraceId t, ← readSpanId s, readFlags f, false, ← readTraceState ts⟩

def readKind (n : Nat) : Option Sdk.SpanKind := [Sdk.SpanKind.internal, .server, .client, .producer, .consumer][n - 1]?

def readStatus (code : Nat) (message : Str) : Option Sdk.Status :=
  if code = 0 then some .unset else if code = 1 then some .ok else if code = 2 then some (.error message) else none

def readEvent (e : PEvent K) : Option (Sdk.Event (K × Val)) := do
  some ⟨e.name, e.timeUnixNano.toNat, ← readAttrs e.attributes, e.droppedAttributesCount⟩

def readLink (l : PLink K) : Option (Sdk.Link (K × Val)) := do
  some ⟨← readContext l.traceId l.spanId l.flags l.traceState, ← readAttrs l.attributes, l.droppedAttributesCount⟩

/-- A span, with the scope it came under. -/
def readSpan (scope : Scope K) (p : PSpan K) : Option (SdkSpan K) := do
  let context ← readContext p.traceId p.spanId p.flags p.traceState
  let parent ← readParent p.parentSpanId
  let kind ← readKind p.kind
  let attrs ← readAttrs p.attributes
  let events ← p.events.mapM readEvent
  let links ← p.links.mapM readLink
  let status ← readStatus p.statusCode p.statusMessage
  some {
    spanContext := context
    data := {
      parentSpanId := parent
      spanKind := kind
      name := p.name
      startTime := p.startTimeUnixNano.toNat
      endTime := p.endTimeUnixNano.toNat
      attributes := attrs
      droppedAttributesCount := p.droppedAttributesCount
      events := ⟨events, p.droppedEventsCount⟩
      links := ⟨links, p.droppedLinksCount⟩
      status := status }
    scope := scope }

/-! ## What can be read back -/

/-- The value is not an empty array: those of different element types look the same. -/
def NotEmptyArray : Val → Prop
  | .arr (.bools l) => l ≠ []
  | .arr (.ints l) => l ≠ []
  | .arr (.floats l) => l ≠ []
  | .arr (.strs l) => l ≠ []
  | _ => True

/-- No attribute is an empty array. -/
def PlainAttrs (kvs : List (K × Val)) : Prop := ∀ kv ∈ kvs, NotEmptyArray kv.2

/-- The nanoseconds fit into 64 bits: times up to the year 2554. -/
abbrev Timely (t : Nat) : Prop := t < 2 ^ 64

/-- The context is local and its trace state survives being written as a header. -/
def PlainContext (c : SpanContext) : Prop := c.isRemote = false ∧ readTraceState c.traceState.header = some c.traceState

/-- Nothing in the span is outside of what the messages can hold. -/
structure Plain (x : SdkSpan K) : Prop where
  context : PlainContext x.spanContext
  start : Timely x.data.startTime
  finish : Timely x.data.endTime
  attrs : PlainAttrs x.data.attributes
  events : ∀ e ∈ x.data.events.events, Timely e.timestamp ∧ PlainAttrs e.attributes
  links : ∀ l ∈ x.data.links.links, PlainContext l.spanContext ∧ PlainAttrs l.attributes

/-! ## Log records -/

mutual
/-- A value of a log record. -/
def readLVal : PVal K → LVal K
  | .double f => .double f
  | .int i => .int i
  | .string s => .string s
  | .bool b => .boolean b
  | .array vs => .list (readLVals vs)
  | .kvlist kvs => .map (readLMap kvs)
  | .bytes bs => .bytes bs

def readLVals : List (PVal K) → List (LVal K)
  | [] => []
  | v :: vs => readLVal v :: readLVals vs

def readLMap : List (K × PVal K) → List (K × LVal K)
  | [] => []
  | (k, v) :: kvs => (k, readLVal v) :: readLMap kvs
end

/-- The 24 severities in order. -/
def severities : List Severity :=
  [.trace, .trace2, .trace3, .trace4, .debug, .debug2, .debug3, .debug4, .info, .info2, .info3, .info4,
   .warn, .warn2, .warn3, .warn4, .error, .error2, .error3, .error4, .fatal, .fatal2, .fatal3, .fatal4]

/-- Severity number 0 is "unspecified". -/
def readSeverity (n : Nat) : Option Severity := if n = 0 then none else severities[n - 1]?

/-- A message field that was left at its default is unset. -/
def readText (s : Str) : Option Str := if s = [] then none else some s

/-- What a receiver sees of a record. -/
structure LogView (K : Type) where
  timestamp : Option Nat
  observed : Nat
  severity : Option Severity
  severityText : Option Str
  eventName : Option Str
  body : Option (LVal K)
  attributes : List (Str × LVal K)
  ids : Option (TraceId × SpanId)
  flags : TraceFlags

/-- Reading a record: time 0 is "unknown", absent ids are empty. -/
def readLog (p : PLog K) : LogView K where
  timestamp := if p.timeUnixNano = 0 then none else some p.timeUnixNano.toNat
  observed := p.observedTimeUnixNano.toNat
  severity := readSeverity p.severityNumber
  severityText := readText p.severityText
  eventName := readText p.eventName
  body := p.body.map readLVal
  attributes := p.attributes.map fun kv => (kv.1, readLVal kv.2)
  ids := match readTraceId p.traceId, readSpanId p.spanId with
    | some t, some s => some (t, s)
    | _, _ => none
  flags := readFlags p.flags

end Otel.Otlp
