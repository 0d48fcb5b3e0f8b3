import Verif.Sdk.Sampler
/-!
# The SDK span (`opentelemetry-sdk/src/trace/span.rs`, `span_limit.rs`, `events.rs`, `links.rs`)

`A` is the attribute type, `I` the instrumentation scope type, `W` the state of the outside world. Times are natural
numbers. Counters are `u32` and wrap (a debug build would panic at `2^32`).
-/

namespace Otel.Sdk
open Otel.Ctx Rust

/-- `SystemTime`. -/
abbrev Time := Nat

/-- `Event`. opentelemetry/src/trace/mod.rs:193-206 -/
structure Event (A : Type) where
  name : Str
  timestamp : Time
  attributes : List A
  droppedAttributesCount : BitVec 32
deriving DecidableEq

/-- `Link`. opentelemetry/src/trace/mod.rs:240-250 -/
structure Link (A : Type) where
  spanContext : SpanContext
  attributes : List A
  droppedAttributesCount : BitVec 32
deriving DecidableEq

/-- `Status`. opentelemetry/src/trace/span.rs:281-296 -/
inductive Status where
  | unset
  | error (description : Str)
  | ok
deriving DecidableEq

/-- `a > b` of the derived `PartialOrd`: by variant, then by description. Rust compares the UTF-8 bytes of descriptions,
which orders texts as their code points do. opentelemetry/src/trace/span.rs:281 -/
def Status.gt : Status → Status → Bool
  | .ok, .ok => false
  | .ok, _ => true
  | .error _, .unset => true
  | .error a, .error b => decide (b < a)
  | _, _ => false

/-- `SpanLimits`. span_limit.rs:22-33 -/
structure SpanLimits where
  maxEventsPerSpan : BitVec 32
  maxAttributesPerSpan : BitVec 32
  maxLinksPerSpan : BitVec 32
  maxAttributesPerEvent : BitVec 32
  maxAttributesPerLink : BitVec 32
deriving DecidableEq

/-- `SpanLimits::default`. span_limit.rs:35-45 -/
def SpanLimits.default : SpanLimits := ⟨128, 128, 128, 128, 128⟩

/-- `SpanEvents`. events.rs:9-14 -/
structure SpanEvents (A : Type) where
  events : List (Event A)
  droppedCount : BitVec 32
deriving DecidableEq

/-- `SpanLinks`. links.rs:9-14 -/
structure SpanLinks (A : Type) where
  links : List (Link A)
  droppedCount : BitVec 32
deriving DecidableEq

/-- `SpanData` of a recording span. span.rs:26-49 -/
structure SpanData (A : Type) where
  parentSpanId : SpanId
  spanKind : SpanKind
  name : Str
  startTime : Time
  endTime : Time
  attributes : List A
  droppedAttributesCount : BitVec 32
  events : SpanEvents A
  links : SpanLinks A
  status : Status
deriving DecidableEq

/-- `Span`; of the tracer only the scope is kept here, its provider is a parameter. span.rs:18-24 -/
structure Span (A I : Type) where
  spanContext : SpanContext
  data : Option (SpanData A)
  scope : I
  limits : SpanLimits

/-- The exported `SpanData`: the span's data with its context and scope. span.rs:249-271, export.rs -/
structure Exported (A I : Type) where
  spanContext : SpanContext
  data : SpanData A
  scope : I

variable {A I W B : Type} {U : Nat → Type}

/-- Calls that change the data of a span. `set_attributes` and `record_error` are sequences of these. -/
inductive Edit (A : Type) where
  | addEvent (name : Str) (timestamp : Time) (attributes : List A)
  | setAttribute (a : A)
  | setStatus (status : Status)
  | updateName (name : Str)
  | addLink (spanContext : SpanContext) (attributes : List A)

/-- `add_event_with_timestamp` on the data. span.rs:89-116 -/
def addEvent (l : SpanLimits) (name : Str) (ts : Time) (attrs : List A) (d : SpanData A) : SpanData A :=
  if d.events.events.length < l.maxEventsPerSpan.toNat then
    let dropped := attrs.length - l.maxAttributesPerEvent.toNat
    let attrs := attrs.take l.maxAttributesPerEvent.toNat
    { d with events := { d.events with
        events := d.events.events ++ [⟨name, ts, attrs, BitVec.ofNat 32 dropped⟩] } }
  else { d with events := { d.events with droppedCount := d.events.droppedCount + 1 } }

/-- `set_attribute` on the data. span.rs:137-146 -/
def setAttribute (l : SpanLimits) (a : A) (d : SpanData A) : SpanData A :=
  if d.attributes.length < l.maxAttributesPerSpan.toNat then { d with attributes := d.attributes ++ [a] }
  else { d with droppedAttributesCount := d.droppedAttributesCount + 1 }

/-- `set_status` on the data. span.rs:151-159 -/
def setStatus (s : Status) (d : SpanData A) : SpanData A :=
  if s.gt d.status then { d with status := s } else d

/-- `update_name` on the data. span.rs:162-169 -/
def updateName (n : Str) (d : SpanData A) : SpanData A := { d with name := n }

/-- `add_link` on the data. span.rs:173-192 -/
def addLink (l : SpanLimits) (sc : SpanContext) (attrs : List A) (d : SpanData A) : SpanData A :=
  if d.links.links.length < l.maxLinksPerSpan.toNat then
    let dropped := attrs.length - l.maxAttributesPerLink.toNat
    let attrs := attrs.take l.maxAttributesPerLink.toNat
    { d with links := { d.links with links := d.links.links ++ [⟨sc, attrs, BitVec.ofNat 32 dropped⟩] } }
  else { d with links := { d.links with droppedCount := d.links.droppedCount + 1 } }

/-- Dispatch of the five calls above. -/
def Edit.apply (l : SpanLimits) : Edit A → SpanData A → SpanData A
  | .addEvent n t as => Otel.Sdk.addEvent l n t as
  | .setAttribute a => Otel.Sdk.setAttribute l a
  | .setStatus s => Otel.Sdk.setStatus s
  | .updateName n => Otel.Sdk.updateName n
  | .addLink sc as => Otel.Sdk.addLink l sc as

/-- An edit through the public API: `with_data` does nothing once the data is gone. span.rs:68-73 -/
def Span.edit (s : Span A I) (e : Edit A) : Span A I := { s with data := s.data.map (e.apply s.limits) }

/-- `is_recording`. span.rs:128-130 -/
def Span.isRecording (s : Span A I) : Bool := s.data.isSome

/-- What a span processor receives and what the application can observe of it. `starts` and `ends` record the calls
`on_start` and `on_end` with the number of the processor, oldest first. -/
structure Obs (A I : Type) where
  starts : List (Nat × SpanContext)
  ends : List (Nat × Exported A I)

/-- The provider's state as spans see it. provider.rs:106-111 -/
structure PState (A I W : Type) where
  isShutdown : Bool
  obs : Obs A I
  world : W

/-- Calls on a span by application code. `endNow` is `end`, `endAt` is `end_with_timestamp`. -/
inductive SpanOp (A : Type) where
  | edit (e : Edit A)
  | endAt (t : Time)
  | endNow

/-- A span processor: application code, run with the world as state. It may use the span it gets in `on_start`.
opentelemetry-sdk/src/trace/span_processor.rs:77-96 -/
structure Processor (A I B : Type) (U : Nat → Type) (W : Type) where
  onStart : Span A I → Cx B U → W → List (SpanOp A) × W
  onEnd : Exported A I → W → W

/-- The environment of a provider: clock and processors. -/
structure Env (A I B : Type) (U : Nat → Type) (W : Type) where
  now : W → Time × W
  processors : List (Processor A I B U W)

/-- The calls of `on_end` on the processors numbered from `i` on. span.rs:225-246 -/
def deliver (x : Exported A I) : Nat → List (Processor A I B U W) → PState A I W → PState A I W
  | _, [], st => st
  | i, p :: ps, st =>
    deliver x (i + 1) ps
      { st with world := p.onEnd x st.world, obs := { st.obs with ends := st.obs.ends ++ [(i, x)] } }

/-- `ensure_ended_and_exported`. span.rs:200-239 -/
def ensureEnded (env : Env A I B U W) (timestamp : Option Time) (s : Span A I) (st : PState A I W) :
    Span A I × PState A I W :=
  match s.data with
  | none => (s, st)
  | some d =>
    let s' := { s with data := none }
    if st.isShutdown then (s', st)
    else
      match timestamp with
      | some t => (s', deliver ⟨s.spanContext, { d with endTime := t }, s.scope⟩ 0 env.processors st)
      | none =>
        if d.endTime = d.startTime then
          let (t, w) := env.now st.world
          (s', deliver ⟨s.spanContext, { d with endTime := t }, s.scope⟩ 0 env.processors { st with world := w })
        else (s', deliver ⟨s.spanContext, d, s.scope⟩ 0 env.processors st)

/-- One call on a span. `end` reads the clock first: opentelemetry/src/trace/span.rs:174-176; span.rs:194-196 -/
def SpanOp.run (env : Env A I B U W) : SpanOp A → Span A I × PState A I W → Span A I × PState A I W
  | .edit e, (s, st) => (s.edit e, st)
  | .endAt t, (s, st) => ensureEnded env (some t) s st
  | .endNow, (s, st) =>
    let (t, w) := env.now st.world
    ensureEnded env (some t) s { st with world := w }

/-- `Drop for Span`. span.rs:242-247 -/
def dropSpan (env : Env A I B U W) (x : Span A I × PState A I W) : PState A I W := (ensureEnded env none x.1 x.2).2

/-- What can happen while a span is alive: calls on it, a shutdown of its provider, anything else in the world. -/
inductive HistOp (A W : Type) where
  | op (o : SpanOp A)
  | shutdown
  | world (w : W)

/-- One event of a history. Shutdown is `compare_exchange(false, true)`, provider.rs:223-249; the processors' own
shutdown is part of the world. -/
def HistOp.run (env : Env A I B U W) : HistOp A W → Span A I × PState A I W → Span A I × PState A I W
  | .op o, x => o.run env x
  | .shutdown, (s, st) => (s, { st with isShutdown := true })
  | .world w, (s, st) => (s, { st with world := w })

/-- A history of events on a span, oldest first. -/
def runHist (env : Env A I B U W) (h : List (HistOp A W)) (x : Span A I × PState A I W) : Span A I × PState A I W :=
  h.foldl (fun x o => o.run env x) x

end Otel.Sdk
