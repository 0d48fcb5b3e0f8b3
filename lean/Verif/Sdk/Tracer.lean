import Verif.Sdk.Span
/-! # The SDK tracer (`opentelemetry-sdk/src/trace/tracer.rs`) -/

namespace Otel.Sdk
open Otel.Ctx Rust

/-- `SpanBuilder`. opentelemetry/src/trace/tracer.rs:242-275 -/
structure SpanBuilder (A : Type) where
  traceId : Option TraceId := none
  spanId : Option SpanId := none
  spanKind : Option SpanKind := none
  name : Str := []
  startTime : Option Time := none
  endTime : Option Time := none
  attributes : Option (List A) := none
  events : Option (List (Event A)) := none
  links : Option (List (Link A)) := none
  status : Status := .unset
  samplingResult : Option (SamplingResult A) := none

/-- `SpanBuilder::with_links` drops links to invalid contexts. opentelemetry/src/trace/tracer.rs:352-358 -/
def SpanBuilder.withLinks {A : Type} (b : SpanBuilder A) (ls : List (Link A)) : SpanBuilder A :=
  { b with links := some (ls.filter (fun l => l.spanContext.isValid)) }

/-- `Config` of the provider. config.rs:12-27 -/
structure Config (A L B : Type) (U : Nat → Type) (W : Type) where
  newTraceId : W → TraceId × W
  newSpanId : W → SpanId × W
  sampler : ShouldSample A L B U W
  limits : SpanLimits

variable {A I W B : Type} {U : Nat → Type}

/-- The loop over events of the builder. tracer.rs:110-126 -/
def clipEvent (limit : Nat) (e : Event A) : Event A :=
  { e with attributes := e.attributes.take limit, droppedAttributesCount := BitVec.ofNat 32 (e.attributes.length - limit) }

/-- The loop over links of the builder. tracer.rs:82-92 -/
def clipLink (limit : Nat) (e : Link A) : Link A :=
  { e with attributes := e.attributes.take limit, droppedAttributesCount := BitVec.ofNat 32 (e.attributes.length - limit) }

/-- tracer.rs:82-99 -/
def builderLinks (l : SpanLimits) (links : Option (List (Link A))) : SpanLinks A :=
  match links with
  | none => ⟨[], 0⟩
  | some links =>
    let dropped := links.length - l.maxLinksPerSpan.toNat
    let links := links.take l.maxLinksPerSpan.toNat
    ⟨links.map (clipLink l.maxAttributesPerLink.toNat), BitVec.ofNat 32 dropped⟩

/-- tracer.rs:110-131 -/
def builderEvents (l : SpanLimits) (events : Option (List (Event A))) : SpanEvents A :=
  match events with
  | none => ⟨[], 0⟩
  | some events =>
    let dropped := events.length - l.maxEventsPerSpan.toNat
    let events := events.take l.maxEventsPerSpan.toNat
    ⟨events.map (clipEvent l.maxAttributesPerEvent.toNat), BitVec.ofNat 32 dropped⟩

/-- The data built in `build_recording_span`; `now` is the clock reading. tracer.rs:55-150 -/
def recordingData (l : SpanLimits) (psc : SpanContext) (b : SpanBuilder A) (attrs : List A) (startTime : Time) : SpanData A :=
  let all := b.attributes.getD [] ++ attrs
  { parentSpanId := psc.spanId
    spanKind := b.spanKind.getD .internal
    name := b.name
    startTime := startTime
    endTime := b.endTime.getD startTime
    attributes := all.take l.maxAttributesPerSpan.toNat
    droppedAttributesCount := BitVec.ofNat 32 (all.length - l.maxAttributesPerSpan.toNat)
    events := builderEvents l b.events
    links := builderLinks l b.links
    status := b.status }

/-- `build_recording_span`: the clock is read only when the builder has no start time. tracer.rs:55-150 -/
def buildRecordingSpan (env : Env A I B U W) (scope : I) (psc sc : SpanContext) (b : SpanBuilder A) (attrs : List A)
    (l : SpanLimits) (w : W) : Span A I × W :=
  match b.startTime with
  | some t => (⟨sc, some (recordingData l psc b attrs t), scope, l⟩, w)
  | none => let (t, w) := env.now w; (⟨sc, some (recordingData l psc b attrs t), scope, l⟩, w)

/-- `on_start` on the processors numbered from `i` on. tracer.rs:283-286 -/
def startAll (env : Env A I B U W) (cx : Cx B U) :
    Nat → List (Processor A I B U W) → Span A I × PState A I W → Span A I × PState A I W
  | _, [], x => x
  | i, p :: ps, (s, st) =>
    let (ops, w) := p.onStart s cx st.world
    let st := { st with world := w, obs := { st.obs with starts := st.obs.starts ++ [(i, s.spanContext)] } }
    startAll env cx (i + 1) ps (ops.foldl (fun x o => o.run env x) (s, st))

/-- The span id: the builder's, else a new one. tracer.rs:201-204 -/
def pickSpanId (cfg : Config A (Link A) B U W) (b : SpanBuilder A) (w : W) : SpanId × W :=
  match b.spanId with
  | some i => (i, w)
  | none => cfg.newSpanId w

/-- The trace id: the parent's, else the builder's, else a new one. tracer.rs:214-222 -/
def pickTraceId (cfg : Config A (Link A) B U W) (b : SpanBuilder A) (cx : Cx B U) (w : W) : TraceId × W :=
  match cx.span with
  | some sc => (sc.traceId, w)
  | none =>
    match b.traceId with
    | some t => (t, w)
    | none => cfg.newTraceId w

/-- The sampling result: the builder's, else the sampler's. tracer.rs:226-237 -/
def pickSampling (cfg : Config A (Link A) B U W) (b : SpanBuilder A) (cx : Cx B U) (traceId : TraceId) (w : W) :
    SamplingResult A × W :=
  match b.samplingResult with
  | some sr => (sr, w)
  | none => cfg.sampler ⟨some cx, traceId, b.name, b.spanKind.getD .internal, b.attributes.getD [], b.links.getD []⟩ w

/-- The span before the processors see it. tracer.rs:239-281 -/
def makeSpan (env : Env A I B U W) (cfg : Config A (Link A) B U W) (scope : I) (b : SpanBuilder A) (cx : Cx B U)
    (spanId : SpanId) (traceId : TraceId) (sr : SamplingResult A) (w : W) : Span A I × W :=
  let psc := match cx.span with | some sc => sc | none => SpanContext.none
  let flags := (spanContextOf cx).flags
  match sr.decision with
  | .recordAndSample =>
    buildRecordingSpan env scope psc ⟨traceId, spanId, flags.withSampled true, false, sr.traceState⟩ b sr.attributes
      cfg.limits w
  | .recordOnly =>
    buildRecordingSpan env scope psc ⟨traceId, spanId, flags.withSampled false, false, sr.traceState⟩ b sr.attributes
      cfg.limits w
  | .drop => (⟨⟨traceId, spanId, TraceFlags.notSampled, false, sr.traceState⟩, none, scope, cfg.limits⟩, w)

/-- The span returned when nothing may be recorded. tracer.rs:181-197 -/
def emptySpan (scope : I) : Span A I := ⟨SpanContext.none, none, scope, SpanLimits.default⟩

/-- `build_with_context`. tracer.rs:180-290 -/
def buildWithContext (env : Env A I B U W) (cfg : Config A (Link A) B U W) (scope : I) (b : SpanBuilder A) (cx : Cx B U)
    (st : PState A I W) : Span A I × PState A I W :=
  if cx.suppress then (emptySpan scope, st)
  else if st.isShutdown then (emptySpan scope, st)
  else
    let (spanId, w) := pickSpanId cfg b st.world
    let (traceId, w) := pickTraceId cfg b cx w
    let (sr, w) := pickSampling cfg b cx traceId w
    let (span, w) := makeSpan env cfg scope b cx spanId traceId sr w
    startAll env cx 0 env.processors (span, { st with world := w })

end Otel.Sdk
