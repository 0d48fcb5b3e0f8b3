import Verif.Otlp.GroupProps
import Verif.Otlp.Props
/-!
# Conversions of a single item (`opentelemetry-proto/src/transform/{trace,logs,tracez}.rs`), C120

Besides the grouping of a batch the crate makes a request of one span or of one log record, and the messages of the zPages from a span.
-/

namespace Otel.Otlp
open Common (Val Scope)
open Rust

variable {K : Type}

/-! ## The model -/

/-- `ResourceSpans::new`, which spells out the fields of the span again. trace.rs:94-150 -/
def resourceSpansNew (x : SdkSpan K) (res : Res K) : PRequest K (PSpan K) where
  resource := res.attributes
  schemaUrl := res.schemaUrl.getD ""
  groups := [{
    schemaUrl := x.scope.schemaUrl.getD ""
    scope := scopeOf x.scope none
    items := [{
      traceId := x.spanContext.traceId.toBytes
      spanId := x.spanContext.spanId.toBytes
      traceState := x.spanContext.traceState.header
      parentSpanId := if x.data.parentSpanId ≠ SpanId.invalid then x.data.parentSpanId.toBytes else []
      flags := x.spanContext.flags.setWidth 32
      name := x.data.name
      kind := kindNumber x.data.spanKind
      startTimeUnixNano := toNanos x.data.startTime
      endTimeUnixNano := toNanos x.data.endTime
      droppedAttributesCount := x.data.droppedAttributesCount
      attributes := attributes x.data.attributes
      droppedEventsCount := x.data.events.droppedCount
      events := x.data.events.events.map fun e =>
        { timeUnixNano := toNanos e.timestamp, name := e.name, attributes := attributes e.attributes, droppedAttributesCount := e.droppedAttributesCount }
      droppedLinksCount := x.data.links.droppedCount
      links := x.data.links.links.map linkOf
      statusCode := statusNumber x.data.status
      statusMessage := statusMessage x.data.status }] }]

/-- `From<((&SdkLogRecord, &InstrumentationScope), &ResourceAttributesWithSchema)> for ResourceLogs`; `none` is a panic. logs.rs:129-165 -/
def resourceLogsOf (x : SdkLog K × Scope K) (res : Res K) : Option (PRequest K (PLog K)) :=
  (logOf x.1).map fun r =>
    { resource := res.attributes
      schemaUrl := res.schemaUrl.getD ""
      groups := [⟨scopeOf x.2 (x.1.target.map String.ofList), x.2.schemaUrl.getD "", [r]⟩] }

/-- `LatencyData`. proto/tonic/opentelemetry.proto.tracez.v1.rs:24-41 -/
structure LatencyData (K : Type) where
  traceid : List (BitVec 8)
  spanid : List (BitVec 8)
  parentid : List (BitVec 8)
  starttime : BitVec 64
  endtime : BitVec 64
  attributes : List (PKv K)
  events : List (PEvent K)
  links : List (PLink K)

/-- `RunningData`. proto/tonic/opentelemetry.proto.tracez.v1.rs:46-61 -/
structure RunningData (K : Type) where
  traceid : List (BitVec 8)
  spanid : List (BitVec 8)
  parentid : List (BitVec 8)
  starttime : BitVec 64
  attributes : List (PKv K)
  events : List (PEvent K)
  links : List (PLink K)

/-- `ErrorData`; the status is a code and a message. proto/tonic/opentelemetry.proto.tracez.v1.rs:66-83 -/
structure ErrorData (K : Type) where
  traceid : List (BitVec 8)
  spanid : List (BitVec 8)
  parentid : List (BitVec 8)
  starttime : BitVec 64
  attributes : List (PKv K)
  events : List (PEvent K)
  links : List (PLink K)
  status : Option (Nat × Str)

/-- `From<Event> for SpanEvent`. tracez.rs:63-72 -/
def zEventOf (e : Sdk.Event (K × Val)) : PEvent K where
  timeUnixNano := toNanos e.timestamp
  name := e.name
  attributes := attributes e.attributes
  droppedAttributesCount := e.droppedAttributesCount

/-- `From<SpanData> for LatencyData`. tracez.rs:12-25 -/
def latencyOf (x : SdkSpan K) : LatencyData K where
  traceid := x.spanContext.traceId.toBytes
  spanid := x.spanContext.spanId.toBytes
  parentid := x.data.parentSpanId.toBytes
  starttime := toNanos x.data.startTime
  endtime := toNanos x.data.endTime
  attributes := attributes x.data.attributes
  events := x.data.events.events.map zEventOf
  links := x.data.links.links.map linkOf

/-- `From<SpanData> for ErrorData`. tracez.rs:27-46 -/
def errorOf (x : SdkSpan K) : ErrorData K where
  traceid := x.spanContext.traceId.toBytes
  spanid := x.spanContext.spanId.toBytes
  parentid := x.data.parentSpanId.toBytes
  starttime := toNanos x.data.startTime
  attributes := attributes x.data.attributes
  events := x.data.events.events.map zEventOf
  links := x.data.links.links.map linkOf
  status := match x.data.status with
    | .error d => some (2, d)
    | _ => none

/-- `From<SpanData> for RunningData`. tracez.rs:48-60 -/
def runningOf (x : SdkSpan K) : RunningData K where
  traceid := x.spanContext.traceId.toBytes
  spanid := x.spanContext.spanId.toBytes
  parentid := x.data.parentSpanId.toBytes
  starttime := toNanos x.data.startTime
  attributes := attributes x.data.attributes
  events := x.data.events.events.map zEventOf
  links := x.data.links.links.map linkOf

/-! ## Specification -/

/-- The items of a request. -/
def PRequest.items {I : Type} (r : PRequest K I) : List I := r.groups.flatMap (·.items)

/-- The scope of the protocol says what the scope says. -/
def ReadsScope (p : PScope K) (s : Scope K) : Prop :=
  p.name = s.name ∧ p.version = s.version.getD "" ∧ readAttrs p.attributes = some s.attrs

/-- The fields that the three messages of the zPages have in common tell of the span. -/
def TellsSpan (x : SdkSpan K) (traceid spanid parentid : List (BitVec 8)) (start : BitVec 64) (attrs : List (PKv K)) (events : List (PEvent K))
    (links : List (PLink K)) : Prop :=
  readTraceId traceid = some x.spanContext.traceId ∧ readSpanId spanid = some x.spanContext.spanId ∧ readSpanId parentid = some x.data.parentSpanId ∧
  start.toNat = x.data.startTime ∧ readAttrs attrs = some x.data.attributes ∧ events.mapM readEvent = some x.data.events.events ∧
  links.mapM readLink = some x.data.links.links

/-! ## C120 -/

theorem resourceSpansNew_items (x : SdkSpan K) (res : Res K) : (resourceSpansNew x res).items = [spanOf x] := rfl

/-- C120. The request of one span holds the span and says its scope, with the schema url of the scope, and the resource. -/
theorem single_span_partial {x : SdkSpan K} (h : Plain x) (ha : PlainAttrs x.scope.attrs) (res : Res K) :
    ∃ g p, (resourceSpansNew x res).groups = [g] ∧ g.items = [p] ∧ readSpan x.scope p = some x ∧ ReadsScope g.scope x.scope ∧
      g.schemaUrl = x.scope.schemaUrl.getD "" ∧ (resourceSpansNew x res).resource = res.attributes ∧
      (resourceSpansNew x res).schemaUrl = res.schemaUrl.getD "" :=
  ⟨_, spanOf x, rfl, rfl, span_roundtrip_partial h, ⟨rfl, rfl, readAttrs_attributes ha⟩, rfl, rfl, rfl⟩

/-- C120. The requests of the spans of a batch, one by one, hold the same spans as the request of the batch. -/
theorem single_spans_batch (hit : Scope K → Scope K → Bool) (ord : Order (Scope K × List (SdkSpan K))) (res : Res K) (batch : List (SdkSpan K)) :
    (groupSpans hit ord res batch).items.Perm (batch.flatMap fun x => (resourceSpansNew x res).items) := by
  have h := spans_once hit ord res batch
  rw [List.map_eq_flatMap] at h
  exact h

/-- C120, violated. A batch of one span is not the request of that span: the batch has the schema url of the resource for the scope. -/
theorem single_span_schema_violated : ∃ (x : SdkSpan Nat) (res : Res Nat), Plain x ∧
    ∀ hit ord, groupSpans hit ord res [x] ≠ resourceSpansNew x res := by
  refine ⟨{ exampleSpan with scope := ⟨"lib", none, some "https://a", []⟩ }, ⟨[], none⟩, ⟨exampleSpan_plain.context, exampleSpan_plain.start, exampleSpan_plain.finish,
    exampleSpan_plain.attrs, exampleSpan_plain.events, exampleSpan_plain.links⟩, fun hit ord h => ?_⟩
  have hg : (⟨scopeOf ⟨"lib", none, some "https://a", []⟩ none, "https://a", [spanOf { exampleSpan with scope := ⟨"lib", none, some "https://a", []⟩ }]⟩ : PGroup Nat (PSpan Nat)) ∈
      (groupSpans hit ord ⟨[], none⟩ [{ exampleSpan with scope := ⟨"lib", none, some "https://a", []⟩ }]).groups := by
    rw [h]; exact List.mem_singleton.2 rfl
  have := span_schema_url_violated _ _ _ _ _ hg
  exact absurd this (by decide)

/-- C120. The request of one log record is made if the record has an observed time. It holds the record, and says its scope: the target alone if there is one,
else name, version and attributes. -/
theorem single_log (x : SdkLog K × Scope K) (res : Res K) :
    (resourceLogsOf x res = none ↔ x.1.observedTimestamp = none) ∧
    ∀ req, resourceLogsOf x res = some req → ∃ g r, req.groups = [g] ∧ g.items = [r] ∧ logOf x.1 = some r ∧ g.schemaUrl = x.2.schemaUrl.getD "" ∧
      req.resource = res.attributes ∧ req.schemaUrl = res.schemaUrl.getD "" ∧
      (∀ t, x.1.target = some t → g.scope = ⟨String.ofList t, "", []⟩) ∧ (x.1.target = none → PlainAttrs x.2.attrs → ReadsScope g.scope x.2) := by
  refine ⟨?_, fun req h => ?_⟩
  · rw [resourceLogsOf, Option.map_eq_none_iff]
    exact (log_converts x.1).1
  · obtain ⟨r, hr, rfl⟩ := Option.map_eq_some_iff.1 h
    refine ⟨_, r, rfl, rfl, hr, rfl, rfl, rfl, fun t ht => ?_, fun ht ha => ?_⟩
    · rw [ht]; rfl
    · rw [ht]; exact ⟨rfl, rfl, readAttrs_attributes ha⟩

/-- C120, violated. A batch of one log record is not the request of that record: version and attributes of the scope are only in the latter. -/
theorem single_log_scope_violated : ∃ (x : SdkLog Nat × Scope Nat) (res : Res Nat), x.1.observedTimestamp.isSome = true ∧
    ∀ ord, groupLogs ord res [x] ≠ resourceLogsOf x res := by
  refine ⟨(exampleLog none, ⟨"lib", some "1", none, []⟩), ⟨[], none⟩, rfl, fun ord h => ?_⟩
  obtain ⟨r, hr⟩ : ∃ r, logOf (exampleLog none) = some r := ⟨_, rfl⟩
  have h2 : resourceLogsOf (exampleLog none, (⟨"lib", some "1", none, []⟩ : Scope Nat)) ⟨[], none⟩ =
      some ⟨[], [⟨⟨"lib", "1", []⟩, "", [r]⟩], ""⟩ := by rw [resourceLogsOf, hr]; rfl
  rw [h2] at h
  have := (log_scope_violated _ _ _ h _ (List.mem_singleton.2 rfl)).1
  exact absurd (show ("1" : String) = "" from this) (by decide)

theorem tells_of {x : SdkSpan K} (h : Plain x) : TellsSpan x x.spanContext.traceId.toBytes x.spanContext.spanId.toBytes x.data.parentSpanId.toBytes
    (toNanos x.data.startTime) (attributes x.data.attributes) (x.data.events.events.map zEventOf) (x.data.links.links.map linkOf) := by
  have ht (t : TraceId) : readTraceId t.toBytes = some t := by unfold readTraceId; rw [if_pos (traceId_bytes_roundtrip.1 t).1, (traceId_bytes_roundtrip.1 t).2]
  have hs (t : SpanId) : readSpanId t.toBytes = some t := by unfold readSpanId; rw [if_pos (spanId_bytes_roundtrip.1 t).1, (spanId_bytes_roundtrip.1 t).2]
  refine ⟨ht _, hs _, hs _, toNanos_nat h.start, readAttrs_attributes h.attrs, ?_, ?_⟩
  · apply mapM_read
    intro e he
    obtain ⟨ht, ha⟩ := h.events e he
    simp [readEvent, zEventOf, readAttrs_attributes ha, toNanos_nat ht]
  · apply mapM_read
    intro l hl
    obtain ⟨hc, ha⟩ := h.links l hl
    simp [readLink, linkOf, readAttrs_attributes ha, readContext_of hc]

/-- C120. What zPages show of a finished span is the span. -/
theorem latency_partial {x : SdkSpan K} (h : Plain x) :
    TellsSpan x (latencyOf x).traceid (latencyOf x).spanid (latencyOf x).parentid (latencyOf x).starttime (latencyOf x).attributes (latencyOf x).events
      (latencyOf x).links ∧ (latencyOf x).endtime.toNat = x.data.endTime := ⟨tells_of h, toNanos_nat h.finish⟩

/-- C120. What they show of a running span is the span. -/
theorem running_partial {x : SdkSpan K} (h : Plain x) :
    TellsSpan x (runningOf x).traceid (runningOf x).spanid (runningOf x).parentid (runningOf x).starttime (runningOf x).attributes (runningOf x).events
      (runningOf x).links := tells_of h

/-- C120. What they show of a failed span is the span and its error; there is a status for an error only. -/
theorem error_partial {x : SdkSpan K} (h : Plain x) :
    TellsSpan x (errorOf x).traceid (errorOf x).spanid (errorOf x).parentid (errorOf x).starttime (errorOf x).attributes (errorOf x).events
      (errorOf x).links ∧
    (∀ c d, (errorOf x).status = some (c, d) → readStatus c d = some x.data.status) ∧
    ((errorOf x).status.isSome = true ↔ ∃ d, x.data.status = .error d) := by
  refine ⟨tells_of h, fun c d hc => ?_, ?_⟩
  · cases hs : x.data.status with
    | error e =>
      simp only [errorOf, hs, Option.some.injEq, Prod.mk.injEq] at hc
      rw [← hc.1, ← hc.2]; rfl
    | _ => simp [errorOf, hs] at hc
  · cases hs : x.data.status with
    | error e => simp [errorOf, hs]
    | _ => simp [errorOf, hs]

/-- The span of `Verif/Otlp/Props.lean` meets the hypotheses. -/
example : Plain exampleSpan ∧ PlainAttrs exampleSpan.scope.attrs := ⟨exampleSpan_plain, by simp [exampleSpan, PlainAttrs]⟩

end Otel.Otlp
