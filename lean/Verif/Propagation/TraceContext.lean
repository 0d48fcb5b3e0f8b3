import Verif.Propagation.Carrier
/-! # W3C trace context propagator (`opentelemetry-sdk/src/propagation/trace_context.rs`) -/

namespace Otel.Prop.W3C
open Rust

/-- trace_context.rs:13. -/
def traceparentHeader : Str := "traceparent".toList
/-- trace_context.rs:14. -/
def tracestateHeader : Str := "tracestate".toList
/-- `SUPPORTED_VERSION`, trace_context.rs:11. -/
def supportedVersion : Nat := 0
/-- `MAX_VERSION`, trace_context.rs:12. -/
abbrev maxVersion : Nat := 254

/-- The trace state part of `extract_span_context`, trace_context.rs:105-110. -/
def traceStateOf (ex : Extractor) : TraceState :=
  match ex.get tracestateHeader with
  | some s => (match TraceState.fromStr s with | .ok t => t | .error _ => TraceState.none)
  | none => TraceState.none

/-- `TraceContextPropagator::extract_span_context`, trace_context.rs:63-121; `none` is `Err(())`. -/
def extractSpanContext (ex : Extractor) : Option SpanContext :=
  let headerValue := trim ((ex.get traceparentHeader).getD [])
  match splitTerminator '-' headerValue with
  | p0 :: p1 :: p2 :: p3 :: rest =>
    match parseHex 8 p0 with
    | none => none
    | some version =>
      if version > maxVersion || (version == 0 && rest.length != 0) then none
      else if p1.any isAsciiUpper then none
      else match TraceId.fromHex p1 with
        | none => none
        | some traceId =>
          if p2.any isAsciiUpper then none
          else match SpanId.fromHex p2 with
            | none => none
            | some spanId =>
              match parseHex 8 p3 with
              | none => none
              | some opts =>
                if version == 0 && opts > 2 then none
                else
                  let flags : TraceFlags := BitVec.ofNat 8 opts &&& TraceFlags.sampled
                  let sc : SpanContext := ⟨traceId, spanId, flags, true, traceStateOf ex⟩
                  if !sc.isValid then none else some sc
  | _ => none   -- fewer than 4 parts

/-- The header value written by `inject_context`, trace_context.rs:131-137. -/
def traceparentValue (sc : SpanContext) : Str :=
  fmtHex 2 supportedVersion ++ ['-'] ++ sc.traceId.toText ++ ['-'] ++ sc.spanId.toText ++ ['-'] ++
    fmtHex 2 (sc.flags &&& TraceFlags.sampled).toNat

/-- `inject_context`, trace_context.rs:127-141: the `set` calls. -/
def inject {B U} (cx : Cx B U) : List (Str × Str) :=
  let sc := activeSpanContext cx
  if sc.isValid then
    [(traceparentHeader, traceparentValue sc), (tracestateHeader, sc.traceState.header)]
  else []

/-- `extract_with_context`, trace_context.rs:147-151. -/
def extract {B U} (cx : Cx B U) (ex : Extractor) : Cx B U :=
  match extractSpanContext ex with
  | some sc => cx.withSpan sc
  | none => cx

/-- The propagator, with `fields` from trace_context.rs:16-23, 153-155. -/
def propagator (B : Type) (U : Nat → Type) : Propagator B U :=
  { inject := inject, extract := extract, fields := [traceparentHeader, tracestateHeader] }

end Otel.Prop.W3C
