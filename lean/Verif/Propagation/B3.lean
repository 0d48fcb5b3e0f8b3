import Verif.Propagation.Carrier
/-! # B3 propagator (`opentelemetry-zipkin/src/propagator/mod.rs`) -/

namespace Otel.Prop.B3
open Rust

/-- mod.rs:23. -/
def singleHeader : Str := "b3".toList
/-- mod.rs:28. -/
def debugHeader : Str := "x-b3-flags".toList
/-- mod.rs:29. -/
def traceIdHeader : Str := "x-b3-traceid".toList
/-- mod.rs:30. -/
def spanIdHeader : Str := "x-b3-spanid".toList
/-- mod.rs:31. -/
def sampledHeader : Str := "x-b3-sampled".toList
/-- mod.rs:32. -/
def parentHeader : Str := "x-b3-parentspanid".toList

/-- `TRACE_FLAG_DEFERRED`, mod.rs:34. -/
def flagDeferred : TraceFlags := 2#8
/-- `TRACE_FLAG_DEBUG`, mod.rs:35. -/
def flagDebug : TraceFlags := 4#8

/-- `B3Encoding`, mod.rs:58-71. -/
inductive Encoding where
  | unSpecified | multipleHeader | singleHeader | singleAndMultiHeader
deriving DecidableEq, Repr

/-- The discriminant, `as u8`. -/
def Encoding.code : Encoding → BitVec 8
  | .unSpecified => 0 | .multipleHeader => 1 | .singleHeader => 2 | .singleAndMultiHeader => 3

/-- `B3Encoding::support`, mod.rs:75-77. -/
def Encoding.support (self other : Encoding) : Bool := (self.code &&& other.code) == other.code

/-- `extract_trace_id`, mod.rs:108-115. -/
def extractTraceId (s : Str) : Option TraceId :=
  if lower s ≠ s ∨ (byteLen s ≠ 16 ∧ byteLen s ≠ 32) then none else TraceId.fromHex s

/-- `extract_span_id`, mod.rs:118-125. -/
def extractSpanId (s : Str) : Option SpanId :=
  if lower s ≠ s ∨ byteLen s ≠ 16 then none else SpanId.fromHex s

/-- `extract_sampled_state`, mod.rs:130-140. -/
def extractSampledState (enc : Encoding) (s : Str) : Option TraceFlags :=
  if s = "0".toList ∨ s = "false".toList then some TraceFlags.notSampled
  else if s = "1".toList then some TraceFlags.sampled
  else if s = "true".toList ∧ enc.support .singleHeader = false then some TraceFlags.sampled
  else if s = "d".toList ∧ enc.support .singleHeader = true then some flagDebug
  else none

/-- `extract_debug_flag`, mod.rs:142-148. -/
def extractDebugFlag (s : Str) : Option TraceFlags :=
  if s = "0".toList then some TraceFlags.notSampled
  else if s = "1".toList then some (flagDebug ||| TraceFlags.sampled)
  else none

/-- The validity check that ends both extractors. -/
def ifValid (sc : SpanContext) : Option SpanContext := if sc.isValid then some sc else none

/-- `extract_single_header`, mod.rs:151-181. -/
def extractSingle (enc : Encoding) (ex : Extractor) : Option SpanContext := do
  let parts := splitTerminator '-' ((ex.get singleHeader).getD [])
  match parts with
  | [p0, p1] => ifValid ⟨← extractTraceId p0, ← extractSpanId p1, flagDeferred, true, TraceState.none⟩
  | [p0, p1, p2] => ifValid ⟨← extractTraceId p0, ← extractSpanId p1, ← extractSampledState enc p2, true, TraceState.none⟩
  | [p0, p1, p2, p3] =>
    let t ← extractTraceId p0
    let s ← extractSpanId p1
    let f ← extractSampledState enc p2
    let _ ← extractSpanId p3
    ifValid ⟨t, s, f, true, TraceState.none⟩
  | _ => none

/-- The flag of the multiple header form, mod.rs:196-208. -/
def multiFlag (enc : Encoding) (ex : Extractor) : Option TraceFlags :=
  match extractDebugFlag ((ex.get debugHeader).getD []) with
  | some f => some f
  | none => match ex.get sampledHeader with
    | some s => extractSampledState enc s
    | none => some flagDeferred

/-- `extract_multi_header`, mod.rs:184-217 (the parent span id is parsed and ignored). -/
def extractMulti (enc : Encoding) (ex : Extractor) : Option SpanContext := do
  let t ← extractTraceId ((ex.get traceIdHeader).getD [])
  let s ← extractSpanId ((ex.get spanIdHeader).getD [])
  let _ := (ex.get parentHeader).bind extractSpanId
  let f ← multiFlag enc ex
  ifValid ⟨t, s, f, true, TraceState.none⟩

/-- Single header value of a valid context, mod.rs:230-243. -/
def singleValue (sc : SpanContext) : Str :=
  sc.traceId.toText ++ ['-'] ++ sc.spanId.toText ++
    (if sc.flags &&& flagDeferred = flagDeferred then []
     else ['-'] ++ (if sc.flags &&& flagDebug = flagDebug then "d".toList else if sc.isSampled then "1".toList else "0".toList))

/-- The `set` calls for the multiple header form of a valid context, mod.rs:249-257. -/
def multiSets (sc : SpanContext) : List (Str × Str) :=
  [(traceIdHeader, sc.traceId.toText), (spanIdHeader, sc.spanId.toText)] ++
    (if sc.flags &&& flagDebug = flagDebug then [(debugHeader, "1".toList)]
     else if sc.flags &&& flagDeferred = flagDeferred then []
     else [(sampledHeader, if sc.isSampled then "1".toList else "0".toList)])

/-- `inject_context`, mod.rs:223-270. -/
def inject {B U} (enc : Encoding) (cx : Cx B U) : List (Str × Str) :=
  let sc := activeSpanContext cx
  if sc.isValid then
    (if enc.support .singleHeader then [(singleHeader, singleValue sc)] else []) ++
    (if enc.support .multipleHeader || enc.support .unSpecified then multiSets sc else [])
  else
    let flag := if sc.isSampled then "1".toList else "0".toList
    (if enc.support .singleHeader then [(singleHeader, flag)] else []) ++
    (if enc.support .multipleHeader || enc.support .unSpecified then [(sampledHeader, flag)] else [])

/-- The extraction result before it is stored, mod.rs:276-281. -/
def extractSpanContext (enc : Encoding) (ex : Extractor) : Option SpanContext :=
  ((extractSingle enc ex).or (extractMulti enc ex)).filter (fun sc => sc.isValid)

/-- `extract_with_context`, mod.rs:275-286. -/
def extract {B U} (enc : Encoding) (cx : Cx B U) (ex : Extractor) : Cx B U :=
  match extractSpanContext enc ex with
  | some sc => cx.withSpan sc
  | none => cx

/-- `fields`, mod.rs:288-303 with the statics of mod.rs:37-54. -/
def fields (enc : Encoding) : List Str :=
  if enc.support .singleAndMultiHeader then [singleHeader, traceIdHeader, spanIdHeader, sampledHeader, debugHeader]
  else if enc.support .multipleHeader then [traceIdHeader, spanIdHeader, sampledHeader, debugHeader]
  else if enc.support .singleHeader then [singleHeader]
  else [traceIdHeader, spanIdHeader, sampledHeader, debugHeader]

/-- The propagator with a given encoding, mod.rs:86-105. -/
def propagator (B : Type) (U : Nat → Type) (enc : Encoding) : Propagator B U :=
  { inject := inject enc, extract := extract enc, fields := fields enc }

end Otel.Prop.B3
