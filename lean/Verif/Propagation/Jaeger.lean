import Verif.Propagation.Carrier
/-! # Jaeger propagator (`opentelemetry-jaeger-propagator/src/propagator.rs`) -/

namespace Otel.Prop.Jaeger
open Rust

/-- propagator.rs:10-14. -/
def defaultHeader : Str := "uber-trace-id".toList
/-- propagator.rs:11. -/
def defaultPrefix : Str := "uberctx-".toList
/-- propagator.rs:14. -/
def flagDebug : TraceFlags := 4#8

/-- `struct Propagator`, propagator.rs:21-25. -/
structure Config where
  baggagePrefix : Str
  headerName : Str
  fields : List Str
deriving DecidableEq

/-- `with_custom_header_and_baggage`, propagator.rs:51-73. -/
def withCustom (header baggage : Str) : Config :=
  let header := if (trim header).isEmpty then defaultHeader else header
  let baggage := if (trim baggage).isEmpty then defaultPrefix else baggage
  { baggagePrefix := trim baggage, headerName := trim header, fields := [header] }

/-- `str::replace("%3A", ":")`. -/
def decodeColon : Str → Str
  | [] => []
  | [a] => [a]
  | [a, b] => [a, b]
  | a :: b :: c :: r =>
    if a = '%' ∧ b = '3' ∧ c = 'A' then ':' :: decodeColon r else a :: decodeColon (b :: c :: r)

/-- `extract_trace_id`, propagator.rs:114-120. -/
def extractTraceId (s : Str) : Option TraceId := if byteLen s > 32 then none else TraceId.fromHex s

/-- `extract_span_id`, propagator.rs:123-135; `{:0>16}` pads on the left with `0` to 16 characters. -/
def extractSpanId (s : Str) : Option SpanId :=
  if byteLen s = 16 then SpanId.fromHex s
  else if byteLen s > 16 then none
  else SpanId.fromHex (List.replicate (16 - s.length) '0' ++ s)

/-- `extract_trace_flags`, propagator.rs:143-159. -/
def extractFlags (s : Str) : Option TraceFlags :=
  if byteLen s > 2 then none
  else match parseDec 8 s with
    | none => none
    | some n =>
      let f : BitVec 8 := BitVec.ofNat 8 n
      if f &&& 1#8 = 1#8 then
        if f &&& 2#8 = 2#8 then some (TraceFlags.sampled ||| flagDebug) else some TraceFlags.sampled
      else some TraceFlags.notSampled

/-- `extract_trace_state`, propagator.rs:161-183. -/
def extractTraceState (cfg : Config) (ex : Extractor) : Option TraceState :=
  match TraceState.fromKeyValue
      ((ex.keys.filter (fun k => cfg.baggagePrefix.isPrefixOf k)).filterMap (fun k => (ex.get k).map (fun v => (k, v)))) with
  | .ok t => some t
  | .error _ => none

/-- The header text after the optional decoding, propagator.rs:77-81. -/
def headerText (cfg : Config) (ex : Extractor) : Str :=
  let h := (ex.get cfg.headerName).getD []
  if ':' ∈ h then h else decodeColon h

/-- `extract_span_context`, propagator.rs:76-112. -/
def extractSpanContext (cfg : Config) (ex : Extractor) : Option SpanContext :=
  match splitTerminator ':' (headerText cfg ex) with
  | [p0, p1, _, p3] =>
    match extractTraceId p0, extractSpanId p1, extractFlags p3, extractTraceState cfg ex with
    | some t, some s, some f, some st => some ⟨t, s, f, true, st⟩
    | _, _, _, _ => none
  | _ => none

/-- The flag digit, propagator.rs:191-199. -/
def flagDigit (sc : SpanContext) : Char :=
  if sc.isSampled then (if sc.flags &&& flagDebug = flagDebug then '3' else '1') else '0'

/-- The header value, propagator.rs:200-206. -/
def headerValue (sc : SpanContext) : Str :=
  sc.traceId.toText ++ [':'] ++ sc.spanId.toText ++ [':'] ++ ['0'] ++ [':'] ++ [flagDigit sc]

/-- `inject_context`, propagator.rs:187-209. -/
def inject {B U} (cfg : Config) (cx : Cx B U) : List (Str × Str) :=
  if (activeSpanContext cx).isValid then [(cfg.headerName, headerValue (activeSpanContext cx))] else []

/-- `extract_with_context`, propagator.rs:211-215. -/
def extract {B U} (cfg : Config) (cx : Cx B U) (ex : Extractor) : Cx B U :=
  match extractSpanContext cfg ex with
  | some sc => cx.withSpan sc
  | none => cx

/-- The propagator. -/
def propagator (B : Type) (U : Nat → Type) (cfg : Config) : Propagator B U :=
  { inject := inject cfg, extract := extract cfg, fields := cfg.fields }

end Otel.Prop.Jaeger
