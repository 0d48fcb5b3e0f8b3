import Verif.Rust.F64
import Verif.Trace.TraceState
import Verif.Context.Context
/-!
# Samplers (`opentelemetry-sdk/src/trace/sampler.rs`)

`A` is the type of attributes (`KeyValue`), `L` of links, `B`/`U` of context values. `W` is the state of the outside
world (random numbers, clocks, state of custom samplers): every call to application code may read and change it.
-/

namespace Otel.Sdk
open Otel.Ctx Rust

/-- `SamplingDecision`, opentelemetry/src/trace/tracer.rs:399-408 -/
inductive SamplingDecision where
  | drop
  | recordOnly
  | recordAndSample
deriving DecidableEq, Repr

/-- `SamplingResult`: decision, extra attributes, tracestate of the new span. -/
structure SamplingResult (A : Type) where
  decision : SamplingDecision
  attributes : List A
  traceState : TraceState

/-- `SpanKind`. -/
inductive SpanKind where
  | client | server | producer | consumer | internal
deriving DecidableEq, Repr

/-- The context as tracing sees it: what is stored as active span matters only through its span context.
opentelemetry/src/trace/context.rs:17-33 (`SynchronizedSpan`) -/
abbrev Cx (B : Type) (U : Nat → Type) := Context SpanContext B U

/-- `cx.span().span_context()`: the no-op span's context when there is none. opentelemetry/src/trace/context.rs:286-292,
NOOP_SPAN 12-15 -/
def spanContextOf {B : Type} {U : Nat → Type} (cx : Cx B U) : SpanContext :=
  match cx.span with
  | some sc => sc
  | none => SpanContext.none

/-- Arguments of `ShouldSample::should_sample`. sampler.rs:73-81 -/
structure SampleArgs (A L B : Type) (U : Nat → Type) where
  parent : Option (Cx B U)
  traceId : TraceId
  name : Str
  kind : SpanKind
  attributes : List A
  links : List L

/-- `dyn ShouldSample`: any code, possibly with state. sampler.rs:64-82 -/
abbrev ShouldSample (A L B : Type) (U : Nat → Type) (W : Type) := SampleArgs A L B U → W → SamplingResult A × W

/-- `enum Sampler` without `JaegerRemote`, which is modelled apart. sampler.rs:109-135 -/
inductive Sampler (A L B : Type) (U : Nat → Type) (W : Type) where
  | alwaysOn
  | alwaysOff
  | parentBased (delegate : ShouldSample A L B U W)
  | traceIdRatioBased (prob : F64)

/-- `sample_based_on_probability`. sampler.rs:228-246 -/
def sampleBasedOnProbability (r : F64.Rounding) (prob : F64) (traceId : TraceId) : SamplingDecision :=
  if prob.ge (.fin 1) then .recordAndSample
  else
    let probUpperBound := ((prob.max0).mulPos r (2 ^ 63)).toU64
    let bytes := TraceId.toBytes traceId
    let low := bytes.drop 8
    let traceIdLow := ofBeBytes low
    let rndFromTraceId := traceIdLow >>> 1
    if rndFromTraceId < probUpperBound then .recordAndSample else .drop

variable {A L B : Type} {U : Nat → Type} {W : Type}

/-- The decision part of `Sampler::should_sample`. sampler.rs:174-216 -/
def Sampler.decide (r : F64.Rounding) (s : Sampler A L B U W) (a : SampleArgs A L B U) (w : W) : SamplingDecision × W :=
  match s with
  | .alwaysOn => (.recordAndSample, w)
  | .alwaysOff => (.drop, w)
  | .parentBased delegate =>
    match a.parent.filter (fun cx => cx.hasActiveSpan) with
    | none => let (res, w') := delegate a w; (res.decision, w')
    | some cx => (if (spanContextOf cx).isSampled then .recordAndSample else .drop, w)
  | .traceIdRatioBased prob => (sampleBasedOnProbability r prob a.traceId, w)

/-- `Sampler::should_sample`. sampler.rs:165-226 -/
def Sampler.shouldSample (r : F64.Rounding) (s : Sampler A L B U W) : ShouldSample A L B U W := fun a w =>
  let (d, w') := s.decide r a w
  ({ decision := d
     attributes := []
     traceState := match a.parent with
       | some cx => (spanContextOf cx).traceState
       | none => TraceState.none }, w')

end Otel.Sdk
