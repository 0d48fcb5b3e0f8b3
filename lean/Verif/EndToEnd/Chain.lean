import Verif.Propagation.TraceContextProps
import Verif.Sdk.TracerProps
/-!
# One trace through a chain of services (C90)

Each service takes the headers of a request, extracts the W3C trace context, starts any number of nested spans, and injects the innermost into the request to the
next service. A service has no SDK (`opentelemetry/src/trace/noop.rs`, what the globals give by default), or one with a parent-based sampler, as by default
(opentelemetry-sdk/src/trace/config.rs:76-80, 171-178). The models of the parts are those of C06, C20, C21; this file puts them together.
-/

namespace Otel.EndToEnd
open Rust Otel.Prop
open Otel.Sdk hiding Cx

/-- `NoopTracer::build_with_context`: the span has the span context of the active span. noop.rs:123-131 -/
def noopBuild {B : Type} {U : Nat → Type} (cx : Cx B U) : SpanContext := activeSpanContext cx

/-- A service starts a span under the parent: the span context the new span has. -/
inductive Starts (parent : SpanContext) : SpanContext → Prop where
  /-- no SDK -/
  | noop {B : Type} {U : Nat → Type} (cx : Cx B U) (hp : cx.span = some parent) : Starts parent (noopBuild cx)
  /-- an SDK with a parent-based sampler over any other, any processors, any builder that leaves the decision to the sampler; tracing is on; the span id is one the
  generator or the caller made, and not zero -/
  | sdk {A I W B : Type} {U : Nat → Type} (r : F64.Rounding) (env : Env A I B U W) (cfg : Config A (Sdk.Link A) B U W) (delegate : ShouldSample A (Sdk.Link A) B U W)
      (hc : cfg.sampler = (Sampler.parentBased delegate).shouldSample r) (scope : I) (b : SpanBuilder A) (hb : b.samplingResult = none) (cx : Cx B U) (st : PState A I W)
      (hs : cx.suppress = false) (hd : st.isShutdown = false) (hp : cx.span = some parent) (hid : b.spanId.getD (cfg.newSpanId st.world).1 ≠ SpanId.invalid) :
      Starts parent (buildWithContext env cfg scope b cx st).1.spanContext

/-- Nested spans, in one service. -/
inductive Nested (parent : SpanContext) : SpanContext → Prop where
  | none : Nested parent parent
  | start {sc sc' : SpanContext} : Nested parent sc → Starts sc sc' → Nested parent sc'

/-- A service handles a request with headers `c` and sends one with headers `c'`: it extracts into some context, works, and injects into some headers. -/
inductive Serves (c : Carrier) : Carrier → Prop where
  | intro {B B' : Type} {U U' : Nat → Type} (base : Cx B U) (sc : SpanContext) (hn : Nested (activeSpanContext (W3C.extract base c.toExtractor)) sc) (cx : Cx B' U')
      (hx : cx.span = some sc) (c0 : Carrier) : Serves c (c0.setAll (W3C.inject cx))

/-- A chain of any number of services. -/
inductive Chain (c : Carrier) : Carrier → Prop where
  | none : Chain c c
  | next {c' c'' : Carrier} : Chain c c' → Serves c' c'' → Chain c c''

/-! ## Specification -/

/-- The headers carry this trace: a receiver gets a remote, valid span context of it, with the sampling decision and trace state. -/
def Carries (c : Carrier) (traceId : TraceId) (sampled : Bool) (entries : List (Str × Str)) : Prop :=
  ∀ (B : Type) (U : Nat → Type) (base : Cx B U), ∃ sc : SpanContext, W3C.extract base c.toExtractor = base.withSpan sc ∧ sc.isValid = true ∧ sc.isRemote = true
    ∧ sc.traceId = traceId ∧ sc.isSampled = sampled ∧ sc.traceState.entries = entries

/-! ## Lemmas -/

/-- What is kept inside a service. -/
structure Keeps (a b : SpanContext) : Prop where
  traceId : b.traceId = a.traceId
  sampled : b.isSampled = a.isSampled
  traceState : b.traceState = a.traceState
  valid : a.isValid = true → b.isValid = true

theorem starts_keeps {a b : SpanContext} (h : Starts a b) : Keeps a b := by
  cases h with
  | noop cx hp =>
    have : noopBuild cx = a := by rw [noopBuild, activeSpanContext, hp]; rfl
    rw [this]
    exact ⟨rfl, rfl, rfl, id⟩
  | sdk r env cfg delegate hc scope b hb cx st hs hd hp hid =>
    obtain ⟨h1, h2, _, _⟩ := child_linked env cfg scope b cx st hs hd a hp
    obtain ⟨h3, _, h4⟩ := parent_based_child r env cfg delegate hc scope b hb cx st hs hd a hp
    refine ⟨h1, h3, h4, fun hv => ?_⟩
    simp only [SpanContext.isValid, Bool.and_eq_true, bne_iff_ne, ne_eq] at hv ⊢
    rw [h1, h2]
    exact ⟨hv.1, hid⟩

theorem nested_keeps {a b : SpanContext} (h : Nested a b) : Keeps a b := by
  induction h with
  | none => exact ⟨rfl, rfl, rfl, id⟩
  | start _ hs ih =>
    have := starts_keeps hs
    exact ⟨this.traceId.trans ih.traceId, this.sampled.trans ih.sampled, this.traceState.trans ih.traceState, fun h => this.valid (ih.valid h)⟩

/-- What is extracted has a trace state of the API. -/
theorem extracted_built {B : Type} {U : Nat → Type} (base : Cx B U) (c : Carrier) (sc : SpanContext) (h : W3C.extract base c.toExtractor = base.withSpan sc)
    (hv : sc.isValid = true) (hb : ∀ t, base.span = some t → TraceState.Built t.traceState) : TraceState.Built sc.traceState := by
  have hsc : (base.withSpan sc).span = some sc := rfl
  rcases W3C.extract_all_or_nothing base c.toExtractor with e | ⟨sc', e, _, _, _, _, hbt⟩
  · rw [← h, e] at hsc
    exact hb sc hsc
  · rw [h] at e
    have : sc = sc' := by
      have := congrArg Ctx.Context.span e
      simpa [Ctx.Context.withSpan] using this
    rw [this]; exact hbt

/-- What a receiver gets after an injection. -/
theorem inject_carries {B : Type} {U : Nat → Type} (cx : Cx B U) (c : Carrier) (hv : (activeSpanContext cx).isValid = true)
    (hts : TraceState.Built (activeSpanContext cx).traceState) :
    Carries (c.setAll (W3C.inject cx)) (activeSpanContext cx).traceId (activeSpanContext cx).isSampled (activeSpanContext cx).traceState.entries := by
  intro B' U' base
  have ha : activeSpanContext (base.withSpan (activeSpanContext cx)) = activeSpanContext cx := rfl
  have hi : W3C.inject (base.withSpan (activeSpanContext cx)) = W3C.inject cx := by simp only [W3C.inject, ha]
  obtain ⟨sc, h1, h2, h3, h4, _, h6, h7⟩ := W3C.w3c_roundtrip (base.withSpan (activeSpanContext cx)) base c hv hts
  rw [hi] at h1
  rw [ha] at h2 h3 h4 h7
  have hval : sc.isValid = true := by
    simp only [SpanContext.isValid, Bool.and_eq_true] at hv ⊢
    rw [h2, h3]; exact hv
  exact ⟨sc, h1, hval, h6, h2, h4, h7⟩

theorem serves_carries {c c' : Carrier} (h : Serves c c') {t : TraceId} {b : Bool} {es : List (Str × Str)} (hc : Carries c t b es) : Carries c' t b es := by
  cases h with
  | @intro B B' U U' base sc hn cx hx c0 =>
    obtain ⟨sc0, h1, h2, _, h4, h5, h6⟩ := hc B U base
    have hk := nested_keeps hn
    have ha : activeSpanContext (W3C.extract base c.toExtractor) = sc0 := by rw [h1]; rfl
    rw [ha] at hk
    have hcx : activeSpanContext cx = sc := by rw [activeSpanContext, hx]; rfl
    have hbt : TraceState.Built sc0.traceState := by
      obtain ⟨sc1, g1, g2, _⟩ := hc B U Ctx.Context.new
      have := extracted_built Ctx.Context.new c sc1 g1 g2 (fun t ht => by simp [Ctx.Context.new] at ht)
      have e : W3C.extractSpanContext c.toExtractor = some sc0 := by
        have hs := congrArg Ctx.Context.span g1
        simp only [W3C.extract] at hs h1
        cases hx : W3C.extractSpanContext c.toExtractor with
        | none => rw [hx] at hs; cases hs
        | some x =>
          rw [hx] at h1
          have := congrArg Ctx.Context.span h1
          simpa [Ctx.Context.withSpan] using this
      have e1 : sc1 = sc0 := by
        simp only [W3C.extract, e] at g1
        have := congrArg Ctx.Context.span g1
        simpa [Ctx.Context.withSpan] using this.symm
      rw [← e1]; exact this
    have := inject_carries cx c0 (by rw [hcx]; exact hk.valid h2) (by rw [hcx, hk.traceState]; exact hbt)
    rw [hcx, hk.traceId, hk.sampled, hk.traceState, h4, h5, h6] at this
    exact this

/-! ## Theorems -/

/-- C90: a request that starts in a context with a valid span context, and passes through any number of services, each with or without an SDK, each with any number of
nested spans, arrives in the same trace, with the same sampling decision and the same trace state. -/
theorem chain_one_trace {B : Type} {U : Nat → Type} (cx : Cx B U) (hv : (activeSpanContext cx).isValid = true) (hts : TraceState.Built (activeSpanContext cx).traceState)
    (c0 c : Carrier) (h : Chain (c0.setAll (W3C.inject cx)) c) :
    Carries c (activeSpanContext cx).traceId (activeSpanContext cx).isSampled (activeSpanContext cx).traceState.entries := by
  induction h with
  | none => exact inject_carries cx c0 hv hts
  | next _ hs ih => exact serves_carries hs ih

/-- C90: the spans of a service with an SDK belong to the trace of the request, and its first span has the sender's span as its parent. -/
theorem chain_linked {A I W B : Type} {U : Nat → Type} (env : Env A I B U W) (cfg : Config A (Sdk.Link A) B U W) (scope : I) (b : SpanBuilder A) (base : Cx B U)
    (st : PState A I W) (hs : base.suppress = false) (hd : st.isShutdown = false) (sender : Cx B U) (c0 : Carrier) (hv : (activeSpanContext sender).isValid = true)
    (hts : TraceState.Built (activeSpanContext sender).traceState) :
    let s := (buildWithContext env cfg scope b (W3C.extract base (c0.setAll (W3C.inject sender)).toExtractor) st).1
    s.spanContext.traceId = (activeSpanContext sender).traceId ∧ ∀ d, s.data = some d → d.parentSpanId = (activeSpanContext sender).spanId := by
  obtain ⟨sc, h1, h2, h3, _⟩ := W3C.w3c_roundtrip sender base c0 hv hts
  intro s
  have := child_linked env cfg scope b (W3C.extract base (c0.setAll (W3C.inject sender)).toExtractor) st (by rw [h1]; exact hs) hd sc (by rw [h1]; rfl)
  exact ⟨this.1.trans h2, fun d hdd => (this.2.2.2 d hdd).trans h3⟩

/-- C90 is violated in a service whose SDK is shut down, or which suppresses telemetry: the span it starts has no valid span context, so the next request carries no
trace, although a service without any SDK would pass the trace on. -/
theorem chain_broken_violated {A I W B : Type} {U : Nat → Type} (env : Env A I B U W) (cfg : Config A (Sdk.Link A) B U W) (scope : I) (b : SpanBuilder A) (cx : Cx B U)
    (st : PState A I W) (h : st.isShutdown = true ∨ cx.suppress = true) :
    W3C.inject (cx.withSpan (buildWithContext env cfg scope b cx st).1.spanContext) = [] ∧ W3C.inject (cx.withSpan (noopBuild cx)) = W3C.inject cx := by
  have hn : (buildWithContext env cfg scope b cx st).1.spanContext = SpanContext.none := by
    unfold buildWithContext
    rcases h with h | h
    · cases hsup : cx.suppress <;> simp [h, emptySpan]
    · simp [h, emptySpan]
  constructor
  · rw [hn]
    have : (activeSpanContext (cx.withSpan SpanContext.none)).isValid = false := by rw [show activeSpanContext (cx.withSpan SpanContext.none) = SpanContext.none from rfl]; decide
    simp only [W3C.inject, this]
    rfl
  · have : activeSpanContext (cx.withSpan (noopBuild cx)) = activeSpanContext cx := rfl
    simp only [W3C.inject, this]

/-! ## Witness -/

/-- The origin of the requests of the witness. -/
def exOrigin : SpanContext := ⟨0x4bf92f3577b34da6a3ce929d0e0e4736#128, 0x00f067aa0ba902b7#64, 1#8, false, ⟨some [("congo".toList, "t61".toList)]⟩⟩

/-- A service with an SDK, two nested spans and a sampler that would drop a root span serves any request. -/
theorem ex_sdk_serves (c : Carrier) : ∃ c', Serves c c' := by
  let base : Cx Unit (fun _ => Unit) := Ctx.Context.new
  let p := activeSpanContext (W3C.extract base c.toExtractor)
  let cfg := exampleCfg (.parentBased (Sampler.alwaysOff.shouldSample F64.someRounding))
  have h1 := Starts.sdk (parent := p) F64.someRounding exampleEnv cfg (Sampler.alwaysOff.shouldSample F64.someRounding) rfl () {} rfl (base.withSpan p) (exampleState 3)
    rfl rfl rfl (by decide)
  have h2 := Starts.sdk F64.someRounding exampleEnv cfg (Sampler.alwaysOff.shouldSample F64.someRounding) rfl () {} rfl (base.withSpan _) (exampleState 4)
    rfl rfl rfl (by decide) (parent := (buildWithContext exampleEnv cfg () {} (base.withSpan p) (exampleState 3)).1.spanContext)
  exact ⟨_, Serves.intro base _ (.start (.start .none h1) h2) (base.withSpan _) rfl []⟩

/-- A service without an SDK serves any request. -/
theorem ex_noop_serves (c : Carrier) : ∃ c', Serves c c' := by
  let base : Cx Unit (fun _ => Unit) := Ctx.Context.new
  exact ⟨_, Serves.intro base _ (.start .none (.noop (base.withSpan (activeSpanContext (W3C.extract base c.toExtractor))) rfl)) (base.withSpan _) rfl []⟩

/-- A sampled origin with a trace state, a service with an SDK and one without: the hypotheses of `chain_one_trace` hold, and the trace arrives. -/
example : ∃ c, Chain (Carrier.setAll [] (W3C.inject ((Ctx.Context.new : Cx Unit (fun _ => Unit)).withSpan exOrigin))) c
    ∧ Carries c 0x4bf92f3577b34da6a3ce929d0e0e4736#128 true [("congo".toList, "t61".toList)] := by
  obtain ⟨c1, h1⟩ := ex_sdk_serves (Carrier.setAll [] (W3C.inject ((Ctx.Context.new : Cx Unit (fun _ => Unit)).withSpan exOrigin)))
  obtain ⟨c2, h2⟩ := ex_noop_serves c1
  have hc := Chain.next (Chain.next Chain.none h1) h2
  exact ⟨c2, hc, chain_one_trace ((Ctx.Context.new : Cx Unit (fun _ => Unit)).withSpan exOrigin) (by decide +kernel) (.fromStr (s := "congo=t61".toList) (by decide)) _ _ hc⟩

end Otel.EndToEnd
