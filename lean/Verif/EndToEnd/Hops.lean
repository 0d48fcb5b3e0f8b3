import Verif.EndToEnd.Chain
import Verif.Http.Headers
import Verif.Propagation.JaegerProps
/-!
# One trace through services with any propagators (C105)

As `Chain` (C90), but each pair of services may use W3C trace context, B3 in any encoding or Jaeger with any header name, and the request between them may carry its
headers in a string map or be an HTTP request. The models of the parts are those of C06, C15, C16, C20, C21 and C85; this file puts them together.
-/

namespace Otel.EndToEnd
open Rust Otel.Prop
open Otel.Sdk hiding Cx

/-- The format the two services of a request have agreed on. -/
inductive Format where
  | w3c | b3 | jaeger
deriving DecidableEq, Repr

/-- A service whose current span has the span context `sc` sends a request, in the given format; `sc'` is the active span context of the receiver once it has extracted,
into any context. The request may have other headers before. -/
inductive Hop : Format → SpanContext → SpanContext → Prop where
  | w3c {B : Type} {U : Nat → Type} (cx base : Cx B U) (c : Carrier) : Hop .w3c (activeSpanContext cx) (activeSpanContext (W3C.extract base (c.setAll (W3C.inject cx)).toExtractor))
  /-- over HTTP, whose headers are printable ASCII -/
  | w3cHttp {B : Type} {U : Nat → Type} (cx base : Cx B U) (r : Http.Rules) (m : Http.HeaderMap) (hm : Http.WF m)
      (hp : Http.Printable (activeSpanContext cx).traceState.header) :
      Hop .w3c (activeSpanContext cx) (activeSpanContext (W3C.extract base (Http.toExtractor (Http.setAll r m (W3C.inject cx)))))
  /-- the request had no B3 headers before -/
  | b3 {B : Type} {U : Nat → Type} (enc : B3.Encoding) (cx base : Cx B U) (c : Carrier) (hc : ∀ h ∈ B3.allHeaders, c.toExtractor.get h = none) :
      Hop .b3 (activeSpanContext cx) (activeSpanContext (B3.extract enc base (c.setAll (B3.inject enc cx)).toExtractor))
  | b3Http {B : Type} {U : Nat → Type} (enc : B3.Encoding) (cx base : Cx B U) (r : Http.Rules) (m : Http.HeaderMap) (hm : Http.WF m)
      (hc : ∀ h ∈ B3.allHeaders, (Http.toExtractor m).get h = none) :
      Hop .b3 (activeSpanContext cx) (activeSpanContext (B3.extract enc base (Http.toExtractor (Http.setAll r m (B3.inject enc cx)))))
  /-- no header of the request, nor the header of Jaeger, starts with the prefix for baggage -/
  | jaeger {B : Type} {U : Nat → Type} (header baggage : Str) (cx base : Cx B U) (c : Carrier)
      (hc : ∀ e ∈ c, (Jaeger.withCustom header baggage).baggagePrefix.isPrefixOf e.1 = false)
      (hh : (Jaeger.withCustom header baggage).baggagePrefix.isPrefixOf (lower (Jaeger.withCustom header baggage).headerName) = false) :
      Hop .jaeger (activeSpanContext cx)
        (activeSpanContext (Jaeger.extract (Jaeger.withCustom header baggage) base (c.setAll (Jaeger.inject (Jaeger.withCustom header baggage) cx)).toExtractor))
  /-- and over HTTP the header of Jaeger has a name that a header can have -/
  | jaegerHttp {B : Type} {U : Nat → Type} (header baggage : Str) (cx base : Cx B U) (r : Http.Rules) (m : Http.HeaderMap)
      (hc : ∀ e ∈ m, (Jaeger.withCustom header baggage).baggagePrefix.isPrefixOf e.1 = false)
      (hh : (Jaeger.withCustom header baggage).baggagePrefix.isPrefixOf (lower (Jaeger.withCustom header baggage).headerName) = false)
      (hn : Http.ValidName (Jaeger.withCustom header baggage).headerName) :
      Hop .jaeger (activeSpanContext cx)
        (activeSpanContext (Jaeger.extract (Jaeger.withCustom header baggage) base (Http.toExtractor (Http.setAll r m (Jaeger.inject (Jaeger.withCustom header baggage) cx)))))

/-- A route: any number of requests, with any number of nested spans (of services with or without an SDK, `Nested`) before and after each. The list has the formats of the
requests in their order. -/
inductive Route : List Format → SpanContext → SpanContext → Prop where
  | here (sc : SpanContext) : Route [] sc sc
  | span {fs : List Format} {a b c : SpanContext} : Route fs a b → Nested b c → Route fs a c
  | hop {fs : List Format} {f : Format} {a b c : SpanContext} : Route fs a b → Hop f b c → Route (fs ++ [f]) a c

/-! ## Specification -/

/-- Neither the debug nor the deferred flag of B3 is set. -/
def Plain (sc : SpanContext) : Prop := sc.flags.getLsbD 1 = false ∧ sc.flags.getLsbD 2 = false

/-! ## Lemmas -/

/-- The flags of a new span: those of the parent, apart from the sampled bit, or none. -/
theorem build_flags {A I W B : Type} {U : Nat → Type} (env : Env A I B U W) (cfg : Config A (Sdk.Link A) B U W) (scope : I) (b : SpanBuilder A) (cx : Cx B U)
    (st : PState A I W) (hs : cx.suppress = false) (hd : st.isShutdown = false) (parent : SpanContext) (hp : cx.span = some parent) :
    let f := (buildWithContext env cfg scope b cx st).1.spanContext.flags
    f = parent.flags.withSampled true ∨ f = parent.flags.withSampled false ∨ f = TraceFlags.notSampled := by
  obtain ⟨s0, w0, sr, w2, h0, _, hev⟩ := build_evolved env cfg scope b cx st hs hd
  have hf : (spanContextOf cx).flags = parent.flags := by rw [spanContextOf, hp]
  intro f
  have hff : f = s0.spanContext.flags := by show (buildWithContext env cfg scope b cx st).1.spanContext.flags = _; rw [hev.1]
  rw [hff, h0]
  unfold makeSpan
  rw [hf]
  cases sr.decision with
  | recordAndSample => left; simp only [buildRecordingSpan]; cases b.startTime <;> rfl
  | recordOnly => right; left; simp only [buildRecordingSpan]; cases b.startTime <;> rfl
  | drop => right; right; rfl

theorem starts_plain {a b : SpanContext} (h : Starts a b) (hp : Plain a) : Plain b := by
  cases h with
  | noop cx hcx =>
    have : noopBuild cx = a := by rw [noopBuild, activeSpanContext, hcx]; rfl
    rw [this]; exact hp
  | sdk r env cfg delegate hc scope b hb cx st hs hd hcx hid =>
    have := build_flags env cfg scope b cx st hs hd a hcx
    have key : ∀ f : TraceFlags, f.getLsbD 1 = false ∧ f.getLsbD 2 = false → ∀ g : TraceFlags,
        (g = f.withSampled true ∨ g = f.withSampled false ∨ g = TraceFlags.notSampled) → g.getLsbD 1 = false ∧ g.getLsbD 2 = false := by
      have k1 : ∀ f : TraceFlags, f.getLsbD 1 = false ∧ f.getLsbD 2 = false → (f.withSampled true).getLsbD 1 = false ∧ (f.withSampled true).getLsbD 2 = false := by
        decide +kernel
      have k2 : ∀ f : TraceFlags, f.getLsbD 1 = false ∧ f.getLsbD 2 = false → (f.withSampled false).getLsbD 1 = false ∧ (f.withSampled false).getLsbD 2 = false := by
        decide +kernel
      rintro f hf g (rfl | rfl | rfl)
      · exact k1 f hf
      · exact k2 f hf
      · decide
    exact key a.flags hp _ this

theorem nested_plain {a b : SpanContext} (h : Nested a b) (hp : Plain a) : Plain b := by
  induction h with
  | none => exact hp
  | start _ hs ih => exact starts_plain hs ih

/-- What a Jaeger receiver gets from any headers that have the value and no entry with the prefix. -/
theorem jaeger_extract_of (cfg : Jaeger.Config) (ex : Extractor) (sc : SpanContext) (hget : ex.get cfg.headerName = some (Jaeger.headerValue sc))
    (hk : ∀ k ∈ ex.keys, cfg.baggagePrefix.isPrefixOf k = false) :
    Jaeger.extractSpanContext cfg ex = some ⟨sc.traceId, sc.spanId, Jaeger.roundFlags sc.flags, true, TraceState.none⟩ := by
  have ht : Jaeger.headerText cfg ex = Jaeger.headerValue sc := by
    unfold Jaeger.headerText
    rw [hget]
    simp only [Option.getD_some, Jaeger.mem_headerValue, if_true]
  have hst : Jaeger.extractTraceState cfg ex = some TraceState.none := by
    unfold Jaeger.extractTraceState
    have : ex.keys.filter (fun k => cfg.baggagePrefix.isPrefixOf k) = [] := by
      rw [List.filter_eq_nil_iff]
      intro k hk'
      simp [hk k hk']
    rw [this]; rfl
  unfold Jaeger.extractSpanContext
  rw [ht, Jaeger.header_parts]
  simp only [Jaeger.extractTraceId_text, Jaeger.extractSpanId_text, Jaeger.extractFlags_digit, hst]

theorem printable_one (c : Char) (h : c = '\t' ∨ (' ' ≤ c ∧ c ≤ '~')) : Http.Printable [c] := fun d hd => by rw [List.mem_singleton] at hd; exact hd ▸ h

theorem printable_jaeger (sc : SpanContext) : Http.Printable (Jaeger.headerValue sc) := by
  unfold Jaeger.headerValue
  have hd : Http.Printable [Jaeger.flagDigit sc] := by
    rcases Jaeger.flagDigit_cases sc with h | h | h <;> rw [h] <;> exact printable_one _ (.inr (by decide))
  exact Http.printable_append (Http.printable_append (Http.printable_append (Http.printable_append (Http.printable_append (Http.printable_append (Http.printable_hex _ _)
    (printable_one _ (.inr (by decide)))) (Http.printable_hex _ _)) (printable_one _ (.inr (by decide)))) (printable_one _ (.inr (by decide))))
    (printable_one _ (.inr (by decide)))) hd

/-- The names in HTTP headers after one `set`. -/
theorem keys_set (r : Http.Rules) (m : Http.HeaderMap) (k v : Str) : ∀ e ∈ Http.set r m k v, e ∈ m ∨ e.1 = lower k := by
  intro e he
  unfold Http.set at he
  split at he
  · exact .inl he
  · rename_i n hn
    split at he
    · exact .inl he
    · rcases List.mem_cons.1 he with rfl | he
      · right
        unfold Http.headerName at hn
        split at hn
        · exact (Option.some.inj hn).symm
        · cases hn
      · exact .inl (List.mem_filter.1 he).1

/-- What a Jaeger receiver gets over HTTP. -/
theorem jaeger_http_found {B : Type} {U : Nat → Type} (cfg : Jaeger.Config) (r : Http.Rules) (m : Http.HeaderMap)
    (hc : ∀ e ∈ m, cfg.baggagePrefix.isPrefixOf e.1 = false) (hh : cfg.baggagePrefix.isPrefixOf (lower cfg.headerName) = false) (hn : Http.ValidName cfg.headerName)
    (cx : Cx B U) (hv : (activeSpanContext cx).isValid = true) :
    Jaeger.extractSpanContext cfg (Http.toExtractor (Http.setAll r m (Jaeger.inject cfg cx))) =
      some ⟨(activeSpanContext cx).traceId, (activeSpanContext cx).spanId, Jaeger.roundFlags (activeSpanContext cx).flags, true, TraceState.none⟩ := by
  have hset : Jaeger.inject cfg cx = [(cfg.headerName, Jaeger.headerValue (activeSpanContext cx))] := by simp [Jaeger.inject, hv]
  rw [hset]
  generalize hval : Jaeger.headerValue (activeSpanContext cx) = v
  have hpv : Http.Printable v := hval ▸ printable_jaeger _
  apply jaeger_extract_of
  · rw [Http.http_get_setAll r m _ (fun kv hkv => by rw [List.mem_singleton] at hkv; subst hkv; exact ⟨hn, hpv⟩), hval]
    simp [lastSet]
  · intro k hk
    obtain ⟨e, he, rfl⟩ := List.mem_map.1 (List.mem_eraseDups.1 hk)
    rcases keys_set r m _ _ e he with h | h
    · exact hc e h
    · rw [h]; exact hh

/-- What is kept by a request. -/
structure Passes (f : Format) (a b : SpanContext) : Prop where
  traceId : b.traceId = a.traceId
  spanId : b.spanId = a.spanId
  sampled : b.isSampled = a.isSampled
  remote : b.isRemote = true
  plain : Plain b
  built : TraceState.Built b.traceState
  entries : b.traceState.entries = if f = .w3c then a.traceState.entries else []

/-- What extraction finds does not depend on the context extracted into. -/
theorem w3c_found {B : Type} {U : Nat → Type} (ex : Extractor) (sc : SpanContext) (h : W3C.extract (Ctx.Context.new : Cx B U) ex = Ctx.Context.new.withSpan sc) :
    (∀ base : Cx B U, activeSpanContext (W3C.extract base ex) = sc) ∧ TraceState.Built sc.traceState := by
  have hx : W3C.extractSpanContext ex = some sc := by
    unfold W3C.extract at h
    cases hx : W3C.extractSpanContext ex with
    | none =>
      rw [hx] at h
      have := congrArg Ctx.Context.span h
      simp [Ctx.Context.withSpan, Ctx.Context.new] at this
    | some x =>
      rw [hx] at h
      have := congrArg Ctx.Context.span h
      simpa [Ctx.Context.withSpan] using this
  refine ⟨fun base => by unfold W3C.extract; rw [hx]; rfl, ?_⟩
  rcases W3C.extract_all_or_nothing (Ctx.Context.new : Cx B U) ex with e | ⟨s', e, _, _, _, _, hbt⟩
  · rw [h] at e
    have := congrArg Ctx.Context.span e
    simp [Ctx.Context.withSpan, Ctx.Context.new] at this
  · rw [h] at e
    have := congrArg Ctx.Context.span e
    have hs : sc = s' := by simpa [Ctx.Context.withSpan] using this
    rw [hs]; exact hbt

theorem w3c_passes {B : Type} {U : Nat → Type} (a : SpanContext) (ex : Extractor)
    (h : ∃ sc : SpanContext, W3C.extract (Ctx.Context.new : Cx B U) ex = Ctx.Context.new.withSpan sc ∧ sc.traceId = a.traceId ∧ sc.spanId = a.spanId ∧
      sc.isSampled = a.isSampled ∧ (sc.flags = 0#8 ∨ sc.flags = 1#8) ∧ sc.isRemote = true ∧ sc.traceState.entries = a.traceState.entries) (base : Cx B U) :
    Passes .w3c a (activeSpanContext (W3C.extract base ex)) := by
  obtain ⟨sc, h1, h2, h3, h4, h5, h6, h7⟩ := h
  obtain ⟨ha, hb⟩ := w3c_found ex sc h1
  rw [ha base]
  have hpl : Plain sc := by
    unfold Plain
    rcases h5 with h | h <;> rw [h] <;> decide
  exact ⟨h2, h3, h4, h6, hpl, hb, by rw [if_pos rfl]; exact h7⟩

theorem b3_passes {a : SpanContext} (enc : B3.Encoding) (hp : Plain a) :
    Passes .b3 a ⟨a.traceId, a.spanId, if enc.support .singleHeader then B3.singleFlags a.flags else B3.multiFlags a.flags, true, TraceState.none⟩ := by
  have k : ∀ f : TraceFlags, (f.getLsbD 1 = false ∧ f.getLsbD 2 = false) → ∀ x : Bool,
      ((if x then B3.singleFlags f else B3.multiFlags f).getLsbD 1 = false ∧ (if x then B3.singleFlags f else B3.multiFlags f).getLsbD 2 = false)
      ∧ (if x then B3.singleFlags f else B3.multiFlags f).isSampled = f.isSampled := by decide +kernel
  obtain ⟨k1, k2⟩ := k a.flags hp (enc.support .singleHeader)
  exact ⟨rfl, rfl, k2, rfl, k1, .default, rfl⟩

theorem jaeger_passes {a : SpanContext} (hp : Plain a) : Passes .jaeger a ⟨a.traceId, a.spanId, Jaeger.roundFlags a.flags, true, TraceState.none⟩ := by
  have k : ∀ f : TraceFlags, (f.getLsbD 1 = false ∧ f.getLsbD 2 = false) →
      ((Jaeger.roundFlags f).getLsbD 1 = false ∧ (Jaeger.roundFlags f).getLsbD 2 = false) ∧ (Jaeger.roundFlags f).isSampled = f.isSampled := by decide +kernel
  obtain ⟨k1, k2⟩ := k a.flags hp
  exact ⟨rfl, rfl, k2, rfl, k1, .default, rfl⟩

theorem hop_passes {f : Format} {a b : SpanContext} (h : Hop f a b) (hv : a.isValid = true) (hp : Plain a) (hb : TraceState.Built a.traceState) : Passes f a b := by
  cases h with
  | w3c cx base c => exact w3c_passes _ _ (W3C.w3c_roundtrip cx Ctx.Context.new c hv hb) base
  | w3cHttp cx base r m hm hpr => exact w3c_passes _ _ (Http.w3c_http_roundtrip_partial r m hm cx Ctx.Context.new hv hb hpr) base
  | b3 enc cx base c hc => rw [B3.b3_roundtrip_flags enc cx base c hc hv]; exact b3_passes enc hp
  | b3Http enc cx base r m hm hc =>
    have e := Http.http_as_map (B3.propagator _ _ enc) (Http.b3_byName _ _ enc) r m hm cx base (Http.b3_inject_valid enc cx hv)
    have e' := e.trans (B3.b3_roundtrip_flags enc cx base (Http.asCarrier m) (fun h hh => by rw [Http.get_asCarrier hm]; exact hc h hh) hv)
    rw [show B3.extract enc base (Http.toExtractor (Http.setAll r m (B3.inject enc cx))) = _ from e']
    exact b3_passes enc hp
  | jaeger header baggage cx base c hc hh =>
    have hset : c.setAll (Jaeger.inject (Jaeger.withCustom header baggage) cx) =
        c.set (Jaeger.withCustom header baggage).headerName (Jaeger.headerValue (activeSpanContext cx)) := by simp [Carrier.setAll, Jaeger.inject, hv]
    unfold Jaeger.extract
    rw [hset, Jaeger.extract_injected _ c _ hc hh]
    exact jaeger_passes hp
  | jaegerHttp header baggage cx base r m hc hh hn =>
    unfold Jaeger.extract
    rw [jaeger_http_found (Jaeger.withCustom header baggage) r m hc hh hn cx hv]
    exact jaeger_passes hp

/-! ## Theorems -/

/-- C105. A request that starts in a service whose current span has a valid span context, without the debug and deferred flags of B3, and takes any route through other
services, in any formats, over any carriers, with any nested spans, is everywhere in the same trace with the same sampling decision. It has the trace state with which it
started if all requests were in the format of W3C, and otherwise none.

Missing: debug and deferred contexts of B3 (see `route_debug_violated`), services that are shut down or suppress telemetry (C90), trace states that are not printable over HTTP
(C85), requests that carry headers of another trace already (the hypotheses of `Hop`). -/
theorem route_one_trace_partial {fs : List Format} {a b : SpanContext} (h : Route fs a b) (hv : a.isValid = true) (hp : Plain a) (hb : TraceState.Built a.traceState) :
    b.isValid = true ∧ b.traceId = a.traceId ∧ b.isSampled = a.isSampled
      ∧ b.traceState.entries = if ∀ f ∈ fs, f = .w3c then a.traceState.entries else [] := by
  suffices hh : b.isValid = true ∧ b.traceId = a.traceId ∧ b.isSampled = a.isSampled ∧ Plain b ∧ TraceState.Built b.traceState
      ∧ b.traceState.entries = if ∀ f ∈ fs, f = .w3c then a.traceState.entries else [] by
    exact ⟨hh.1, hh.2.1, hh.2.2.1, hh.2.2.2.2.2⟩
  induction h with
  | here => exact ⟨hv, rfl, rfl, hp, hb, by simp⟩
  | span _ hn ih =>
    obtain ⟨h1, h2, h3, h4, h5, h6⟩ := ih hv hp hb
    have k := nested_keeps hn
    exact ⟨k.valid h1, k.traceId.trans h2, k.sampled.trans h3, nested_plain hn h4, by rw [k.traceState]; exact h5, by rw [k.traceState]; exact h6⟩
  | @hop fs f a b c _ hh ih =>
    obtain ⟨h1, h2, h3, h4, h5, h6⟩ := ih hv hp hb
    have p := hop_passes hh h1 h4 h5
    refine ⟨?_, p.traceId.trans h2, p.sampled.trans h3, p.plain, p.built, ?_⟩
    · simp only [SpanContext.isValid, Bool.and_eq_true] at h1 ⊢
      rw [p.traceId, p.spanId]; exact h1
    · rw [p.entries, h6]
      by_cases hf : f = .w3c
      · subst hf
        rw [if_pos rfl]
        have : (∀ g ∈ fs ++ [Format.w3c], g = Format.w3c) ↔ ∀ g ∈ fs, g = Format.w3c :=
          ⟨fun h g hg => h g (List.mem_append_left _ hg), fun h g hg => (List.mem_append.1 hg).elim (h g) (List.mem_singleton.1)⟩
        simp only [this]
      · have : ¬ ∀ g ∈ fs ++ [f], g = Format.w3c := fun h => hf (h f (by simp))
        rw [if_neg hf, if_neg this]

/-- C105. The receiver of each request on such a route gets the span of the sender, marked as remote; the first span it starts in its SDK has that span as its parent and
belongs to the trace in which the request started. -/
theorem route_linked {fs : List Format} {f : Format} {a b c : SpanContext} (h : Route fs a b) (hh : Hop f b c) (hv : a.isValid = true) (hp : Plain a)
    (hb : TraceState.Built a.traceState) {A I W B : Type} {U : Nat → Type} (env : Env A I B U W) (cfg : Config A (Sdk.Link A) B U W) (scope : I) (sb : SpanBuilder A)
    (cx : Cx B U) (st : PState A I W) (hs : cx.suppress = false) (hd : st.isShutdown = false) (hcx : cx.span = some c) :
    c.spanId = b.spanId ∧ c.isRemote = true
      ∧ (buildWithContext env cfg scope sb cx st).1.spanContext.traceId = a.traceId
      ∧ ∀ d, (buildWithContext env cfg scope sb cx st).1.data = some d → d.parentSpanId = b.spanId := by
  have key : b.isValid = true ∧ b.traceId = a.traceId ∧ Plain b ∧ TraceState.Built b.traceState := by
    clear hcx hh
    induction h with
    | here => exact ⟨hv, rfl, hp, hb⟩
    | span _ hn ih =>
      obtain ⟨h1, h2, h4, h5⟩ := ih hv hp hb
      have k := nested_keeps hn
      exact ⟨k.valid h1, k.traceId.trans h2, nested_plain hn h4, by rw [k.traceState]; exact h5⟩
    | hop _ hh ih =>
      obtain ⟨h1, h2, h4, h5⟩ := ih hv hp hb
      have p := hop_passes hh h1 h4 h5
      refine ⟨?_, p.traceId.trans h2, p.plain, p.built⟩
      simp only [SpanContext.isValid, Bool.and_eq_true] at h1 ⊢
      rw [p.traceId, p.spanId]; exact h1
  have p := hop_passes hh key.1 key.2.2.1 key.2.2.2
  have := child_linked env cfg scope sb cx st hs hd c hcx
  exact ⟨p.spanId, p.remote, this.1.trans (p.traceId.trans key.2.1), fun d hdd => (this.2.2.2 d hdd).trans p.spanId⟩

/-! ## What goes wrong -/

/-- A sampled span of a debug trace, as extracted from the B3 headers `X-B3-Flags: 1`. -/
def debugOrigin : SpanContext := ⟨0x4bf92f3577b34da6a3ce929d0e0e4736#128, 0x00f067aa0ba902b7#64, 5#8, true, TraceState.none⟩

/-- C105 is violated for debug traces: sent in the single header of B3, a sampled debug context arrives as one that is not sampled, and a parent-based SDK there, with any other
settings, makes spans that are not recorded and that lose the debug flag. -/
theorem route_debug_violated :
    debugOrigin.isSampled = true ∧ ∃ c, Hop .b3 debugOrigin c ∧ c.isSampled = false
      ∧ ∀ {A I W B : Type} {U : Nat → Type} (r : F64.Rounding) (env : Env A I B U W) (cfg : Config A (Sdk.Link A) B U W) (delegate : ShouldSample A (Sdk.Link A) B U W)
          (_ : cfg.sampler = (Sampler.parentBased delegate).shouldSample r) (scope : I) (sb : SpanBuilder A) (_ : sb.samplingResult = none) (cx : Cx B U) (st : PState A I W)
          (_ : cx.suppress = false) (_ : st.isShutdown = false) (_ : cx.span = some c),
          (buildWithContext env cfg scope sb cx st).1.isRecording = false ∧ (buildWithContext env cfg scope sb cx st).1.spanContext.isSampled = false := by
  refine ⟨by decide, ⟨debugOrigin.traceId, debugOrigin.spanId, 4#8, true, TraceState.none⟩, ?_, by decide, ?_⟩
  · have h := Hop.b3 .singleHeader ((Ctx.Context.new : Cx Unit (fun _ => Unit)).withSpan debugOrigin) Ctx.Context.new [] (by decide)
    rw [B3.b3_roundtrip_flags .singleHeader _ _ [] (by decide) (by decide +kernel)] at h
    exact h
  · intro A I W B U r env cfg delegate hc scope sb hb cx st hs hd hcx
    obtain ⟨h1, h2, _⟩ := parent_based_child r env cfg delegate hc scope sb hb cx st hs hd _ hcx
    have h1' : (buildWithContext env cfg scope sb cx st).1.spanContext.isSampled = false := h1.trans (by decide)
    refine ⟨?_, h1'⟩
    cases hr : (buildWithContext env cfg scope sb cx st).1.isRecording with
    | false => rfl
    | true => rw [h2 hr] at h1'; cases h1'

/-! ## Witness -/

/-- Requests in all three formats, over a map and over HTTP, with services in between. -/
example : ∃ b, Route [.w3c, .b3, .jaeger] exOrigin b ∧ b.isValid = true ∧ b.traceId = exOrigin.traceId ∧ b.isSampled = true ∧ b.traceState.entries = [] := by
  let new : Cx Unit (fun _ => Unit) := Ctx.Context.new
  have r : Http.Rules := ⟨true⟩
  have h1 : ∃ b, Hop .w3c exOrigin b := ⟨_, Hop.w3cHttp (new.withSpan exOrigin) new r [] (by intro e he; cases he)
    (by show ∀ c ∈ "congo=t61".toList, _; decide)⟩
  obtain ⟨b1, h1⟩ := h1
  have n1 : Nested b1 b1 := .start .none (.noop (new.withSpan b1) rfl)
  have h2 : ∃ b, Hop .b3 b1 b := ⟨_, Hop.b3 .singleHeader (new.withSpan b1) new [] (by decide)⟩
  obtain ⟨b2, h2⟩ := h2
  have h3 : ∃ b, Hop .jaeger b2 b := ⟨_, Hop.jaegerHttp [] [] (new.withSpan b2) new r [] (by intro e he; cases he) (by decide +kernel) ⟨by decide, by decide, by decide⟩⟩
  obtain ⟨b3, h3⟩ := h3
  have h := Route.hop (Route.hop (Route.span (Route.hop (.here exOrigin) h1) n1) h2) h3
  obtain ⟨k1, k2, k3, k4⟩ := route_one_trace_partial h (by decide +kernel) ⟨by decide, by decide⟩ (.fromStr (s := "congo=t61".toList) (by decide))
  exact ⟨b3, h, k1, k2, k3, k4⟩

end Otel.EndToEnd
