import Verif.EndToEnd.Hops
import Verif.EndToEnd.BaggageRoute
import Verif.Propagation.CompositeProps
/-!
# Trace and baggage together through any number of services (C115)

As `Hops` (C105) and `BaggageRoute` (C106), but each service uses the composite of the W3C trace context and the baggage propagator, in either order, and both travel in the
same request. The models of the parts are those of C06, C13, C18, C85 and C90; this file puts them together.
-/

namespace Otel.EndToEnd.Together
open Rust Otel.Prop Otel.EndToEnd.Baggages
open Otel.Baggage hiding Bag

/-- The propagator of a service: `TextMapCompositePropagator::new` with the trace context and the baggage propagator, in one of the two orders (composite.rs:77-112).
`order` is the iteration order of the hash map of the baggage. -/
def both (U : Nat → Type) (order : Bag.Order) (traceFirst : Bool) : Propagator Baggage.Bag U :=
  composite (if traceFirst then [W3C.propagator Baggage.Bag U, Bag.propagator order] else [Bag.propagator order, W3C.propagator Baggage.Bag U])

/-- A route from a service whose span context is `a`: the changes of the baggage made by all services so far, in order, and the active span context and the baggage of the
context at the end. -/
inductive Route (a : SpanContext) : List Op → SpanContext → Baggage.Bag → Prop where
  /-- the first service has no baggage -/
  | start : Route a [] a Bag.new
  /-- a service starts nested spans, with or without an SDK, and makes the last one the active span of its context -/
  | span {U : Nat → Type} {os : List Op} {sc sc' : SpanContext} {b : Baggage.Bag} (cx : Cx Baggage.Bag U) (hsc : activeSpanContext cx = sc) (hb : Bag.baggageOf cx = b) :
      Nested sc sc' → Route a os sc b → Route a os (activeSpanContext (cx.withSpan sc')) (Bag.baggageOf (cx.withSpan sc'))
  /-- a service changes its baggage -/
  | change {U : Nat → Type} {os : List Op} {sc : SpanContext} {b : Baggage.Bag} (cx : Cx Baggage.Bag U) (hsc : activeSpanContext cx = sc) (hb : Bag.baggageOf cx = b) (o : Op) :
      Route a os sc b → Route a (os ++ [o]) (activeSpanContext (cx.withBaggage (b.step o))) (Bag.baggageOf (cx.withBaggage (b.step o)))
  /-- a request over a string map: the receiver extracts into `base`. The request may have headers of other traces or baggage before, and `base` its own span and baggage;
  but when the sender has no baggage, so neither have they -/
  | request {U : Nat → Type} {os : List Op} {sc : SpanContext} {b : Baggage.Bag} (order : Bag.Order) (horder : ∀ es, (order es).Perm es) (out in' : Bool)
      (cx base : Cx Baggage.Bag U) (hsc : activeSpanContext cx = sc) (hb : Bag.baggageOf cx = b) (c : Carrier)
      (he : b.inner = [] → c.toExtractor.get Bag.header = none ∧ Bag.baggageOf base = Bag.new) :
      Route a os sc b → Route a os (activeSpanContext ((both U order in').extract base (c.setAll ((both U order out).inject cx)).toExtractor))
        (Bag.baggageOf ((both U order in').extract base (c.setAll ((both U order out).inject cx)).toExtractor))
  /-- a request over HTTP, which carries printable trace states and metadata -/
  | http {U : Nat → Type} {os : List Op} {sc : SpanContext} {b : Baggage.Bag} (order : Bag.Order) (horder : ∀ es, (order es).Perm es) (out in' : Bool)
      (cx base : Cx Baggage.Bag U) (hsc : activeSpanContext cx = sc) (hb : Bag.baggageOf cx = b) (r : Http.Rules) (m : Http.HeaderMap)
      (he : b.inner = [] → (Http.toExtractor m).get Bag.header = none ∧ Bag.baggageOf base = Bag.new)
      (hp : Http.Printable sc.traceState.header) (hi : ∀ e ∈ b.inner, Http.Printable e.info) :
      Route a os sc b → Route a os (activeSpanContext ((both U order in').extract base (Http.toExtractor (Http.setAll r m ((both U order out).inject cx)))))
        (Bag.baggageOf ((both U order in').extract base (Http.toExtractor (Http.setAll r m ((both U order out).inject cx)))))

/-! ## Lemmas -/

theorem active_withBaggage {U : Nat → Type} (cx : Cx Baggage.Bag U) (b : Baggage.Bag) : activeSpanContext (cx.withBaggage b) = activeSpanContext cx := rfl

theorem baggage_withSpan {U : Nat → Type} (cx : Cx Baggage.Bag U) (sc : SpanContext) : Bag.baggageOf (cx.withSpan sc) = Bag.baggageOf cx := rfl

theorem active_bag_extract {U : Nat → Type} (cx : Cx Baggage.Bag U) (ex : Extractor) : activeSpanContext (Bag.extract cx ex) = activeSpanContext cx := by
  unfold Bag.extract; split <;> rfl

theorem baggage_w3c_extract {U : Nat → Type} (cx : Cx Baggage.Bag U) (ex : Extractor) : Bag.baggageOf (W3C.extract cx ex) = Bag.baggageOf cx := by
  unfold W3C.extract; split <;> rfl

/-- Extraction by the composite: each member finds its own part. -/
theorem both_extract {U : Nat → Type} (order : Bag.Order) (x : Bool) (base : Cx Baggage.Bag U) (ex : Extractor) :
    (∃ base' : Cx Baggage.Bag U, activeSpanContext ((both U order x).extract base ex) = activeSpanContext (W3C.extract base' ex))
    ∧ ∃ base' : Cx Baggage.Bag U, Bag.baggageOf base' = Bag.baggageOf base ∧ Bag.baggageOf ((both U order x).extract base ex) = Bag.baggageOf (Bag.extract base' ex) := by
  cases x with
  | true =>
    have h : (both U order true).extract base ex = Bag.extract (W3C.extract base ex) ex := rfl
    rw [h]
    exact ⟨⟨base, active_bag_extract _ _⟩, W3C.extract base ex, baggage_w3c_extract _ _, rfl⟩
  | false =>
    have h : (both U order false).extract base ex = W3C.extract (Bag.extract base ex) ex := rfl
    rw [h]
    exact ⟨⟨_, rfl⟩, base, rfl, baggage_w3c_extract _ _⟩

/-- Trace context extraction reads the two headers only. -/
theorem w3c_extract_congr {U : Nat → Type} (base : Cx Baggage.Bag U) (ex ex' : Extractor) (h1 : ex.get W3C.traceparentHeader = ex'.get W3C.traceparentHeader)
    (h2 : ex.get W3C.tracestateHeader = ex'.get W3C.tracestateHeader) : W3C.extract base ex = W3C.extract base ex' := by
  have : W3C.extractSpanContext ex = W3C.extractSpanContext ex' := by
    have h3 : W3C.traceStateOf ex = W3C.traceStateOf ex' := by unfold W3C.traceStateOf; rw [h2]
    unfold W3C.extractSpanContext
    simp only [h1, h3]
  unfold W3C.extract
  rw [this]

/-- What the composite sets under each name is what the member sets. -/
theorem both_inject {U : Nat → Type} (order : Bag.Order) (x : Bool) (cx : Cx Baggage.Bag U) :
    lastSet (lower W3C.traceparentHeader) ((both U order x).inject cx) = lastSet (lower W3C.traceparentHeader) (W3C.inject cx)
    ∧ lastSet (lower W3C.tracestateHeader) ((both U order x).inject cx) = lastSet (lower W3C.tracestateHeader) (W3C.inject cx)
    ∧ lastSet (lower Bag.header) ((both U order x).inject cx) = lastSet (lower Bag.header) (Bag.inject order cx) := by
  have hb : ∀ k, k ≠ lower Bag.header → lastSet k (Bag.inject order cx) = none := by
    intro k hk
    unfold Bag.inject
    simp only
    split
    · rfl
    · simp [lastSet, Ne.symm hk]
  have hw : lastSet (lower Bag.header) (W3C.inject cx) = none := by
    unfold W3C.inject
    simp only
    split
    · have h1 : lower W3C.traceparentHeader ≠ lower Bag.header := by decide
      have h2 : lower W3C.tracestateHeader ≠ lower Bag.header := by decide
      simp [lastSet, h1, h2]
    · rfl
  have n1 : lower W3C.traceparentHeader ≠ lower Bag.header := by decide
  have n2 : lower W3C.tracestateHeader ≠ lower Bag.header := by decide
  cases x with
  | true =>
    have h : (both U order true).inject cx = W3C.inject cx ++ Bag.inject order cx := by
      show W3C.inject cx ++ (Bag.inject order cx ++ []) = _
      rw [List.append_nil]
    rw [h, lastSet_append, lastSet_append, lastSet_append, hb _ n1, hb _ n2, hw]
    exact ⟨rfl, rfl, by cases lastSet (lower Bag.header) (Bag.inject order cx) <;> rfl⟩
  | false =>
    have h : (both U order false).inject cx = Bag.inject order cx ++ W3C.inject cx := by
      show Bag.inject order cx ++ (W3C.inject cx ++ []) = _
      rw [List.append_nil]
    rw [h, lastSet_append, lastSet_append, lastSet_append, hb _ n1, hb _ n2, hw]
    exact ⟨by cases lastSet (lower W3C.traceparentHeader) (W3C.inject cx) <;> rfl, by cases lastSet (lower W3C.tracestateHeader) (W3C.inject cx) <;> rfl, rfl⟩

/-- What holds along a route. -/
structure Sound (a : SpanContext) (os : List Op) (sc : SpanContext) (b : Baggage.Bag) : Prop where
  valid : sc.isValid = true
  traceId : sc.traceId = a.traceId
  sampled : sc.isSampled = a.isSampled
  built : TraceState.Built sc.traceState
  entries : sc.traceState.entries = a.traceState.entries
  bag : Good os b

/-- What arrives at the other side of a request, whatever carries the headers. -/
theorem request_sound {a : SpanContext} {os : List Op} {sc : SpanContext} {b : Baggage.Bag} (h : Sound a os sc b) {U : Nat → Type} (order : Bag.Order)
    (horder : ∀ es, (order es).Perm es) (out in' : Bool) (cx base : Cx Baggage.Bag U) (hsc : activeSpanContext cx = sc) (hb : Bag.baggageOf cx = b) (ex0 ex : Extractor)
    (hget : ∀ k, ex.get k = (lastSet (lower k) ((both U order out).inject cx)).or (ex0.get k))
    (he : b.inner = [] → ex0.get Bag.header = none ∧ Bag.baggageOf base = Bag.new) :
    Sound a os (activeSpanContext ((both U order in').extract base ex)) (Bag.baggageOf ((both U order in').extract base ex)) := by
  obtain ⟨⟨b1, e1⟩, b2, e2, e3⟩ := both_extract order in' base ex
  obtain ⟨i1, i2, i3⟩ := both_inject order out cx
  have hv : (activeSpanContext cx).isValid = true := by rw [hsc]; exact h.valid
  have hset : W3C.inject cx = [(W3C.traceparentHeader, W3C.traceparentValue sc), (W3C.tracestateHeader, sc.traceState.header)] := by
    unfold W3C.inject
    rw [hsc] at hv ⊢
    simp only [hv, if_true]
  have hx : W3C.extract b1 ex = W3C.extract b1 (Carrier.setAll [] (W3C.inject cx)).toExtractor := by
    have n : ¬ lower W3C.tracestateHeader = lower W3C.traceparentHeader := by decide
    have n' : ¬ lower W3C.traceparentHeader = lower W3C.tracestateHeader := by decide
    apply w3c_extract_congr
    · rw [hget, get_setAll, i1, hset]; simp [lastSet, n]
    · rw [hget, get_setAll, i2, hset]; simp [lastSet, n']
  have p : Passes .w3c sc (activeSpanContext (W3C.extract b1 ex)) := by
    rw [hx]
    have := w3c_passes _ _ (W3C.w3c_roundtrip cx Ctx.Context.new [] hv (by rw [hsc]; exact h.built)) b1
    rwa [hsc] at this
  have g : Good os (Bag.baggageOf (Bag.extract b2 ex)) := by
    refine request_good h.bag order horder b2 ex (fun hne => ?_) (fun hne => ?_)
    · rw [hget, i3, inject_some order cx b hb, if_neg hne]; simp [lastSet]
    · rw [hget, i3, inject_some order cx b hb, if_pos hne, e2]
      exact ⟨(he hne).1, (he hne).2⟩
  rw [e1, e3]
  refine ⟨?_, p.traceId.trans h.traceId, p.sampled.trans h.sampled, p.built, ?_, g⟩
  · have := h.valid
    simp only [SpanContext.isValid, Bool.and_eq_true] at this ⊢
    rw [p.traceId, p.spanId]; exact this
  · rw [p.entries, if_pos rfl]; exact h.entries

/-- What the composite sets are valid headers. -/
theorem both_valid {U : Nat → Type} (order : Bag.Order) (horder : ∀ es, (order es).Perm es) (x : Bool) (cx : Cx Baggage.Bag U) (hv : (activeSpanContext cx).isValid = true)
    (hp : Http.Printable (activeSpanContext cx).traceState.header) (hpo : ∀ e ∈ (Bag.baggageOf cx).inner, Bag.Portable e)
    (hi : ∀ e ∈ (Bag.baggageOf cx).inner, Http.Printable e.info) : ∀ kv ∈ (both U order x).inject cx, Http.ValidName kv.1 ∧ Http.Printable kv.2 := by
  have hb : ∀ kv ∈ Bag.inject order cx, Http.ValidName kv.1 ∧ Http.Printable kv.2 := by
    intro kv hkv
    rw [inject_some order cx _ rfl] at hkv
    split at hkv
    · cases hkv
    · rw [List.mem_singleton] at hkv
      subst hkv
      refine ⟨Http.valid_baggage, Http.printable_join fun p hp' => ?_⟩
      obtain ⟨e, he', rfl⟩ := List.mem_map.1 hp'
      have he' := (horder _).mem_iff.1 he'
      unfold Bag.member
      refine Http.printable_append (Http.printable_append (Http.printable_append (Http.printable_append (Http.printable_encoded _) (printable_one _ (.inr (by decide))))
        (Http.printable_encoded _)) ?_) ?_
      · split
        · intro c hc; simp at hc
        · exact printable_one _ (.inr (by decide))
      · rw [(hpo e he').infoTrim]; exact hi e he'
  have hw := Http.w3c_inject_valid cx hv hp
  intro kv hkv
  cases x with
  | true =>
    have hkv : kv ∈ W3C.inject cx ++ (Bag.inject order cx ++ []) := hkv
    rw [List.append_nil] at hkv
    exact (List.mem_append.1 hkv).elim (hw kv) (hb kv)
  | false =>
    have hkv : kv ∈ Bag.inject order cx ++ (W3C.inject cx ++ []) := hkv
    rw [List.append_nil] at hkv
    exact (List.mem_append.1 hkv).elim (hb kv) (hw kv)

theorem route_sound {a : SpanContext} {os : List Op} {sc : SpanContext} {b : Baggage.Bag} (h : Route a os sc b) (hv : a.isValid = true) (ht : TraceState.Built a.traceState)
    (hm : Modest os) : Sound a os sc b := by
  induction h with
  | start => exact ⟨hv, rfl, rfl, ht, rfl, ⟨inv_new, by simp [Bag.new], by simp [Bag.new], fun k => rfl, by simp [Bag.new]⟩⟩
  | span cx hsc hb hn _ ih =>
    have s := ih hm
    have k := nested_keeps hn
    rw [baggage_withSpan, hb]
    exact ⟨k.valid s.valid, k.traceId.trans s.traceId, k.sampled.trans s.sampled, k.traceState ▸ s.built,
      (congrArg TraceState.entries k.traceState).trans s.entries, s.bag⟩
  | change cx hsc hb o _ ih =>
    have s := ih hm.init
    rw [active_withBaggage, hsc, Bag.baggageOf_withBaggage]
    exact ⟨s.valid, s.traceId, s.sampled, s.built, s.entries, step_good s.bag o hm⟩
  | request order horder out in' cx base hsc hb c he _ ih =>
    exact request_sound (ih hm) order horder out in' cx base hsc hb c.toExtractor _ (fun k => get_setAll c _ k) he
  | http order horder out in' cx base hsc hb r m he hp hi _ ih =>
    have s := ih hm
    refine request_sound s order horder out in' cx base hsc hb (Http.toExtractor m) _ (fun k => Http.http_get_setAll r m _ ?_ k) he
    refine both_valid order horder out cx (by rw [hsc]; exact s.valid) (by rw [hsc]; exact hp) (fun e he' => ?_) (fun e he' => ?_)
    · rw [hb] at he'; exact s.bag.portable e he'
    · rw [hb] at he'; exact hi e he'

/-! ## Theorems -/

/-- C115. A request that starts in a service with a valid span context and no baggage, and takes any route through services that start spans and change baggage and send both
with the composite propagator, in either order of its members at each service, over maps or HTTP, is everywhere in the same trace, with the same sampling decision and the same
trace state, and finds at each service for every key what the last change of it by any earlier service says: neither disturbs the other.

Missing: entries that are not portable (C13), baggage at the limits (C106), trace states and metadata that are not printable over HTTP (C85), and headers left from before when
there is no baggage to send, see `stale_baggage_violated`. -/
theorem route_together_partial {a : SpanContext} {os : List Op} {sc : SpanContext} {b : Baggage.Bag} (h : Route a os sc b) (hv : a.isValid = true)
    (ht : TraceState.Built a.traceState) (hm : Modest os) :
    sc.isValid = true ∧ sc.traceId = a.traceId ∧ sc.isSampled = a.isSampled ∧ sc.traceState.entries = a.traceState.entries ∧ ∀ k, b.get k = lastChange k os :=
  have s := route_sound h hv ht hm
  ⟨s.valid, s.traceId, s.sampled, s.entries, s.bag.get⟩

/-- C115: the first span an SDK starts in the context a receiver extracted has the span of the sender as its parent, and its context still has the baggage. -/
theorem receiver_linked {a : SpanContext} {os : List Op} {sc : SpanContext} {b : Baggage.Bag} (h : Route a os sc b) (hv : a.isValid = true)
    (ht : TraceState.Built a.traceState) (hm : Modest os) {U : Nat → Type} (order : Bag.Order) (horder : ∀ es, (order es).Perm es) (out in' : Bool)
    (cx base : Cx Baggage.Bag U) (hsc : activeSpanContext cx = sc) (hb : Bag.baggageOf cx = b) (c : Carrier)
    (he : b.inner = [] → c.toExtractor.get Bag.header = none ∧ Bag.baggageOf base = Bag.new)
    {A I W : Type} (env : Sdk.Env A I Baggage.Bag U W) (cfg : Sdk.Config A (Sdk.Link A) Baggage.Bag U W) (scope : I) (sb : Sdk.SpanBuilder A) (st : Sdk.PState A I W)
    (hd : st.isShutdown = false) :
    let got := (both U order in').extract base (c.setAll ((both U order out).inject cx)).toExtractor
    let span := (Sdk.buildWithContext env cfg scope sb got st).1
    got.suppress = false →
      (span.spanContext.traceId = a.traceId ∧ ∀ d, span.data = some d → d.parentSpanId = sc.spanId)
        ∧ ∀ k, (Bag.baggageOf (got.withSpan span.spanContext)).get k = lastChange k os := by
  intro got span hs
  have s := route_sound h hv ht hm
  have g := request_sound s order horder out in' cx base hsc hb c.toExtractor _ (fun k => get_setAll c _ k) he
  obtain ⟨⟨b1, e1⟩, _⟩ := both_extract order in' base (c.setAll ((both U order out).inject cx)).toExtractor
  have hne : got.span = some (activeSpanContext got) := by
    cases hgs : got.span with
    | some x => simp [activeSpanContext, hgs]
    | none =>
      have := g.valid
      have : (activeSpanContext got).isValid = true := this
      rw [activeSpanContext, hgs] at this
      exact absurd this (by decide)
  have hl := Sdk.child_linked env cfg scope sb got st hs hd (activeSpanContext got) hne
  have hsid : (activeSpanContext got).spanId = sc.spanId := by
    show (activeSpanContext ((both U order in').extract base _)).spanId = _
    rw [e1]
    obtain ⟨i1, i2, _⟩ := both_inject order out cx
    have hv' : (activeSpanContext cx).isValid = true := by rw [hsc]; exact s.valid
    have hx : W3C.extract b1 (c.setAll ((both U order out).inject cx)).toExtractor = W3C.extract b1 (c.setAll (W3C.inject cx)).toExtractor := by
      apply w3c_extract_congr
      · rw [get_setAll, get_setAll, i1]
      · rw [get_setAll, get_setAll, i2]
    rw [hx]
    have := w3c_passes _ _ (W3C.w3c_roundtrip cx Ctx.Context.new c hv' (by rw [hsc]; exact s.built)) b1
    rw [hsc] at this
    exact this.spanId
  refine ⟨⟨hl.1.trans g.traceId, fun d hdd => (hl.2.2.2 d hdd).trans hsid⟩, fun k => ?_⟩
  rw [baggage_withSpan]
  exact g.bag.get k

/-! ## What goes wrong -/

/-- C115 is violated when a service that has no baggage sends a request into headers that have some already (a forwarded request, or a retry that reuses the map): the
trace headers are replaced, the baggage header stays, and the receiver gets the trace of the sender with baggage that the sender does not have. -/
theorem stale_baggage_violated : ∃ (cx base : Cx Baggage.Bag (fun _ => Unit)) (c : Carrier), Bag.baggageOf cx = Bag.new ∧ Bag.baggageOf base = Bag.new
    ∧ ∀ out in' : Bool,
      let got := (both (fun _ => Unit) id in').extract base (c.setAll ((both (fun _ => Unit) id out).inject cx)).toExtractor
      (activeSpanContext got).traceId = (activeSpanContext cx).traceId ∧ (activeSpanContext got).isValid = true
        ∧ (Bag.baggageOf got).get "user".toList = some ("alice".toList, []) := by
  refine ⟨Ctx.Context.new.withSpan exOrigin, Ctx.Context.new, [("baggage".toList, "user=alice".toList)], rfl, rfl, ?_⟩
  intro out in'
  cases out <;> cases in' <;> exact ⟨by decide +kernel, by decide +kernel, by decide +kernel⟩

/-! ## Witness -/

/-- Three services: the first changes its baggage and sends a request over a map, the second starts a span, changes the baggage and sends a request over HTTP, with the members
of the composite in different orders. -/
example : ∃ os sc b, Route exOrigin os sc b ∧ Modest os ∧ os.length = 2 ∧ sc.traceId = exOrigin.traceId ∧ sc.isSampled = true
    ∧ b.get "user".toList = some ("ü".toList, "m".toList) := by
  let new : Cx Baggage.Bag (fun _ => Unit) := Ctx.Context.new
  have hid : ∀ es : List Entry, (id es).Perm es := fun es => List.Perm.refl es
  have h1 := Route.change (new.withSpan exOrigin) rfl rfl (.insert "user".toList "a, b".toList []) (Route.start (a := exOrigin))
  have h2 := Route.request (U := fun _ => Unit) id hid true false _ new rfl rfl [] (fun _ => ⟨rfl, rfl⟩) h1
  have h3 := Route.span _ rfl rfl (.start .none (.noop (new.withSpan _) rfl)) h2
  have h4 := Route.change _ rfl rfl (.insert "user".toList "ü".toList "m".toList) h3
  have m4 : Modest ([] ++ [Op.insert "user".toList "a, b".toList []] ++ [Op.insert "user".toList "ü".toList "m".toList]) := ⟨by decide, by decide +kernel, by
    intro k v m h
    simp only [List.nil_append, List.cons_append, List.mem_cons, List.not_mem_nil, or_false, Op.insert.injEq, reduceCtorEq, false_or] at h
    rcases h with ⟨rfl, rfl, rfl⟩ | ⟨rfl, rfl, rfl⟩ <;>
      exact ⟨(isKeyValid_iff _).1 (by decide), by decide, by decide, by decide, by decide, by decide, by decide, by decide⟩⟩
  have h5 := Route.http (U := fun _ => Unit) id hid false true _ new rfl rfl ⟨true⟩ [] (fun _ => ⟨rfl, rfl⟩)
    (by unfold Http.Printable; decide +kernel) (by unfold Http.Printable; decide +kernel) h4
  have k := route_together_partial h5 (by decide +kernel) (.fromStr (s := "congo=t61".toList) (by decide)) m4
  exact ⟨_, _, _, h5, m4, rfl, k.2.1, k.2.2.1, k.2.2.2.2 _⟩

end Otel.EndToEnd.Together
