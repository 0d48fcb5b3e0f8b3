import Verif.Sdk.TracerProps
/-! # C21–C23, C29: from the builder to the exported span -/

namespace Otel.Sdk
open Otel.Ctx Rust Spec

variable {A I W B : Type} {U : Nat → Type}

/-- **C29 (spans)** A span started after the provider's shutdown, with any builder, context and sampler: it does not record, its
context is the invalid one, no processor hears of it, and neither sampler nor id generator is called. -/
theorem no_span_after_shutdown (env : Env A I B U W) (cfg : Config A (Link A) B U W) (scope : I) (b : SpanBuilder A) (cx : Cx B U)
    (st : PState A I W) (hd : st.isShutdown = true) :
    (buildWithContext env cfg scope b cx st).1.isRecording = false
      ∧ (buildWithContext env cfg scope b cx st).1.spanContext = SpanContext.none
      ∧ (buildWithContext env cfg scope b cx st).2 = st := by
  unfold buildWithContext
  simp only [hd, if_true, ite_self]
  exact ⟨rfl, rfl, trivial⟩

/-- Processors that do not change or end a span in `on_start`. -/
def Passive (env : Env A I B U W) : Prop := ∀ p ∈ env.processors, ∀ s cx w, (p.onStart s cx w).1 = []

theorem startAll_passive (env : Env A I B U W) (cx : Cx B U) (i : Nat) (ps : List (Processor A I B U W))
    (hp : ∀ p ∈ ps, ∀ s cx w, (p.onStart s cx w).1 = []) (s : Span A I) (st : PState A I W) :
    (startAll env cx i ps (s, st)).1 = s ∧ (startAll env cx i ps (s, st)).2.isShutdown = st.isShutdown
      ∧ (startAll env cx i ps (s, st)).2.obs.ends = st.obs.ends := by
  induction ps generalizing i st with
  | nil => exact ⟨rfl, rfl, rfl⟩
  | cons p ps ih =>
    simp only [startAll, hp p (by simp) s cx st.world, List.foldl_nil]
    exact ih (i + 1) (fun q hq => hp q (by simp [hq])) _

/-- The sampling result that counts: the builder's if it has one, otherwise the sampler's answer for the new span's trace id, the
context as parent, and the name, kind, attributes and links of the builder. -/
def IsDecision (cfg : Config A (Link A) B U W) (b : SpanBuilder A) (cx : Cx B U) (traceId : TraceId) (sr : SamplingResult A) : Prop :=
  b.samplingResult = some sr ∨
  (b.samplingResult = none ∧ ∃ w, sr = (cfg.sampler ⟨some cx, traceId, b.name, b.spanKind.getD .internal, b.attributes.getD [],
    b.links.getD []⟩ w).1)

/-- **C20/C21 (decision)** A new span is sampled exactly if the decision is `RecordAndSample`, carries the decision's trace state, and
does not record if the decision is `Drop`. -/
theorem span_follows_decision (env : Env A I B U W) (cfg : Config A (Link A) B U W) (scope : I) (b : SpanBuilder A) (cx : Cx B U)
    (st : PState A I W) (hs : cx.suppress = false) (hd : st.isShutdown = false) :
    ∃ sr, IsDecision cfg b cx (buildWithContext env cfg scope b cx st).1.spanContext.traceId sr
      ∧ ((buildWithContext env cfg scope b cx st).1.spanContext.isSampled = true ↔ sr.decision = .recordAndSample)
      ∧ (buildWithContext env cfg scope b cx st).1.spanContext.traceState = sr.traceState
      ∧ (sr.decision = .drop → (buildWithContext env cfg scope b cx st).1.isRecording = false) := by
  obtain ⟨s0, w0, sr, w2, h0, hsr, hev⟩ := build_evolved env cfg scope b cx st hs hd
  obtain ⟨m1, m2, m3, m4, m5, m6, m7⟩ := makeSpan_context env cfg scope b cx (pickSpanId cfg b st.world).1
          (pickTraceId cfg b cx (worldAtTraceId cfg b st.world)).1 sr w2
  rw [← h0] at m1 m4 m5 m6
  obtain ⟨e1, e2, e3, e4⟩ := hev
  refine ⟨sr, ?_, ?_, ?_, ?_⟩
  · rw [e1, m1, hsr]
    unfold pickSampling IsDecision
    cases b.samplingResult with
    | some x => exact Or.inl rfl
    | none => exact Or.inr ⟨rfl, w0, rfl⟩
  · rw [e1]; exact m5
  · rw [e1]; exact m4
  · intro hdrop
    have hnr : s0.isRecording ≠ true := fun hr => m6.1 hr hdrop
    rcases e4 with e4 | ⟨es, d, hd', _⟩
    · simp [Span.isRecording, e4]
    · exact absurd (by simp [Span.isRecording, hd']) hnr

/-- **C20 (builder)** If the builder has a sampling result the sampler is not consulted: its code does not matter. -/
theorem builder_decision_final (env : Env A I B U W) (cfg : Config A (Link A) B U W) (sampler : ShouldSample A (Link A) B U W)
    (scope : I) (b : SpanBuilder A) (cx : Cx B U) (st : PState A I W) (sr : SamplingResult A) (hb : b.samplingResult = some sr) :
    buildWithContext env { cfg with sampler := sampler } scope b cx st = buildWithContext env cfg scope b cx st := by
  unfold buildWithContext
  split
  · rfl
  · split
    · rfl
    · simp only [pickSampling, hb]
      rfl

/-- A new recording span. -/
theorem build_passive (env : Env A I B U W) (hp : Passive env) (cfg : Config A (Link A) B U W) (scope : I) (b : SpanBuilder A)
    (cx : Cx B U) (st : PState A I W) (hs : cx.suppress = false) (hd : st.isShutdown = false) :
    ∃ sr, IsDecision cfg b cx (buildWithContext env cfg scope b cx st).1.spanContext.traceId sr ∧
      (buildWithContext env cfg scope b cx st).2.isShutdown = false ∧
      (buildWithContext env cfg scope b cx st).2.obs.ends = st.obs.ends ∧
      (sr.decision ≠ .drop → ∃ start, (∀ t, b.startTime = some t → start = t) ∧
        (buildWithContext env cfg scope b cx st).1 = ⟨(buildWithContext env cfg scope b cx st).1.spanContext,
          some (recordingData cfg.limits (spanContextOf cx) b sr.attributes start), scope, cfg.limits⟩) := by
  have hx : ∃ sr w2 w3, buildWithContext env cfg scope b cx st = startAll env cx 0 env.processors
      ((makeSpan env cfg scope b cx (pickSpanId cfg b st.world).1 (pickTraceId cfg b cx (pickSpanId cfg b st.world).2).1 sr w2).1,
        { st with world := w3 }) ∧ IsDecision cfg b cx (pickTraceId cfg b cx (pickSpanId cfg b st.world).2).1 sr := by
    refine ⟨(pickSampling cfg b cx (pickTraceId cfg b cx (pickSpanId cfg b st.world).2).1
        (pickTraceId cfg b cx (pickSpanId cfg b st.world).2).2).1, ?_, ?_, ?_, ?_⟩
    rotate_left 2
    · simp only [buildWithContext, hs, hd, Bool.false_eq_true, if_false]
      rfl
    · unfold pickSampling IsDecision
      cases b.samplingResult with
      | some x => exact Or.inl rfl
      | none => exact Or.inr ⟨rfl, _, rfl⟩
  obtain ⟨sr, w2, w3, hx, hdec⟩ := hx
  obtain ⟨p1, p2, p3⟩ := startAll_passive env cx 0 env.processors hp
    (makeSpan env cfg scope b cx (pickSpanId cfg b st.world).1 (pickTraceId cfg b cx (pickSpanId cfg b st.world).2).1 sr w2).1
    { st with world := w3 }
  rw [← hx] at p1 p2 p3
  obtain ⟨m1, _⟩ := makeSpan_context env cfg scope b cx (pickSpanId cfg b st.world).1
    (pickTraceId cfg b cx (pickSpanId cfg b st.world).2).1 sr w2
  refine ⟨sr, ?_, by rw [p2]; exact hd, by rw [p3], ?_⟩
  · rw [p1, m1]; exact hdec
  · intro hne
    have hpsc : (match cx.span with | some sc => sc | none => SpanContext.none) = spanContextOf cx := by
      unfold spanContextOf; cases cx.span <;> rfl
    rw [p1]
    unfold makeSpan
    simp only [hpsc]
    cases hdd : sr.decision with
    | drop => exact absurd hdd hne
    | recordAndSample =>
      simp only [buildRecordingSpan]
      cases hst : b.startTime with
      | some t => exact ⟨t, fun _ h => by injection h, rfl⟩
      | none => exact ⟨_, (by intro _ h; cases h), rfl⟩
    | recordOnly =>
      simp only [buildRecordingSpan]
      cases hst : b.startTime with
      | some t => exact ⟨t, fun _ h => by injection h, rfl⟩
      | none => exact ⟨_, (by intro _ h; cases h), rfl⟩

/-- **C22/C23 (whole life, ended)** A span started with any builder in any context and not dropped by sampling, used by any calls
`pre`, ended at `t`, then used and ended in any way (`post`) and dropped: every processor gets it exactly once, with the ids, parent,
kind, scope, name, times, and the recorded attributes, events and links within the configured limits. -/
theorem span_life (env : Env A I B U W) (hp : Passive env) (cfg : Config A (Link A) B U W) (scope : I) (b : SpanBuilder A)
    (cx : Cx B U) (st : PState A I W) (hs : cx.suppress = false) (hd : st.isShutdown = false) :
    ∃ sr, IsDecision cfg b cx (buildWithContext env cfg scope b cx st).1.spanContext.traceId sr ∧
      (sr.decision ≠ .drop → ∀ (pre post : List (HistOp A W)) (t : Time), Quiet pre → ∃ x : Exported A I,
        (dropSpan env (runHist env (pre ++ .op (.endAt t) :: post) (buildWithContext env cfg scope b cx st))).obs.ends
          = st.obs.ends ++ oncePerProcessor env.processors.length x
        ∧ x.spanContext = (buildWithContext env cfg scope b cx st).1.spanContext ∧ x.scope = scope ∧ x.data.endTime = t
        ∧ (∀ t0, b.startTime = some t0 → x.data.startTime = t0)
        ∧ x.data.parentSpanId = (spanContextOf cx).spanId ∧ x.data.spanKind = b.spanKind.getD .internal
        ∧ x.data.name = (namesGiven (editsOf pre)).getLastD b.name
        ∧ Holds cfg.limits (b.attributes.getD [] ++ sr.attributes ++ attributesSet (editsOf pre))
            (b.events.getD [] ++ eventsAdded (editsOf pre)) (b.links.getD [] ++ linksAdded (editsOf pre)) x.data) := by
  obtain ⟨sr, hdec, h1, h2, h3⟩ := build_passive env hp cfg scope b cx st hs hd
  refine ⟨sr, hdec, fun hne pre post t hq => ?_⟩
  obtain ⟨start, hst, hsp⟩ := h3 hne
  obtain ⟨x, hx, a1, a2, a3, a4, a5, a6, a7, a8⟩ := span_limits env cfg.limits (spanContextOf cx)
    (buildWithContext env cfg scope b cx st).1.spanContext b sr.attributes scope start _ h1 pre post hq t
  refine ⟨x, ?_, a1, a2, a3, fun t0 h => by rw [a4, hst t0 h], a5, a6, a7, a8⟩
  rw [← h2, ← hx, ← hsp]

/-- **C23 (whole life, never ended)** Such a span that is only dropped: every processor gets it exactly once; its end time is the
builder's if the builder gives start and end and they differ. -/
theorem span_life_dropped (env : Env A I B U W) (hp : Passive env) (cfg : Config A (Link A) B U W) (scope : I) (b : SpanBuilder A)
    (cx : Cx B U) (st : PState A I W) (hs : cx.suppress = false) (hd : st.isShutdown = false) :
    ∃ sr, IsDecision cfg b cx (buildWithContext env cfg scope b cx st).1.spanContext.traceId sr ∧
      (sr.decision ≠ .drop → ∀ (h : List (HistOp A W)), Quiet h → ∃ x : Exported A I,
        (dropSpan env (runHist env h (buildWithContext env cfg scope b cx st))).obs.ends
          = st.obs.ends ++ oncePerProcessor env.processors.length x
        ∧ x.spanContext = (buildWithContext env cfg scope b cx st).1.spanContext ∧ x.scope = scope
        ∧ (∀ t0 t1, b.startTime = some t0 → b.endTime = some t1 → t0 ≠ t1 → x.data.startTime = t0 ∧ x.data.endTime = t1)
        ∧ Holds cfg.limits (b.attributes.getD [] ++ sr.attributes ++ attributesSet (editsOf h))
            (b.events.getD [] ++ eventsAdded (editsOf h)) (b.links.getD [] ++ linksAdded (editsOf h)) x.data) := by
  obtain ⟨sr, hdec, h1, h2, h3⟩ := build_passive env hp cfg scope b cx st hs hd
  refine ⟨sr, hdec, fun hne h hq => ?_⟩
  obtain ⟨start, hst, hsp⟩ := h3 hne
  have hdat : (buildWithContext env cfg scope b cx st).1.data = some (recordingData cfg.limits (spanContextOf cx) b sr.attributes start) := by
    rw [hsp]
  have hlim : (buildWithContext env cfg scope b cx st).1.limits = cfg.limits := by rw [hsp]
  have hsc : (buildWithContext env cfg scope b cx st).1.scope = scope := by rw [hsp]
  have hx := dropped_once env (buildWithContext env cfg scope b cx st).1 (buildWithContext env cfg scope b cx st).2 _ hdat h1 h hq
  rw [h2, hlim, hsc] at hx
  obtain ⟨_, _, e3, e4, _⟩ := editAll_other cfg.limits (editsOf h) (recordingData cfg.limits (spanContextOf cx) b sr.attributes start)
  refine ⟨_, hx, rfl, rfl, ?_, ?_⟩
  · intro t0 t1 ht0 ht1 hne'
    have es : start = t0 := hst t0 ht0
    have hend : (recordingData cfg.limits (spanContextOf cx) b sr.attributes start).endTime = t1 := by simp [recordingData, ht1]
    have hsta : (recordingData cfg.limits (spanContextOf cx) b sr.attributes start).startTime = t0 := es
    refine ⟨e3.trans hsta, ?_⟩
    simp only [hend, hsta, if_neg (Ne.symm hne')]
  · obtain ⟨a1, a2, a3, a4, a5⟩ := holds_edits (editsOf h) (holds_init cfg.limits (spanContextOf cx) b sr.attributes start)
    exact ⟨a1, a2, a3, a4, a5⟩

/-- **C22 (builder links)** Links given with `with_links` that point to an invalid context are left out, the others kept in order:
no exported link that came from the builder is invalid. -/
theorem with_links_valid (b : SpanBuilder A) (ls : List (Link A)) (l : SpanLimits) (psc : SpanContext) (attrs : List A) (t : Time) :
    (∀ k ∈ (recordingData l psc (b.withLinks ls) attrs t).links.links, k.spanContext.traceId ≠ 0#128 ∧ k.spanContext.spanId ≠ 0#64) ∧
    ((∀ k ∈ ls, k.spanContext.traceId ≠ 0#128 ∧ k.spanContext.spanId ≠ 0#64) → ls.length ≤ l.maxLinksPerSpan.toNat →
      (recordingData l psc (b.withLinks ls) attrs t).links.links.map Link.spanContext = ls.map Link.spanContext) := by
  have hv : ∀ sc : SpanContext, sc.isValid = true ↔ sc.traceId ≠ 0#128 ∧ sc.spanId ≠ 0#64 := by
    intro sc; simp [SpanContext.isValid, TraceId.invalid, SpanId.invalid]
  refine ⟨fun k hk => ?_, fun hall hlen => ?_⟩
  · simp only [recordingData, SpanBuilder.withLinks, builderLinks, List.mem_map] at hk
    obtain ⟨k', hk', rfl⟩ := hk
    have := List.mem_of_mem_take hk'
    rw [List.mem_filter, hv] at this
    exact this.2
  · have hf : ls.filter (fun k => k.spanContext.isValid) = ls := by
      rw [List.filter_eq_self]; intro k hk; rw [hv]; exact hall k hk
    simp only [recordingData, SpanBuilder.withLinks, builderLinks, hf, List.take_of_length_le hlen, List.map_map]
    rfl

/-! ## Non-vacuity -/

/-- A recording span with a start and an end in the builder, dropped under two passive processors. -/
example : Passive exampleEnv := by
  intro p hp s cx w
  simp only [exampleEnv] at hp
  revert hp
  simp (config := { contextual := true }) [or_imp]

end Otel.Sdk
