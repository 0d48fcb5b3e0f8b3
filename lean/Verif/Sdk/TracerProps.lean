import Verif.Sdk.SpanProps
import Verif.Sdk.SamplerProps
/-! # C20, C21, C30 (spans), C63, C64: starting spans -/

namespace Otel.Sdk
open Otel.Ctx Rust Spec

variable {A I W B : Type} {U : Nat → Type}

/-! ## What processors can do to a new span -/

/-- `s'` is `s` after some edits, or after its end. Its identity is that of `s`. -/
def Evolved (s s' : Span A I) : Prop :=
  s'.spanContext = s.spanContext ∧ s'.limits = s.limits ∧ s'.scope = s.scope ∧
    (s'.data = none ∨ ∃ es d, s.data = some d ∧ s'.data = some (editAll s.limits es d))

theorem Evolved.refl (s : Span A I) : Evolved s s := by
  refine ⟨rfl, rfl, rfl, ?_⟩
  cases h : s.data with
  | none => exact Or.inl rfl
  | some d => exact Or.inr ⟨[], d, rfl, rfl⟩

theorem Evolved.trans {a b c : Span A I} (h1 : Evolved a b) (h2 : Evolved b c) : Evolved a c := by
  obtain ⟨c1, l1, s1, d1⟩ := h1
  obtain ⟨c2, l2, s2, d2⟩ := h2
  refine ⟨c2.trans c1, l2.trans l1, s2.trans s1, ?_⟩
  rcases d2 with d2 | ⟨es2, d, hd, d2⟩
  · exact Or.inl d2
  · rcases d1 with d1 | ⟨es1, d', hd', d1⟩
    · rw [d1] at hd; cases hd
    · right
      rw [d1] at hd; injection hd with hd; subst hd
      exact ⟨es1 ++ es2, d', hd', by rw [d2, l1, editAll, editAll, editAll, List.foldl_append]⟩

theorem ensureEnded_evolved (env : Env A I B U W) (ts : Option Time) (s : Span A I) (st : PState A I W) :
    Evolved s (ensureEnded env ts s st).1 := by
  unfold ensureEnded
  split
  · exact Evolved.refl s
  · split
    · exact ⟨rfl, rfl, rfl, Or.inl rfl⟩
    · split
      · exact ⟨rfl, rfl, rfl, Or.inl rfl⟩
      · split <;> exact ⟨rfl, rfl, rfl, Or.inl rfl⟩

theorem op_evolved (env : Env A I B U W) (o : SpanOp A) (s : Span A I) (st : PState A I W) :
    Evolved s (o.run env (s, st)).1 := by
  cases o with
  | edit e =>
    refine ⟨rfl, rfl, rfl, ?_⟩
    cases h : s.data with
    | none => exact Or.inl (by simp [SpanOp.run, Span.edit, h])
    | some d => exact Or.inr ⟨[e], d, rfl, by simp [SpanOp.run, Span.edit, h, editAll]⟩
  | endAt t => exact ensureEnded_evolved env _ s st
  | endNow => exact ensureEnded_evolved env _ s _

theorem ops_evolved (env : Env A I B U W) (os : List (SpanOp A)) (s : Span A I) (st : PState A I W) :
    Evolved s (os.foldl (fun x o => o.run env x) (s, st)).1 := by
  induction os generalizing s st with
  | nil => exact Evolved.refl s
  | cons o os ih => exact (op_evolved env o s st).trans (ih _ _)

theorem startAll_evolved (env : Env A I B U W) (cx : Cx B U) (i : Nat) (ps : List (Processor A I B U W)) (s : Span A I)
    (st : PState A I W) : Evolved s (startAll env cx i ps (s, st)).1 := by
  induction ps generalizing i s st with
  | nil => exact Evolved.refl s
  | cons p ps ih =>
    simp only [startAll]
    exact (ops_evolved env _ s _).trans (ih _ _ _)

/-- The world when the trace id is drawn: after the span id. -/
def worldAtTraceId (cfg : Config A (Link A) B U W) (b : SpanBuilder A) (w : W) : W :=
  match b.spanId with
  | some _ => w
  | none => (cfg.newSpanId w).2

theorem makeSpan_context (env : Env A I B U W) (cfg : Config A (Link A) B U W) (scope : I) (b : SpanBuilder A) (cx : Cx B U)
    (si : SpanId) (ti : TraceId) (sr : SamplingResult A) (w : W) :
    (makeSpan env cfg scope b cx si ti sr w).1.spanContext.traceId = ti
      ∧ (makeSpan env cfg scope b cx si ti sr w).1.spanContext.spanId = si
      ∧ (makeSpan env cfg scope b cx si ti sr w).1.spanContext.isRemote = false
      ∧ (makeSpan env cfg scope b cx si ti sr w).1.spanContext.traceState = sr.traceState
      ∧ ((makeSpan env cfg scope b cx si ti sr w).1.spanContext.isSampled = true ↔ sr.decision = .recordAndSample)
      ∧ ((makeSpan env cfg scope b cx si ti sr w).1.isRecording = true ↔ sr.decision ≠ .drop)
      ∧ ∀ d, (makeSpan env cfg scope b cx si ti sr w).1.data = some d →
          d.parentSpanId = (match cx.span with | some sc => sc.spanId | none => SpanId.invalid) := by
  have hs : ∀ f : TraceFlags, (f.withSampled true).isSampled = true := by decide
  have hn : ∀ f : TraceFlags, (f.withSampled false).isSampled = false := by decide
  have hz : TraceFlags.notSampled.isSampled = false := by decide
  unfold makeSpan
  cases hd : sr.decision with
  | recordAndSample =>
    simp only [buildRecordingSpan]
    cases b.startTime <;> simp only [SpanContext.isSampled, hs, Span.isRecording] <;>
      refine ⟨trivial, trivial, trivial, trivial, by simp, by simp, ?_⟩ <;>
      · intro d hd; injection hd with hd; subst hd; cases cx.span <;> rfl
  | recordOnly =>
    simp only [buildRecordingSpan]
    cases b.startTime <;> simp only [SpanContext.isSampled, hn, Span.isRecording] <;>
      refine ⟨trivial, trivial, trivial, trivial, by simp, by simp, ?_⟩ <;>
      · intro d hd; injection hd with hd; subst hd; cases cx.span <;> rfl
  | drop =>
    simp only [SpanContext.isSampled, hz, Span.isRecording]
    refine ⟨trivial, trivial, trivial, trivial, by simp, by simp, ?_⟩
    intro d hd; cases hd

/-- The result of `build_with_context` when tracing is on, up to what the processors did to it. -/
theorem build_evolved (env : Env A I B U W) (cfg : Config A (Link A) B U W) (scope : I) (b : SpanBuilder A) (cx : Cx B U)
    (st : PState A I W) (hs : cx.suppress = false) (hd : st.isShutdown = false) :
    ∃ s0 w0 sr w2, s0 = (makeSpan env cfg scope b cx (pickSpanId cfg b st.world).1
          (pickTraceId cfg b cx (worldAtTraceId cfg b st.world)).1 sr w2).1
      ∧ sr = (pickSampling cfg b cx (pickTraceId cfg b cx (worldAtTraceId cfg b st.world)).1 w0).1
      ∧ Evolved s0 (buildWithContext env cfg scope b cx st).1 := by
  have hw : (pickSpanId cfg b st.world).2 = worldAtTraceId cfg b st.world := by
    unfold pickSpanId worldAtTraceId; cases b.spanId <;> rfl
  simp only [buildWithContext, hs, hd, Bool.false_eq_true, if_false]
  rw [hw]
  exact ⟨_, _, _, _, rfl, rfl, startAll_evolved env cx 0 env.processors _ _⟩

/-! ## C21 -/

/-- **C21 (child)** A span started under an active parent: the parent's trace id, the parent's span id as parent id, its own
span id from the builder or the generator, and it is not remote. -/
theorem child_linked (env : Env A I B U W) (cfg : Config A (Link A) B U W) (scope : I) (b : SpanBuilder A) (cx : Cx B U)
    (st : PState A I W) (hs : cx.suppress = false) (hd : st.isShutdown = false) (parent : SpanContext)
    (hp : cx.span = some parent) :
    let s := (buildWithContext env cfg scope b cx st).1
    s.spanContext.traceId = parent.traceId ∧ s.spanContext.spanId = b.spanId.getD (cfg.newSpanId st.world).1
      ∧ s.spanContext.isRemote = false ∧ ∀ d, s.data = some d → d.parentSpanId = parent.spanId := by
  obtain ⟨s0, w0, sr, w2, h0, hsr, hev⟩ := build_evolved env cfg scope b cx st hs hd
  obtain ⟨m1, m2, m3, m4, m5, m6, m7⟩ := makeSpan_context env cfg scope b cx (pickSpanId cfg b st.world).1
          (pickTraceId cfg b cx (worldAtTraceId cfg b st.world)).1 sr w2
  rw [← h0] at m1 m2 m3 m7
  obtain ⟨e1, e2, e3, e4⟩ := hev
  dsimp only
  rw [e1]
  refine ⟨?_, ?_, m3, ?_⟩
  · rw [m1, pickTraceId, hp]
  · rw [m2, pickSpanId]; cases b.spanId <;> rfl
  · intro d hdd
    rcases e4 with e4 | ⟨es, d', hd', e4⟩
    · rw [e4] at hdd; cases hdd
    · rw [e4] at hdd; injection hdd with hdd
      rw [← hdd, (editAll_other s0.limits es d').1, m7 d' hd', hp]

/-- **C21 (root)** A span started without parent: trace id from the builder or the generator, and no parent id. -/
theorem root_linked (env : Env A I B U W) (cfg : Config A (Link A) B U W) (scope : I) (b : SpanBuilder A) (cx : Cx B U)
    (st : PState A I W) (hs : cx.suppress = false) (hd : st.isShutdown = false) (hp : cx.span = none) :
    let s := (buildWithContext env cfg scope b cx st).1
    s.spanContext.traceId = b.traceId.getD (cfg.newTraceId (worldAtTraceId cfg b st.world)).1
      ∧ s.spanContext.spanId = b.spanId.getD (cfg.newSpanId st.world).1
      ∧ s.spanContext.isRemote = false ∧ ∀ d, s.data = some d → d.parentSpanId = SpanId.invalid := by
  obtain ⟨s0, w0, sr, w2, h0, hsr, hev⟩ := build_evolved env cfg scope b cx st hs hd
  obtain ⟨m1, m2, m3, m4, m5, m6, m7⟩ := makeSpan_context env cfg scope b cx (pickSpanId cfg b st.world).1
          (pickTraceId cfg b cx (worldAtTraceId cfg b st.world)).1 sr w2
  rw [← h0] at m1 m2 m3 m7
  obtain ⟨e1, e2, e3, e4⟩ := hev
  dsimp only
  rw [e1]
  refine ⟨?_, ?_, m3, ?_⟩
  · rw [m1, pickTraceId, hp]; dsimp only; cases b.traceId <;> rfl
  · rw [m2, pickSpanId]; cases b.spanId <;> rfl
  · intro d hdd
    rcases e4 with e4 | ⟨es, d', hd', e4⟩
    · rw [e4] at hdd; cases hdd
    · rw [e4] at hdd; injection hdd with hdd
      rw [← hdd, (editAll_other s0.limits es d').1, m7 d' hd', hp]

/-- The spans of the tree below `root`: a child is started in any context whose active span is its parent, at any time,
in any state of the world, by any tracer of the provider. -/
inductive Descendant (env : Env A I B U W) (cfg : Config A (Link A) B U W) (root : SpanContext) : Span A I → Prop
  | child (scope : I) (b : SpanBuilder A) (cx : Cx B U) (st : PState A I W) (hs : cx.suppress = false)
      (hd : st.isShutdown = false) (hb : b.samplingResult = none) (hp : cx.span = some root) :
      Descendant env cfg root (buildWithContext env cfg scope b cx st).1
  | grandchild {p : Span A I} (hpd : Descendant env cfg root p) (scope : I) (b : SpanBuilder A) (cx : Cx B U)
      (st : PState A I W) (hs : cx.suppress = false) (hd : st.isShutdown = false) (hb : b.samplingResult = none)
      (hp : cx.span = some p.spanContext) : Descendant env cfg root (buildWithContext env cfg scope b cx st).1

/-- **C21 (trees)** All spans below a root, at any depth, have the root's trace id. -/
theorem tree_one_trace (env : Env A I B U W) (cfg : Config A (Link A) B U W) (root : SpanContext) (s : Span A I)
    (h : Descendant env cfg root s) : s.spanContext.traceId = root.traceId := by
  induction h with
  | child scope b cx st hs hd hb hp => exact (child_linked env cfg scope b cx st hs hd root hp).1
  | grandchild hpd scope b cx st hs hd hb hp ih => rw [(child_linked env cfg scope b cx st hs hd _ hp).1, ih]

/-! ## C20 -/

/-- **C20 (one step)** Under a parent-based sampler a span has its parent's sampled flag - local or remote parent, whatever the
delegate - and it records exactly if sampled. -/
theorem parent_based_child (r : F64.Rounding) (env : Env A I B U W) (cfg : Config A (Link A) B U W)
    (delegate : ShouldSample A (Link A) B U W) (hc : cfg.sampler = (Sampler.parentBased delegate).shouldSample r) (scope : I)
    (b : SpanBuilder A) (hb : b.samplingResult = none) (cx : Cx B U) (st : PState A I W) (hs : cx.suppress = false)
    (hd : st.isShutdown = false) (parent : SpanContext) (hp : cx.span = some parent) :
    let s := (buildWithContext env cfg scope b cx st).1
    s.spanContext.isSampled = parent.isSampled ∧ (s.isRecording = true → s.spanContext.isSampled = true)
      ∧ s.spanContext.traceState = parent.traceState := by
  obtain ⟨s0, w0, sr, w2, h0, hsr, hev⟩ := build_evolved env cfg scope b cx st hs hd
  obtain ⟨m1, m2, m3, m4, m5, m6, m7⟩ := makeSpan_context env cfg scope b cx (pickSpanId cfg b st.world).1
          (pickTraceId cfg b cx (worldAtTraceId cfg b st.world)).1 sr w2
  rw [← h0] at m4 m5 m6
  obtain ⟨e1, e2, e3, e4⟩ := hev
  have hdec : sr.decision = (if parent.isSampled then .recordAndSample else .drop) ∧ sr.traceState = parent.traceState := by
    rw [hsr]
    simp [pickSampling, hb, hc, Sampler.shouldSample, Sampler.decide, Option.filter, Context.hasActiveSpan, hp, spanContextOf]
  dsimp only
  rw [e1]
  refine ⟨?_, ?_, by rw [m4, hdec.2]⟩
  · rw [Bool.eq_iff_iff, m5, hdec.1]
    cases parent.isSampled <;> simp
  · intro hrec
    have : s0.isRecording = true := by
      rcases e4 with e4 | ⟨es, d', hd', e4⟩
      · simp [Span.isRecording, e4] at hrec
      · simp [Span.isRecording, hd']
    rw [m6, hdec.1] at this
    rw [m5, hdec.1]
    revert this; cases parent.isSampled <;> simp

/-- **C20** With a parent-based sampler, all spans below a root carry the root's sampled flag: one decision per trace. The
root may be local or remote. -/
theorem one_decision_per_trace (r : F64.Rounding) (env : Env A I B U W) (cfg : Config A (Link A) B U W)
    (delegate : ShouldSample A (Link A) B U W) (hc : cfg.sampler = (Sampler.parentBased delegate).shouldSample r)
    (root : SpanContext) (s : Span A I) (h : Descendant env cfg root s) : s.spanContext.isSampled = root.isSampled := by
  induction h with
  | child scope b cx st hs hd hb hp => exact (parent_based_child r env cfg delegate hc scope b hb cx st hs hd root hp).1
  | grandchild hpd scope b cx st hs hd hb hp ih =>
    rw [(parent_based_child r env cfg delegate hc scope b hb cx st hs hd _ hp).1, ih]

/-- **C20 (root)** Without a parent the delegate decides. -/
theorem parent_based_root (r : F64.Rounding) (delegate : ShouldSample A (Link A) B U W) (a : SampleArgs A (Link A) B U) (w : W)
    (h : ∀ cx, a.parent = some cx → cx.span = none) :
    ((Sampler.parentBased delegate).shouldSample r a w).1.decision = (delegate a w).1.decision := by
  cases hp : a.parent with
  | none => simp [Sampler.shouldSample, Sampler.decide, hp]
  | some cx => simp [Sampler.shouldSample, Sampler.decide, hp, Option.filter, Context.hasActiveSpan, h cx hp]

/-! ## C30 for spans -/

/-- **C30 (spans)** In a suppressed context starting a span changes nothing - no processor is called, no id drawn - and the
span does not record; nor does anything done with it reach a processor. -/
theorem suppressed_span (env : Env A I B U W) (cfg : Config A (Link A) B U W) (scope : I) (b : SpanBuilder A) (cx : Cx B U)
    (st : PState A I W) (h : cx.suppress = true) :
    (buildWithContext env cfg scope b cx st).2 = st ∧ (buildWithContext env cfg scope b cx st).1.isRecording = false
      ∧ ∀ hist, (dropSpan env (runHist env hist (buildWithContext env cfg scope b cx st))).obs = st.obs := by
  have : buildWithContext env cfg scope b cx st = (emptySpan scope, st) := by simp [buildWithContext, h]
  rw [this]
  exact ⟨rfl, rfl, fun hist => nonrecording_never_delivered env _ st rfl hist⟩

/-- **C30 (inheritance)** Every context derived from a suppressed one, by any sequence of steps, is suppressed. -/
theorem suppressed_derived (ds : List (Deriv SpanContext B U)) (cx : Cx B U) (h : cx.suppress = true) :
    (ds.foldl Context.derive cx).suppress = true := by
  induction ds generalizing cx with
  | nil => exact h
  | cons d ds ih =>
    apply ih
    cases d <;> simp [Context.derive, Context.withValue, Context.withSpan, Context.withTelemetrySuppressed, h]

/-! ## C63 -/

/-- **C63 (partial)** If the id generator never returns zero, the builder gives no zero ids and the active span, if any, is
valid, then the new span's context is valid. -/
theorem recorded_ids_valid_partial (env : Env A I B U W) (cfg : Config A (Link A) B U W) (scope : I) (b : SpanBuilder A)
    (cx : Cx B U) (st : PState A I W) (hs : cx.suppress = false) (hd : st.isShutdown = false)
    (hgt : ∀ w, (cfg.newTraceId w).1 ≠ TraceId.invalid) (hgs : ∀ w, (cfg.newSpanId w).1 ≠ SpanId.invalid)
    (hbt : b.traceId ≠ some TraceId.invalid) (hbs : b.spanId ≠ some SpanId.invalid)
    (hp : ∀ p, cx.span = some p → p.isValid = true) :
    (buildWithContext env cfg scope b cx st).1.spanContext.isValid = true := by
  have hsid : b.spanId.getD (cfg.newSpanId st.world).1 ≠ SpanId.invalid := by
    cases h : b.spanId with
    | none => exact hgs _
    | some i => rw [Option.getD_some]; intro hi; exact hbs (by rw [h, hi])
  cases hc : cx.span with
  | none =>
    obtain ⟨h1, h2, _⟩ := root_linked env cfg scope b cx st hs hd hc
    have htid : b.traceId.getD (cfg.newTraceId (worldAtTraceId cfg b st.world)).1 ≠ TraceId.invalid := by
      cases h : b.traceId with
      | none => exact hgt _
      | some i => rw [Option.getD_some]; intro hi; exact hbt (by rw [h, hi])
    simp only [SpanContext.isValid, h1, h2, Bool.and_eq_true, bne_iff_ne]
    exact ⟨htid, hsid⟩
  | some p =>
    obtain ⟨h1, h2, _⟩ := child_linked env cfg scope b cx st hs hd p hc
    have := hp p hc
    simp only [SpanContext.isValid, Bool.and_eq_true, bne_iff_ne] at this
    simp only [SpanContext.isValid, h1, h2, Bool.and_eq_true, bne_iff_ne]
    exact ⟨this.1, hsid⟩

/-- A configuration with a counting id generator that never returns zero (for small counts) and the given sampler. -/
noncomputable def exampleCfg (s : Sampler Nat (Link Nat) Unit (fun _ => Unit) Nat) : Config Nat (Link Nat) Unit (fun _ => Unit) Nat where
  newTraceId w := (if BitVec.ofNat 128 w = 0 then 1 else BitVec.ofNat 128 w, w + 1)
  newSpanId w := (if BitVec.ofNat 64 w = 0 then 1 else BitVec.ofNat 64 w, w + 1)
  sampler := s.shouldSample F64.someRounding
  limits := SpanLimits.default

/-- A fresh provider state at world `w`. -/
def exampleState (w : Nat) : PState Nat Unit Nat := ⟨false, ⟨[], []⟩, w⟩

/-- A span started while telemetry is suppressed. -/
noncomputable def suppressedSpan : Span Nat Unit :=
  (buildWithContext exampleEnv (exampleCfg .alwaysOn) () {} ((Context.new : Cx Unit (fun _ => Unit)).withTelemetrySuppressed)
    (exampleState 1)).1

/-- **C63 (violated)** A span started while telemetry is suppressed has the invalid context. A child of it started in an
unsuppressed context records, is sampled and will be exported, with the all-zero trace id. -/
theorem recorded_ids_valid_violated :
    let cx := (Context.new : Cx Unit (fun _ => Unit)).withSpan suppressedSpan.spanContext
    let s := (buildWithContext exampleEnv (exampleCfg .alwaysOn) () {} cx (exampleState 1)).1
    s.isRecording = true ∧ s.spanContext.isSampled = true ∧ s.spanContext.traceId = TraceId.invalid := by
  refine ⟨?_, ?_, ?_⟩ <;> rfl

/-! ## C64 -/

theorem ops_starts (env : Env A I B U W) (os : List (SpanOp A)) (x : Span A I × PState A I W) :
    (os.foldl (fun x o => o.run env x) x).2.obs.starts = x.2.obs.starts := by
  induction os generalizing x with
  | nil => rfl
  | cons o os ih =>
    obtain ⟨s, st⟩ := x
    rw [List.foldl_cons, ih]
    have hend : ∀ ts (st : PState A I W), (ensureEnded env ts s st).2.obs.starts = st.obs.starts := by
      intro ts st
      unfold ensureEnded
      split
      · rfl
      · split
        · rfl
        · split
          · exact (deliver_obs _ _ _ _).2.1
          · split
            · exact (deliver_obs _ _ _ _).2.1
            · exact (deliver_obs _ _ _ _).2.1
    cases o with
    | edit e => rfl
    | endAt t => exact hend _ _
    | endNow => exact hend _ _

theorem startAll_starts (env : Env A I B U W) (cx : Cx B U) (i : Nat) (ps : List (Processor A I B U W)) (s : Span A I)
    (st : PState A I W) : (startAll env cx i ps (s, st)).2.obs.starts
      = st.obs.starts ++ (List.range' i ps.length).map (fun j => (j, s.spanContext)) := by
  induction ps generalizing i s st with
  | nil => simp [startAll]
  | cons p ps ih =>
    simp only [startAll]
    have key := ops_starts env (p.onStart s cx st.world).1
      (s, { st with world := (p.onStart s cx st.world).2, obs := { st.obs with starts := st.obs.starts ++ [(i, s.spanContext)] } })
    have hctx := (ops_evolved env (p.onStart s cx st.world).1 s
      { st with world := (p.onStart s cx st.world).2, obs := { st.obs with starts := st.obs.starts ++ [(i, s.spanContext)] } }).1
    rw [ih (i + 1) _ _, key, hctx]
    simp [List.range'_succ]

/-- **C64 (each processor once)** Starting a span calls `on_start` once on every processor, in order. -/
theorem on_start_once (env : Env A I B U W) (cfg : Config A (Link A) B U W) (scope : I) (b : SpanBuilder A) (cx : Cx B U)
    (st : PState A I W) (hs : cx.suppress = false) (hd : st.isShutdown = false) :
    (buildWithContext env cfg scope b cx st).2.obs.starts = st.obs.starts ++
      (List.range env.processors.length).map
        (fun i => (i, (buildWithContext env cfg scope b cx st).1.spanContext)) := by
  simp only [buildWithContext, hs, hd, Bool.false_eq_true, if_false]
  rw [(startAll_evolved env cx 0 env.processors _ _).1, startAll_starts, List.range_eq_range']

/-- **C64 (violated)** A span that the sampler drops is still announced to every processor by `on_start`, and no `on_end`
ever follows. -/
theorem on_start_pairs_violated :
    let x := buildWithContext exampleEnv (exampleCfg .alwaysOff) () {} (Context.new : Cx Unit (fun _ => Unit)) (exampleState 1)
    x.2.obs.starts.length = 2 ∧ x.1.isRecording = false ∧ ∀ hist, (dropSpan exampleEnv (runHist exampleEnv hist x)).obs.ends = [] := by
  refine ⟨rfl, rfl, fun hist => ?_⟩
  rw [show buildWithContext exampleEnv (exampleCfg .alwaysOff) () {} (Context.new : Cx Unit (fun _ => Unit)) (exampleState 1)
    = ((buildWithContext exampleEnv (exampleCfg .alwaysOff) () {} (Context.new : Cx Unit (fun _ => Unit)) (exampleState 1)).1,
       (buildWithContext exampleEnv (exampleCfg .alwaysOff) () {} (Context.new : Cx Unit (fun _ => Unit)) (exampleState 1)).2) from rfl]
  rw [nonrecording_never_delivered exampleEnv _ _ rfl hist]
  rfl

/-! ## Non-vacuity -/

/-- A sampled remote parent. -/
def exampleParent : SpanContext := ⟨7, 9, 1, true, TraceState.none⟩

/-- A grandchild of a remote parent under a parent-based sampler. -/
example : ∃ s, Descendant exampleEnv (exampleCfg (.parentBased (Sampler.alwaysOff.shouldSample F64.someRounding))) exampleParent s
    ∧ s.isRecording = true := by
  have h1 := Descendant.child (env := exampleEnv)
    (cfg := exampleCfg (.parentBased (Sampler.alwaysOff.shouldSample F64.someRounding))) (root := exampleParent) () {}
    ((Context.new : Cx Unit (fun _ => Unit)).withSpan exampleParent) (exampleState 3) rfl rfl rfl rfl
  exact ⟨_, Descendant.grandchild h1 () {} ((Context.new : Cx Unit (fun _ => Unit)).withSpan _) (exampleState 4) rfl rfl rfl rfl, rfl⟩

end Otel.Sdk
