import Verif.Sdk.Scoped
import Verif.Sdk.SpanLife
/-!
# The trace of nested calls, C100

What the processors of a provider receive from a program of nested calls: a tree of spans with the shape of the program.
-/

namespace Otel.Sdk.Scoped
open Otel.Ctx Rust Otel.Sdk

variable {A I W B : Type} {U : Nat → Type}

/-! ## Specification -/

/-- The spans a program starts, as its blocks say. -/
inductive Plan (A I : Type) where
  | none
  /-- first the spans of `f`, then those of `g` -/
  | both (f g : Plan A I)
  /-- a span built from `b`, with the edits made on it while it is active, and the spans started inside -/
  | node (scope : I) (b : SpanBuilder A) (edits : List (Edit A)) (inside : Plan A I)
  /-- spans started below a remote span -/
  | under (sc : SpanContext) (inside : Plan A I)

/-- What a block does: edits on the active span, spans, and whether it unwinds. -/
structure Outline (A I : Type) where
  edits : List (Edit A)
  spans : Plan A I
  panics : Bool

/-- The edits among calls on a span. -/
def editsIn (os : List (SpanOp A)) : List (Edit A) := os.filterMap fun o => match o with | .edit e => some e | _ => none

/-- Reads off a program what it does; `quiet` in a block where telemetry is suppressed. -/
def outline (quiet : Bool) : Prog A I B U W → Outline A I
  | .skip => ⟨[], .none, false⟩
  | .seq p q => if (outline quiet p).panics then outline quiet p
    else ⟨(outline quiet p).edits ++ (outline quiet q).edits, .both (outline quiet p).spans (outline quiet q).spans, (outline quiet q).panics⟩
  | .op o => ⟨editsIn [o], .none, false⟩
  | .look => ⟨[], .none, false⟩
  | .panic => ⟨[], .none, true⟩
  | .catching p => ⟨(outline quiet p).edits, (outline quiet p).spans, false⟩
  | .inSpan scope name p => ⟨[], if quiet then .none else .node scope { name := name } (outline quiet p).edits (outline quiet p).spans, (outline quiet p).panics⟩
  | .marked scope b p => ⟨[], if quiet then .none else .node scope b (outline quiet p).edits (outline quiet p).spans, (outline quiet p).panics⟩
  | .leaf scope b os => ⟨[], if quiet then .none else .node scope b (editsIn os) .none, false⟩
  | .value _ _ p => outline quiet p
  | .suppressed p => outline true p
  | .remote sc p => ⟨[], if quiet then .none else .under sc (outline quiet p).spans, (outline quiet p).panics⟩
  | .world _ => ⟨[], .none, false⟩
  | .shutdown => ⟨[], .none, false⟩

/-- One `on_start` call for each of `n` processors, in order. -/
def startsOf (n : Nat) (sc : SpanContext) : List (Nat × SpanContext) := (List.range n).map fun i => (i, sc)

/-- The context of a new span: in the trace of its parent if it has one, with the ids of the builder if it gives them, and not remote. -/
def ChildOf (b : SpanBuilder A) (parent : Option SpanContext) (sc : SpanContext) : Prop :=
  (match parent with
    | some p => sc.traceId = p.traceId
    | none => ∀ t, b.traceId = some t → sc.traceId = t) ∧
  (∀ i, b.spanId = some i → sc.spanId = i) ∧ sc.isRemote = false

/-- What the `n` processors hear of the span `sc` when its block is left: nothing if it is not recorded, which a sampled span always is; otherwise the span once each, with
the parent's span id, the data of the builder and of the sampler, the edits, and its times. -/
def OwnEnds (n : Nat) (l : SpanLimits) (scope : I) (b : SpanBuilder A) (edits : List (Edit A)) (parent : Option SpanContext) (sc : SpanContext) (es : List (Nat × Exported A I)) : Prop :=
  (es = [] ∧ sc.isSampled = false) ∨
  ∃ extra start stop, (∀ t, b.startTime = some t → start = t) ∧ (∀ t, b.endTime = some t → t ≠ start → stop = t) ∧
    es = oncePerProcessor n ⟨sc, { editAll l edits (recordingData l (parent.getD SpanContext.none) b extra start) with endTime := stop }, scope⟩

/-- The calls of `on_start` and `on_end` that belong to a plan: every span is started before those inside it and delivered after them, and those inside have it as
their parent. -/
def Recorded (n : Nat) (l : SpanLimits) : Plan A I → Option SpanContext → List (Nat × SpanContext) → List (Nat × Exported A I) → Prop
  | .none, _, ss, es => ss = [] ∧ es = []
  | .both f g, parent, ss, es => ∃ s1 s2 e1 e2, Recorded n l f parent s1 e1 ∧ Recorded n l g parent s2 e2 ∧ ss = s1 ++ s2 ∧ es = e1 ++ e2
  | .under sc f, _, ss, es => Recorded n l f (some sc) ss es
  | .node scope b edits f, parent, ss, es => ∃ sc s1 e1 own, ChildOf b parent sc ∧ Recorded n l f (some sc) s1 e1 ∧ OwnEnds n l scope b edits parent sc own ∧
      ss = startsOf n sc ++ s1 ∧ es = e1 ++ own

/-- Programs that leave the ending of spans to the blocks and do not shut the provider down. -/
def Prog.Plain : Prog A I B U W → Prop
  | .seq p q => p.Plain ∧ q.Plain
  | .op o => ∃ e, o = .edit e
  | .catching p => p.Plain
  | .inSpan _ _ p => p.Plain
  | .marked _ _ p => p.Plain
  | .leaf _ _ os => ∀ o ∈ os, ∃ e, o = .edit e
  | .value _ _ p => p.Plain
  | .suppressed p => p.Plain
  | .remote _ p => p.Plain
  | .shutdown => False
  | _ => True

/-! ## Proof -/

/-- A new span, when telemetry is on. -/
theorem build_live (env : Env A I B U W) (hp : Passive env) (cfg : Config A (Link A) B U W) (scope : I) (b : SpanBuilder A) (cx : Cx B U) (st : PState A I W)
    (hs : cx.suppress = false) (hd : st.isShutdown = false) :
    let x := buildWithContext env cfg scope b cx st
    x.2.isShutdown = false ∧ x.2.obs.ends = st.obs.ends ∧ x.2.obs.starts = st.obs.starts ++ startsOf env.processors.length x.1.spanContext ∧
    ChildOf b cx.span x.1.spanContext ∧ x.1.scope = scope ∧ x.1.limits = cfg.limits ∧
    ((x.1.data = none ∧ x.1.spanContext.isSampled = false) ∨
      ∃ extra start, (∀ t, b.startTime = some t → start = t) ∧ x.1.data = some (recordingData cfg.limits (cx.span.getD SpanContext.none) b extra start)) := by
  dsimp only
  obtain ⟨w2, w3, sr, hx⟩ : ∃ w2 w3 sr, buildWithContext env cfg scope b cx st = startAll env cx 0 env.processors
      ((makeSpan env cfg scope b cx (pickSpanId cfg b st.world).1 (pickTraceId cfg b cx (pickSpanId cfg b st.world).2).1 sr w2).1, { st with world := w3 }) := by
    simp only [buildWithContext, hs, hd, Bool.false_eq_true, if_false]
    exact ⟨_, _, _, rfl⟩
  obtain ⟨p1, p2, p3⟩ := startAll_passive env cx 0 env.processors hp
    (makeSpan env cfg scope b cx (pickSpanId cfg b st.world).1 (pickTraceId cfg b cx (pickSpanId cfg b st.world).2).1 sr w2).1 { st with world := w3 }
  obtain ⟨m1, m2, m3, m4, m5, m6, m7⟩ := makeSpan_context env cfg scope b cx (pickSpanId cfg b st.world).1 (pickTraceId cfg b cx (pickSpanId cfg b st.world).2).1 sr w2
  have hst := on_start_once env cfg scope b cx st hs hd
  rw [← hx] at p1 p2 p3
  refine ⟨p2.trans hd, p3, hst, ?_, ?_⟩
  · rw [p1]
    refine ⟨?_, ?_, m3⟩
    · rw [m1]
      unfold pickTraceId
      cases hc : cx.span with
      | some p => rfl
      | none =>
        intro t ht
        simp only [ht]
    · intro i hi
      rw [m2]
      unfold pickSpanId
      simp only [hi]
  · rw [p1]
    have hpsc : (match cx.span with | some sc => sc | none => SpanContext.none) = cx.span.getD SpanContext.none := by cases cx.span <;> rfl
    rw [← hpsc]
    have hn : sr.decision = .drop → (makeSpan env cfg scope b cx (pickSpanId cfg b st.world).1 (pickTraceId cfg b cx (pickSpanId cfg b st.world).2).1 sr w2).1.spanContext.isSampled = false := by
      intro h
      rw [← Bool.not_eq_true, m5, h]
      simp
    unfold makeSpan at hn ⊢
    cases hdd : sr.decision with
    | drop => simp only [hdd] at hn; exact ⟨rfl, rfl, .inl ⟨rfl, hn trivial⟩⟩
    | recordAndSample =>
      simp only [buildRecordingSpan]
      cases hst : b.startTime with
      | some t => exact ⟨rfl, rfl, .inr ⟨_, t, fun _ h => by injection h, rfl⟩⟩
      | none => exact ⟨rfl, rfl, .inr ⟨_, _, (by intro _ h; cases h), rfl⟩⟩
    | recordOnly =>
      simp only [buildRecordingSpan]
      cases hst : b.startTime with
      | some t => exact ⟨rfl, rfl, .inr ⟨_, t, fun _ h => by injection h, rfl⟩⟩
      | none => exact ⟨rfl, rfl, .inr ⟨_, _, (by intro _ h; cases h), rfl⟩⟩

/-- The end of a span that was only edited. -/
theorem drop_live (env : Env A I B U W) (l : SpanLimits) (scope : I) (b : SpanBuilder A) (parent : Option SpanContext) (s : Span A I) (es : List (Edit A)) (st : PState A I W)
    (hd : st.isShutdown = false) (h1 : s.scope = scope) (h2 : s.limits = l)
    (h : (s.data = none ∧ s.spanContext.isSampled = false) ∨
      ∃ extra start, (∀ t, b.startTime = some t → start = t) ∧ s.data = some (recordingData l (parent.getD SpanContext.none) b extra start)) :
    ∃ own, OwnEnds env.processors.length l scope b es parent s.spanContext own ∧
      (dropSpan env (es.foldl Span.edit s, st)).isShutdown = false ∧ (dropSpan env (es.foldl Span.edit s, st)).obs.starts = st.obs.starts ∧
      (dropSpan env (es.foldl Span.edit s, st)).obs.ends = st.obs.ends ++ own := by
  have hsd : (dropSpan env (es.foldl Span.edit s, st)).isShutdown = false := (ensureEnded_shutdown env none _ st).trans hd
  have hss : (dropSpan env (es.foldl Span.edit s, st)).obs.starts = st.obs.starts := ensureEnded_starts env none _ st
  rcases h with ⟨h0, hn⟩ | ⟨extra, start, hst, h0⟩
  · refine ⟨[], .inl ⟨rfl, hn⟩, hsd, hss, ?_⟩
    unfold dropSpan ensureEnded
    simp only [Shared.foldl_edit_dead es s h0, List.append_nil]
  · have he := (Shared.ensureEnded_some env none (es.foldl Span.edit s) st _ (by rw [Shared.foldl_edit es s _ h0])).2
    rw [Shared.foldl_edit es s _ h0] at he
    simp only [hd, Bool.false_eq_true, if_false] at he
    have hs' : (editAll l es (recordingData l (parent.getD SpanContext.none) b extra start)).startTime = start := (editAll_other l es _).2.2.1
    refine ⟨_, .inr ⟨extra, start, if (editAll l es (recordingData l (parent.getD SpanContext.none) b extra start)).endTime =
        (editAll l es (recordingData l (parent.getD SpanContext.none) b extra start)).startTime then (env.now st.world).1
      else (editAll l es (recordingData l (parent.getD SpanContext.none) b extra start)).endTime, hst, ?_, rfl⟩, hsd, hss, ?_⟩
    · intro t ht hne
      have : (editAll l es (recordingData l (parent.getD SpanContext.none) b extra start)).endTime = t := by
        rw [(editAll_other l es _).2.2.2.1]
        simp [recordingData, ht]
      rw [this, hs', if_neg hne]
    · rw [show dropSpan env (es.foldl Span.edit s, st) = (ensureEnded env none (es.foldl Span.edit s) st).2 from rfl, Shared.foldl_edit es s _ h0, he]
      subst h1 h2
      rfl

theorem editsIn_append (a b : List (SpanOp A)) : editsIn (a ++ b) = editsIn a ++ editsIn b := List.filterMap_append

theorem run_edits (env : Env A I B U W) (os : List (SpanOp A)) (h : ∀ o ∈ os, ∃ e, o = .edit e) (s : Span A I) (st : PState A I W) :
    os.foldl (fun x o => o.run env x) (s, st) = ((editsIn os).foldl Span.edit s, st) := by
  induction os generalizing s with
  | nil => rfl
  | cons o os ih =>
    obtain ⟨e, rfl⟩ := h o (by simp)
    exact ih (fun o ho => h o (by simp [ho])) (s.edit e)

/-- Where telemetry is suppressed nothing is recorded. -/
theorem recorded_quiet {n : Nat} {l : SpanLimits} (p : Prog A I B U W) {parent : Option SpanContext} {ss : List (Nat × SpanContext)} {es : List (Nat × Exported A I)}
    (h : Recorded n l (outline true p).spans parent ss es) : ss = [] ∧ es = [] := by
  induction p generalizing parent ss es with
  | seq p q ihp ihq =>
    simp only [outline] at h
    split at h
    · exact ihp h
    · obtain ⟨s1, s2, e1, e2, h1, h2, rfl, rfl⟩ := h
      obtain ⟨rfl, rfl⟩ := ihp h1
      obtain ⟨rfl, rfl⟩ := ihq h2
      exact ⟨rfl, rfl⟩
  | catching p ih => exact ih h
  | value k v p ih => exact ih h
  | suppressed p ih => exact ih h
  | _ => exact h

/-- What a block does, next to what its outline says. -/
def Grows (env : Env A I B U W) (cfg : Config A (Link A) B U W) (p : Prog A I B U W) (cx : Cx B U) (cur : Option (Span A I)) (o : Out A I B U W) : Prop :=
  (eval env cfg p cx cur o).2 = (outline cx.suppress p).panics ∧
  (eval env cfg p cx cur o).1.1 = cur.map ((outline cx.suppress p).edits.foldl Span.edit) ∧
  (eval env cfg p cx cur o).1.2.st.isShutdown = false ∧
  ∃ ss es, Recorded env.processors.length cfg.limits (outline cx.suppress p).spans cx.span ss es ∧
    (eval env cfg p cx cur o).1.2.st.obs.starts = o.st.obs.starts ++ ss ∧ (eval env cfg p cx cur o).1.2.st.obs.ends = o.st.obs.ends ++ es

theorem node_grows (env : Env A I B U W) (hp : Passive env) (cfg : Config A (Link A) B U W) (scope : I) (b : SpanBuilder A) (p : Prog A I B U W)
    (ih : ∀ cx cur o, o.st.isShutdown = false → Grows env cfg p cx cur o) (cx : Cx B U) (o : Out A I B U W) (hd : o.st.isShutdown = false) :
    let x := buildWithContext env cfg scope b cx o.st
    let r := eval env cfg p (cx.withSpan x.1.spanContext) (some x.1) { o with st := x.2 }
    r.2 = (outline cx.suppress p).panics ∧ (dropSpan env (r.1.1.getD x.1, r.1.2.st)).isShutdown = false ∧
    ∃ ss es, Recorded env.processors.length cfg.limits (if cx.suppress then .none else .node scope b (outline cx.suppress p).edits (outline cx.suppress p).spans) cx.span ss es ∧
      (dropSpan env (r.1.1.getD x.1, r.1.2.st)).obs.starts = o.st.obs.starts ++ ss ∧ (dropSpan env (r.1.1.getD x.1, r.1.2.st)).obs.ends = o.st.obs.ends ++ es := by
  dsimp only
  cases hs : cx.suppress with
  | true =>
    have hx : buildWithContext env cfg scope b cx o.st = (emptySpan scope, o.st) := by simp [buildWithContext, hs]
    rw [hx]
    obtain ⟨g1, g2, g3, ss, es, g4, g5, g6⟩ := ih (cx.withSpan (emptySpan scope : Span A I).spanContext) (some (emptySpan scope)) { o with st := o.st } hd
    have hs' : (cx.withSpan (emptySpan scope : Span A I).spanContext).suppress = true := hs
    rw [hs'] at g1 g2 g4
    obtain ⟨rfl, rfl⟩ := recorded_quiet p g4
    dsimp only at g1 g2 g3 g5 g6 ⊢
    have hdead : (((eval env cfg p (cx.withSpan (emptySpan scope : Span A I).spanContext) (some (emptySpan scope)) { o with st := o.st }).1.1).getD (emptySpan scope)).data = none := by
      rw [g2]
      exact Shared.foldl_edit_dead _ _ rfl
    have hdrop : dropSpan env (((eval env cfg p (cx.withSpan (emptySpan scope : Span A I).spanContext) (some (emptySpan scope)) { o with st := o.st }).1.1).getD (emptySpan scope),
        (eval env cfg p (cx.withSpan (emptySpan scope : Span A I).spanContext) (some (emptySpan scope)) { o with st := o.st }).1.2.st) =
        (eval env cfg p (cx.withSpan (emptySpan scope : Span A I).spanContext) (some (emptySpan scope)) { o with st := o.st }).1.2.st := by
      unfold dropSpan ensureEnded
      simp only [hdead]
    rw [hdrop]
    exact ⟨g1, g3, [], [], ⟨rfl, rfl⟩, g5, g6⟩
  | false =>
    obtain ⟨b1, b2, b3, b4, b5, b6, b7⟩ := build_live env hp cfg scope b cx o.st hs hd
    generalize hx : buildWithContext env cfg scope b cx o.st = x at b1 b2 b3 b4 b5 b6 b7 ⊢
    obtain ⟨s, st⟩ := x
    dsimp only at b1 b2 b3 b4 b5 b6 b7 ⊢
    obtain ⟨g1, g2, g3, ss, es, g4, g5, g6⟩ := ih (cx.withSpan s.spanContext) (some s) { o with st := st } b1
    have hs' : (cx.withSpan s.spanContext).suppress = false := hs
    rw [hs'] at g1 g2 g4
    generalize hr : eval env cfg p (cx.withSpan s.spanContext) (some s) { o with st := st } = r at g1 g2 g3 g5 g6 ⊢
    obtain ⟨⟨c, o'⟩, pan⟩ := r
    dsimp only at g1 g2 g3 g5 g6 ⊢
    subst g2
    obtain ⟨own, d1, d2, d3, d4⟩ := drop_live env cfg.limits scope b cx.span s (outline false p).edits o'.st g3 b5 b6 b7
    refine ⟨g1, d2, startsOf env.processors.length s.spanContext ++ ss, es ++ own, ⟨s.spanContext, ss, es, own, b4, g4, d1, rfl, rfl⟩, ?_, ?_⟩
    · exact d3.trans (by rw [g5, b3, List.append_assoc])
    · exact d4.trans (by rw [g6, b2, List.append_assoc])

theorem eval_grows (env : Env A I B U W) (hp : Passive env) (cfg : Config A (Link A) B U W) (p : Prog A I B U W) (hpl : p.Plain) (cx : Cx B U) (cur : Option (Span A I))
    (o : Out A I B U W) (hd : o.st.isShutdown = false) : Grows env cfg p cx cur o := by
  have hid : cur = cur.map (([] : List (Edit A)).foldl Span.edit) := by cases cur <;> rfl
  induction p generalizing cx cur o with
  | skip => exact ⟨rfl, hid, hd, [], [], ⟨rfl, rfl⟩, (List.append_nil _).symm, (List.append_nil _).symm⟩
  | panic => exact ⟨rfl, hid, hd, [], [], ⟨rfl, rfl⟩, (List.append_nil _).symm, (List.append_nil _).symm⟩
  | look => exact ⟨rfl, hid, hd, [], [], ⟨rfl, rfl⟩, (List.append_nil _).symm, (List.append_nil _).symm⟩
  | world f => exact ⟨rfl, hid, hd, [], [], ⟨rfl, rfl⟩, (List.append_nil _).symm, (List.append_nil _).symm⟩
  | shutdown => exact hpl.elim
  | op c =>
    obtain ⟨e, rfl⟩ := hpl
    cases cur with
    | none => exact ⟨rfl, rfl, hd, [], [], ⟨rfl, rfl⟩, (List.append_nil _).symm, (List.append_nil _).symm⟩
    | some s => exact ⟨rfl, rfl, hd, [], [], ⟨rfl, rfl⟩, (List.append_nil _).symm, (List.append_nil _).symm⟩
  | catching p ih =>
    obtain ⟨_, h2, h3, h4⟩ := ih hpl cx cur o hd (by cases cur <;> rfl)
    exact ⟨rfl, h2, h3, h4⟩
  | value k v p ih => exact ih hpl (cx.withValue k v) cur o hd (by cases cur <;> rfl)
  | suppressed p ih => exact ih hpl cx.withTelemetrySuppressed cur o hd (by cases cur <;> rfl)
  | remote sc p ih =>
    obtain ⟨h1, h2, h3, ss, es, h4, h5, h6⟩ := ih hpl (cx.withSpan sc) none o hd rfl
    refine ⟨h1, hid, h3, ss, es, ?_, h5, h6⟩
    have hs' : (cx.withSpan sc).suppress = cx.suppress := rfl
    rw [hs'] at h4
    cases hs : cx.suppress with
    | true => rw [hs] at h4; exact recorded_quiet p h4
    | false => rw [hs] at h4; exact h4
  | inSpan scope name p ih =>
    obtain ⟨h1, h3, h4⟩ := node_grows env hp cfg scope { name := name } p (fun cx cur o h => ih hpl cx cur o h (by cases cur <;> rfl)) cx o hd
    exact ⟨h1, hid, h3, h4⟩
  | marked scope b p ih =>
    obtain ⟨h1, h3, h4⟩ := node_grows env hp cfg scope b p (fun cx cur o h => ih hpl cx cur o h (by cases cur <;> rfl)) cx o hd
    exact ⟨h1, hid, h3, h4⟩
  | leaf scope b os =>
    refine ⟨rfl, hid, ?_⟩
    simp only [eval]
    cases hs : cx.suppress with
    | true =>
      have hx : buildWithContext env cfg scope b cx o.st = (emptySpan scope, o.st) := by simp [buildWithContext, hs]
      rw [hx, run_edits env os hpl]
      have hdrop : dropSpan env ((editsIn os).foldl Span.edit (emptySpan scope), o.st) = o.st := by
        unfold dropSpan ensureEnded
        simp only [Shared.foldl_edit_dead (editsIn os) (emptySpan scope : Span A I) rfl]
      rw [hdrop]
      exact ⟨hd, [], [], ⟨rfl, rfl⟩, (List.append_nil _).symm, (List.append_nil _).symm⟩
    | false =>
      obtain ⟨b1, b2, b3, b4, b5, b6, b7⟩ := build_live env hp cfg scope b cx o.st hs hd
      generalize hx : buildWithContext env cfg scope b cx o.st = x at b1 b2 b3 b4 b5 b6 b7 ⊢
      obtain ⟨s, st⟩ := x
      dsimp only at b1 b2 b3 b4 b5 b6 b7 ⊢
      rw [run_edits env os hpl]
      obtain ⟨own, d1, d2, d3, d4⟩ := drop_live env cfg.limits scope b cx.span s (editsIn os) st b1 b5 b6 b7
      exact ⟨d2, startsOf env.processors.length s.spanContext ++ [], own, ⟨s.spanContext, [], [], own, b4, ⟨rfl, rfl⟩, d1, rfl, rfl⟩,
        by rw [d3, b3, List.append_nil], by rw [d4, b2]⟩
  | seq p q ihp ihq =>
    obtain ⟨h1, h2, h3, ss, es, h4, h5, h6⟩ := ihp hpl.1 cx cur o hd hid
    unfold Grows
    simp only [eval, outline]
    generalize hr : eval env cfg p cx cur o = r at h1 h2 h3 h5 h6 ⊢
    obtain ⟨⟨c, o'⟩, pan⟩ := r
    dsimp only at h1 h2 h3 h5 h6 ⊢
    subst h1 h2
    cases hpan : (outline cx.suppress p).panics with
    | true => exact ⟨hpan.symm, rfl, h3, ss, es, h4, h5, h6⟩
    | false =>
      obtain ⟨k1, k2, k3, ss', es', k4, k5, k6⟩ := ihq hpl.2 cx (cur.map ((outline cx.suppress p).edits.foldl Span.edit)) o' h3
        (by cases cur <;> rfl)
      simp only [Bool.false_eq_true, if_false]
      refine ⟨k1, ?_, k3, ss ++ ss', es ++ es', ⟨ss, ss', es, es', h4, k4, rfl, rfl⟩, ?_, ?_⟩
      · rw [k2]; cases cur <;> simp
      · rw [k5, h5, List.append_assoc]
      · rw [k6, h6, List.append_assoc]

/-! ## Properties -/

/-- **C100 (the trace of nested calls)** A thread runs a program of nested calls (`in_span`, `mark_span_as_active`, spans that are not active, attached values, suppressed
blocks, remote parents, panics that are caught or not). The processors then have received exactly the spans of its blocks: each is started before and delivered after those
inside it, once to every processor, as a child of the span of the block around it, with the edits made on it while it was the active one. The context stack is as before and
no span started by the program is held any longer. -/
theorem nested_calls_traced (env : Env A I B U W) (hp : Passive env) (cfg : Config A (Link A) B U W) (p : Prog A I B U W) (hpl : p.Plain) (t : Th A I B U W)
    (cur : Option (Span A I)) (ha : Active t cur) (hd : t.sys.isShutdown = false) (hroom : t.stack.stack.length + p.depth < 65535) :
    let t' := (exec env cfg p t).1
    let plan := (outline (view t.sys t.stack.cur).suppress p).spans
    (∃ ss es, Recorded env.processors.length cfg.limits plan (view t.sys t.stack.cur).span ss es ∧
      t'.starts = t.starts ++ ss ∧ t'.sys.log.map Prod.snd = t.sys.log.map Prod.snd ++ es) ∧
    (exec env cfg p t).2 = (outline (view t.sys t.stack.cur).suppress p).panics ∧
    t'.stack = t.stack ∧ ∀ j c, t.sys.cells.length ≤ j → t'.sys.cells[j]? = some c → c.holders = 0 := by
  obtain ⟨h1, h2, h3⟩ := exec_eval env cfg p t cur ha hroom
  obtain ⟨g1, _, _, ss, es, g4, g5, g6⟩ := eval_grows env hp cfg p hpl (view t.sys t.stack.cur) cur t.out hd
  rw [← h3] at g5 g6
  exact ⟨⟨ss, es, g4, g5, g6⟩, h1.trans g1, h2.stack, h2.new⟩

/-- Plans without a remote parent. -/
def Plan.Local : Plan A I → Prop
  | .none => True
  | .both f g => f.Local ∧ g.Local
  | .node _ _ _ f => f.Local
  | .under _ _ => False

/-- **C100 (one trace)** All spans of a program started inside a span are in its trace, at any depth. -/
theorem one_trace_inside {n : Nat} {l : SpanLimits} (f : Plan A I) (hf : f.Local) (parent : SpanContext) (ss : List (Nat × SpanContext)) (es : List (Nat × Exported A I))
    (h : Recorded n l f (some parent) ss es) : (∀ x ∈ ss, x.2.traceId = parent.traceId) ∧ ∀ x ∈ es, x.2.spanContext.traceId = parent.traceId := by
  induction f generalizing parent ss es with
  | none => obtain ⟨rfl, rfl⟩ := h; simp
  | both f g ihf ihg =>
    obtain ⟨s1, s2, e1, e2, h1, h2, rfl, rfl⟩ := h
    obtain ⟨a1, a2⟩ := ihf hf.1 parent s1 e1 h1
    obtain ⟨b1, b2⟩ := ihg hf.2 parent s2 e2 h2
    refine ⟨fun x hx => ?_, fun x hx => ?_⟩
    · rcases List.mem_append.1 hx with hx | hx
      · exact a1 x hx
      · exact b1 x hx
    · rcases List.mem_append.1 hx with hx | hx
      · exact a2 x hx
      · exact b2 x hx
  | under sc f _ => exact hf.elim
  | node scope b edits f ih =>
    obtain ⟨sc, s1, e1, own, ⟨hc, _, _⟩, h1, ho, rfl, rfl⟩ := h
    have hc : sc.traceId = parent.traceId := hc
    obtain ⟨a1, a2⟩ := ih hf sc s1 e1 h1
    refine ⟨fun x hx => ?_, fun x hx => ?_⟩
    · rcases List.mem_append.1 hx with hx | hx
      · obtain ⟨i, _, rfl⟩ := List.mem_map.1 hx
        exact hc
      · rw [a1 x hx, hc]
    · rcases List.mem_append.1 hx with hx | hx
      · rw [a2 x hx, hc]
      · rcases ho with ⟨rfl, _⟩ | ⟨_, _, _, _, _, rfl⟩
        · cases hx
        · obtain ⟨i, _, rfl⟩ := List.mem_map.1 hx
          exact hc

/-- **C100 (no span is lost)** Every sampled span of the program is delivered to every processor, whether its block returned or a panic unwound it. -/
theorem sampled_delivered {n : Nat} {l : SpanLimits} (f : Plan A I) (parent : Option SpanContext) (ss : List (Nat × SpanContext)) (es : List (Nat × Exported A I))
    (h : Recorded n l f parent ss es) : ∀ x ∈ ss, x.2.isSampled = true → ∃ y ∈ es, y.1 = x.1 ∧ y.2.spanContext = x.2 := by
  induction f generalizing parent ss es with
  | none => obtain ⟨rfl, rfl⟩ := h; simp
  | both f g ihf ihg =>
    obtain ⟨s1, s2, e1, e2, h1, h2, rfl, rfl⟩ := h
    intro x hx hs
    rcases List.mem_append.1 hx with hx | hx
    · obtain ⟨y, hy, h⟩ := ihf parent s1 e1 h1 x hx hs
      exact ⟨y, List.mem_append_left _ hy, h⟩
    · obtain ⟨y, hy, h⟩ := ihg parent s2 e2 h2 x hx hs
      exact ⟨y, List.mem_append_right _ hy, h⟩
  | under sc f ih => exact ih (some sc) ss es h
  | node scope b edits f ih =>
    obtain ⟨sc, s1, e1, own, _, h1, ho, rfl, rfl⟩ := h
    intro x hx hs
    rcases List.mem_append.1 hx with hx | hx
    · obtain ⟨i, hi, rfl⟩ := List.mem_map.1 hx
      rcases ho with ⟨_, hn⟩ | ⟨_, _, _, _, _, rfl⟩
      · rw [show sc.isSampled = true from hs] at hn; cases hn
      · exact ⟨_, List.mem_append_right _ (List.mem_map.2 ⟨i, hi, rfl⟩), rfl, rfl⟩
    · obtain ⟨y, hy, h⟩ := ih (some sc) s1 e1 h1 x hx hs
      exact ⟨y, List.mem_append_left _ hy, h⟩

/-- **C100 (a full stack, violated)** On a thread whose context stack is full, `mark_span_as_active` ends the new span before the block runs, and the block sees the outer
span as the active one. -/
theorem full_stack_violated (env : Env A I B U W) (cfg : Config A (Link A) B U W) (scope : I) (b : SpanBuilder A) (t : Th A I B U W) (hfull : 65534 ≤ t.stack.stack.length) :
    ∃ t1 : Th A I B U W, t1.out.st = dropSpan env (buildWithContext env cfg scope b (view t.sys t.stack.cur) t.out.st) ∧ t1.seen = t.seen ∧
      exec env cfg (.marked scope b .look) t = ({ t1 with seen := t.seen ++ [view t1.sys t.stack.cur] }, false) := by
  obtain ⟨s1, s2, s3, s4⟩ := start_spec env cfg scope b t
  have hpush : t.stack.push (t.stack.cur.withSpan (.cell t.sys.cells.length)) = (t.stack, maxPos) := by
    unfold Stack.push
    dsimp only
    rw [if_neg (by unfold maxPos; omega)]
  rcases hx : start env cfg scope b t with ⟨s, t1⟩
  rw [hx] at s1 s2 s3 s4
  dsimp only at s1 s2 s3 s4
  have hl : t1.sys.cells.length = t.sys.cells.length := by rw [s4]
  have hcell : ({ t1.sys with cells := t1.sys.cells ++ [⟨s, 1, false⟩] } : Shared.Sys A I W).cells[t.sys.cells.length]? = some ⟨s, 1, false⟩ := by
    dsimp only
    rw [← hl]
    simp
  have hdrop := drop_last env hcell
  have hseen : t1.seen = t.seen := by have := congrArg Out.seen s2; exact this
  refine ⟨{ t1 with sys := Shared.Sys.settle { t1.sys with cells := t1.sys.cells ++ [⟨s, 1, false⟩] } t.sys.cells.length ⟨s, 0, false⟩ (ensureEnded env none s t1.sys.provider) },
    ?_, hseen, ?_⟩
  · have h0 := settle_out { t1 with sys := { t1.sys with cells := t1.sys.cells ++ [⟨s, 1, false⟩] } } t.sys.cells.length ⟨s, 0, false⟩ _
      (ensureEnded_shutdown env none s t1.sys.provider) (ensureEnded_starts env none s t1.sys.provider)
    rw [h0]
    have e : buildWithContext env cfg scope b (view t.sys t.stack.cur) t.out.st = (s, after t1.out.st.obs t1.sys.provider) := by
      rw [← out_st, s2, s1]
    rw [e, drop_after]
    rfl
  · simp only [exec, hx, attached, s3, hl, Shared.step, hpush, if_true]
    simp only [dropped, Context.withSpan, hdrop, hseen]
    rfl

/-! ## Witnesses -/

/-- A thread with an empty stack and a provider with the two processors of `exampleEnv`. -/
def exampleThread : Th Nat Unit Unit (fun _ => Unit) Nat := ⟨Stack.init Context.new, { cells := [], isShutdown := false, world := 1, log := [] }, [], []⟩

/-- `in_span("a", { set_attribute(1); catch_unwind(in_span("b", { set_attribute(2); panic })); set_attribute(3); span "c" })` -/
def exampleProg : Prog Nat Unit Unit (fun _ => Unit) Nat :=
  .inSpan () ['a'] (.seq (.op (.edit (.setAttribute 1))) (.seq (.catching (.inSpan () ['b'] (.seq (.op (.edit (.setAttribute 2))) .panic)))
    (.seq (.op (.edit (.setAttribute 3))) (.leaf () { name := ['c'] } []))))

/-- The hypotheses of `nested_calls_traced`. -/
example : exampleProg.Plain ∧ Active exampleThread none ∧ exampleThread.stack.stack.length + exampleProg.depth < 65535 ∧ exampleProg.depth = 2 ∧ Passive exampleEnv :=
  ⟨⟨⟨_, rfl⟩, ⟨⟨_, rfl⟩, trivial⟩, ⟨_, rfl⟩, nofun⟩, (fun i h => by cases h), by decide, by decide, by
    intro p hp s cx w
    simp only [exampleEnv, List.mem_cons, List.not_mem_nil, or_false] at hp
    rcases hp with rfl | rfl <;> rfl⟩

/-- A full stack. -/
example : 65534 ≤ ({ exampleThread with stack := ⟨Context.new, List.replicate 65534 none⟩ } : Th Nat Unit Unit (fun _ => Unit) Nat).stack.stack.length := Nat.le_of_eq List.length_replicate.symm

/-- Its outline: `b` and `c` inside `a`; the panic is caught. -/
example : outline false exampleProg = ⟨[], .node () { name := ['a'] } [.setAttribute 1, .setAttribute 3]
    (.both .none (.both (.node () { name := ['b'] } [.setAttribute 2] (.both .none .none)) (.both .none (.node () { name := ['c'] } [] .none)))), false⟩ := rfl

end Otel.Sdk.Scoped
