import Verif.Sdk.Shared
import Verif.Sdk.TracerProps
import Verif.Context.Futures
/-!
# Spans of nested calls (`opentelemetry/src/trace/tracer.rs`, `src/trace/context.rs`, `src/context.rs`), C100

`Tracer::in_span` runs a closure with a new span active: the span is started from the current context, put into a context, this context is attached to the thread,
the closure runs, and the guard and the last copy of the context are dropped, which ends the span. `mark_span_as_active` does the same for a block. Here the context
stack (C01), the shared spans with their counts of holders (C88) and the tracer (C21) run together, for every program made of such calls, on one thread; panics unwind
through them.
-/

namespace Otel.Sdk.Scoped
open Otel.Ctx Rust Otel.Sdk

variable {A I W B : Type} {U : Nat → Type}

/-- What a context holds as its span: a shared span, by its number, or the context of a remote one. opentelemetry/src/trace/context.rs:21-51 -/
inductive Ref where
  | cell (i : Nat)
  | remote (sc : SpanContext)

/-- What the application does on a thread. -/
inductive Prog (A I B : Type) (U : Nat → Type) (W : Type) where
  | skip
  | seq (p q : Prog A I B U W)
  /-- a call on the active span: `get_active_span(|span| …)`, `Context::current().span().…` -/
  | op (o : SpanOp A)
  /-- the application reads the current context -/
  | look
  | panic
  /-- `catch_unwind(|| p)` -/
  | catching (p : Prog A I B U W)
  /-- `tracer.in_span(name, |cx| p)`; the closure drops `cx` when it returns -/
  | inSpan (scope : I) (name : Str) (p : Prog A I B U W)
  /-- `{ let _guard = mark_span_as_active(tracer.build(b)); p }` -/
  | marked (scope : I) (b : SpanBuilder A) (p : Prog A I B U W)
  /-- `{ let mut span = tracer.build(b); span.…; }`: a span that is never made active -/
  | leaf (scope : I) (b : SpanBuilder A) (os : List (SpanOp A))
  /-- `{ let _guard = Context::current_with_value(v).attach(); p }` -/
  | value (t : TypeKey) (v : Val B U t) (p : Prog A I B U W)
  /-- `{ let _guard = Context::enter_telemetry_suppressed_scope(); p }` -/
  | suppressed (p : Prog A I B U W)
  /-- `{ let _guard = Context::current().with_remote_span_context(sc).attach(); p }` -/
  | remote (sc : SpanContext) (p : Prog A I B U W)
  /-- anything else: other threads, the passing of time -/
  | world (f : W → W)
  /-- the provider is shut down -/
  | shutdown

/-! ## The code -/

/-- A thread with its context stack, the shared spans of the provider, and what was observed: calls of `on_start`, contexts read. -/
structure Th (A I B : Type) (U : Nat → Type) (W : Type) where
  stack : Stack (Context Ref B U)
  sys : Shared.Sys A I W
  starts : List (Nat × SpanContext)
  seen : List (Cx B U)

/-- The span context of what a context holds. opentelemetry/src/trace/context.rs:29-33 -/
def ctxOf (y : Shared.Sys A I W) : Ref → SpanContext
  | .remote sc => sc
  | .cell i => match y.cells[i]? with
    | some c => c.span.spanContext
    | none => SpanContext.none

/-- A context as the tracer and the samplers see it. -/
def view (y : Shared.Sys A I W) (c : Context Ref B U) : Cx B U := ⟨c.span.map (ctxOf y), c.entries, c.suppress⟩

/-- A copy of a context: its span gets a holder. -/
def copied (env : Env A I B U W) (c : Context Ref B U) (y : Shared.Sys A I W) : Shared.Sys A I W :=
  match c.span with
  | some (.cell i) => Shared.step env y (.clone i)
  | _ => y

/-- A context is dropped: its span loses a holder. -/
def dropped (env : Env A I B U W) (c : Context Ref B U) (y : Shared.Sys A I W) : Shared.Sys A I W :=
  match c.span with
  | some (.cell i) => Shared.step env y (.drop i)
  | _ => y

/-- `Tracer::build`: from the current context. opentelemetry/src/trace/tracer.rs:135-143, 171-173 -/
def start (env : Env A I B U W) (cfg : Config A (Link A) B U W) (scope : I) (b : SpanBuilder A) (t : Th A I B U W) : Span A I × Th A I B U W :=
  let x := buildWithContext env cfg scope b (view t.sys t.stack.cur) t.sys.provider
  (x.1, { t with
    sys := { t.sys with world := x.2.world, log := t.sys.log ++ x.2.obs.ends.map fun e => (t.sys.cells.length, e) }
    starts := t.starts ++ x.2.obs.starts })

/-- Attaches a context, runs the body, and drops the guard; a context that is refused is dropped at once. context.rs:326-333, 456-470, 524-543 -/
def attached (env : Env A I B U W) (c : Context Ref B U) (body : Th A I B U W → Th A I B U W × Bool) (t : Th A I B U W) : Th A I B U W × Bool :=
  let r := t.stack.push c
  if r.2 = maxPos then body { t with sys := dropped env c t.sys }
  else
    let (t', pan) := body { t with stack := r.1 }
    ({ t' with stack := t'.stack.dropGuard r.2, sys := dropped env c t'.sys }, pan)

/-- A program on a thread; true if it unwinds. `in_span`: opentelemetry/src/trace/tracer.rs:206-219, `mark_span_as_active`: opentelemetry/src/trace/context.rs:334-337,
`get_active_span`: 362-367; `current_with_value`, `with_telemetry_suppressed`: context.rs:175-177, 342-349, 392-394. -/
def exec (env : Env A I B U W) (cfg : Config A (Link A) B U W) : Prog A I B U W → Th A I B U W → Th A I B U W × Bool
  | .skip, t => (t, false)
  | .seq p q, t => match exec env cfg p t with
    | (t', true) => (t', true)
    | (t', false) => exec env cfg q t'
  | .op o, t => match t.stack.cur.span with
    | some (.cell i) => ({ t with sys := Shared.step env t.sys (.call i o) }, false)
    | _ => match o with
      | .endNow => ({ t with sys := { t.sys with world := (env.now t.sys.world).2 } }, false)
      | _ => (t, false)
  | .look, t => ({ t with seen := t.seen ++ [view t.sys t.stack.cur] }, false)
  | .panic, t => (t, true)
  | .catching p, t => ((exec env cfg p t).1, false)
  | .inSpan scope name p, t =>
    let (s, t) := start env cfg scope { name := name } t
    let i := t.sys.cells.length
    let cx := t.stack.cur.withSpan (.cell i)
    let t := { t with sys := copied env cx (Shared.step env t.sys (.wrap s)) }
    attached env cx (fun t => let (t, pan) := exec env cfg p t; ({ t with sys := dropped env cx t.sys }, pan)) t
  | .marked scope b p, t =>
    let (s, t) := start env cfg scope b t
    let i := t.sys.cells.length
    attached env (t.stack.cur.withSpan (.cell i)) (exec env cfg p) { t with sys := Shared.step env t.sys (.wrap s) }
  | .leaf scope b os, t =>
    let (s, t) := start env cfg scope b t
    let x := os.foldl (fun x o => o.run env x) (s, t.sys.provider)
    let st := dropSpan env x
    ({ t with sys := { t.sys with world := st.world, log := t.sys.log ++ st.obs.ends.map fun e => (t.sys.cells.length, e) } }, false)
  | .value k v p, t =>
    let cx := t.stack.cur.withValue k v
    attached env cx (exec env cfg p) { t with sys := copied env cx t.sys }
  | .suppressed p, t =>
    let cx := t.stack.cur.withTelemetrySuppressed
    attached env cx (exec env cfg p) { t with sys := copied env cx t.sys }
  | .remote sc p, t => attached env (t.stack.cur.withSpan (.remote sc)) (exec env cfg p) t
  | .world f, t => ({ t with sys := { t.sys with world := f t.sys.world } }, false)
  | .shutdown, t => ({ t with sys := { t.sys with isShutdown := true } }, false)

/-! ## Specification: the blocks of the program decide, there is no stack and nothing is counted -/

/-- What the application and the processors observe. -/
structure Out (A I B : Type) (U : Nat → Type) (W : Type) where
  st : PState A I W
  seen : List (Cx B U)

/-- A program inside a block whose context is `cx` and whose active span is `cur` (none: a remote span, or no span). Gives the active span and the observations
afterwards, and whether it unwinds. -/
def eval (env : Env A I B U W) (cfg : Config A (Link A) B U W) : Prog A I B U W → Cx B U → Option (Span A I) → Out A I B U W →
    (Option (Span A I) × Out A I B U W) × Bool
  | .skip, _, cur, o => ((cur, o), false)
  | .seq p q, cx, cur, o => match eval env cfg p cx cur o with
    | (r, true) => (r, true)
    | (r, false) => eval env cfg q cx r.1 r.2
  | .op c, _, cur, o => match cur with
    | some s => let x := c.run env (s, o.st); ((some x.1, { o with st := x.2 }), false)
    | none => match c with
      | .endNow => ((none, { o with st := { o.st with world := (env.now o.st.world).2 } }), false)
      | _ => ((none, o), false)
  | .look, cx, cur, o => ((cur, { o with seen := o.seen ++ [cx] }), false)
  | .panic, _, cur, o => ((cur, o), true)
  | .catching p, cx, cur, o => ((eval env cfg p cx cur o).1, false)
  | .inSpan scope name p, cx, cur, o =>
    let x := buildWithContext env cfg scope { name := name } cx o.st
    let r := eval env cfg p (cx.withSpan x.1.spanContext) (some x.1) { o with st := x.2 }
    ((cur, { r.1.2 with st := dropSpan env (r.1.1.getD x.1, r.1.2.st) }), r.2)
  | .marked scope b p, cx, cur, o =>
    let x := buildWithContext env cfg scope b cx o.st
    let r := eval env cfg p (cx.withSpan x.1.spanContext) (some x.1) { o with st := x.2 }
    ((cur, { r.1.2 with st := dropSpan env (r.1.1.getD x.1, r.1.2.st) }), r.2)
  | .leaf scope b os, cx, cur, o =>
    let x := os.foldl (fun x o => o.run env x) (buildWithContext env cfg scope b cx o.st)
    ((cur, { o with st := dropSpan env x }), false)
  | .value k v p, cx, cur, o => eval env cfg p (cx.withValue k v) cur o
  | .suppressed p, cx, cur, o => eval env cfg p cx.withTelemetrySuppressed cur o
  | .remote sc p, cx, cur, o =>
    let r := eval env cfg p (cx.withSpan sc) none o
    ((cur, r.1.2), r.2)
  | .world f, _, cur, o => ((cur, { o with st := { o.st with world := f o.st.world } }), false)
  | .shutdown, _, cur, o => ((cur, { o with st := { o.st with isShutdown := true } }), false)

/-- Nesting of blocks that attach a context. -/
def Prog.depth : Prog A I B U W → Nat
  | .seq p q => max p.depth q.depth
  | .catching p => p.depth
  | .inSpan _ _ p => p.depth + 1
  | .marked _ _ p => p.depth + 1
  | .value _ _ p => p.depth + 1
  | .suppressed p => p.depth + 1
  | .remote _ p => p.depth + 1
  | _ => 0

/-! ## What was observed before does not matter -/

/-- A provider state with earlier observations put in front. -/
def after (o : Obs A I) (st : PState A I W) : PState A I W := { st with obs := ⟨o.starts ++ st.obs.starts, o.ends ++ st.obs.ends⟩ }

theorem deliver_after (o : Obs A I) (x : Exported A I) (i : Nat) (ps : List (Processor A I B U W)) (st : PState A I W) :
    deliver x i ps (after o st) = after o (deliver x i ps st) := by
  induction ps generalizing i st with
  | nil => rfl
  | cons p ps ih =>
    simp only [deliver]
    rw [← ih]
    simp [after, List.append_assoc]

theorem ensureEnded_after (env : Env A I B U W) (o : Obs A I) (ts : Option Time) (s : Span A I) (st : PState A I W) :
    ensureEnded env ts s (after o st) = ((ensureEnded env ts s st).1, after o (ensureEnded env ts s st).2) := by
  obtain ⟨sd, ob, w⟩ := st
  unfold ensureEnded
  cases s.data with
  | none => rfl
  | some d =>
    cases sd with
    | true => rfl
    | false =>
      cases ts with
      | some t => exact Prod.ext rfl (deliver_after o _ 0 _ _)
      | none =>
        by_cases h : d.endTime = d.startTime
        · simp only [h, after, Bool.false_eq_true, if_false, if_true]
          exact Prod.ext rfl (deliver_after o _ 0 env.processors ⟨false, ob, (env.now w).2⟩)
        · simp only [h, after, Bool.false_eq_true, if_false]
          exact Prod.ext rfl (deliver_after o _ 0 env.processors ⟨false, ob, w⟩)

theorem run_after (env : Env A I B U W) (o : Obs A I) (c : SpanOp A) (s : Span A I) (st : PState A I W) :
    c.run env (s, after o st) = ((c.run env (s, st)).1, after o (c.run env (s, st)).2) := by
  cases c with
  | edit e => rfl
  | endAt t => exact ensureEnded_after env o (some t) s st
  | endNow => exact ensureEnded_after env o (some (env.now st.world).1) s { st with world := (env.now st.world).2 }

theorem runs_after (env : Env A I B U W) (o : Obs A I) (os : List (SpanOp A)) (s : Span A I) (st : PState A I W) :
    os.foldl (fun x c => c.run env x) (s, after o st) =
      ((os.foldl (fun x c => c.run env x) (s, st)).1, after o (os.foldl (fun x c => c.run env x) (s, st)).2) := by
  induction os generalizing s st with
  | nil => rfl
  | cons c os ih =>
    rw [List.foldl_cons, List.foldl_cons, run_after]
    exact ih _ _

theorem startAll_after (env : Env A I B U W) (o : Obs A I) (cx : Cx B U) (i : Nat) (ps : List (Processor A I B U W)) (s : Span A I) (st : PState A I W) :
    startAll env cx i ps (s, after o st) = ((startAll env cx i ps (s, st)).1, after o (startAll env cx i ps (s, st)).2) := by
  induction ps generalizing i s st with
  | nil => rfl
  | cons p ps ih =>
    simp only [startAll]
    have h : ({ after o st with world := (p.onStart s cx st.world).2, obs := { (after o st).obs with starts := (after o st).obs.starts ++ [(i, s.spanContext)] } } : PState A I W) =
        after o { st with world := (p.onStart s cx st.world).2, obs := { st.obs with starts := st.obs.starts ++ [(i, s.spanContext)] } } := by
      simp [after, List.append_assoc]
    have hw : (after o st).world = st.world := rfl
    rw [hw, h, runs_after]
    exact ih _ _ _

theorem build_after (env : Env A I B U W) (cfg : Config A (Link A) B U W) (o : Obs A I) (scope : I) (b : SpanBuilder A) (cx : Cx B U) (st : PState A I W) :
    buildWithContext env cfg scope b cx (after o st) = ((buildWithContext env cfg scope b cx st).1, after o (buildWithContext env cfg scope b cx st).2) := by
  unfold buildWithContext
  split
  · rfl
  · have hs : (after o st).isShutdown = st.isShutdown := rfl
    rw [hs]
    split
    · rfl
    · have hw : (after o st).world = st.world := rfl
      rw [hw]
      rcases pickSpanId cfg b st.world with ⟨i, w1⟩
      rcases h2 : pickTraceId cfg b cx w1 with ⟨ti, w2⟩
      rcases h3 : pickSampling cfg b cx ti w2 with ⟨sr, w3⟩
      rcases h4 : makeSpan env cfg scope b cx i ti sr w3 with ⟨s, w4⟩
      simp only [h2, h3, h4]
      exact startAll_after env o cx 0 env.processors s ⟨st.isShutdown, st.obs, w4⟩

theorem drop_after (env : Env A I B U W) (o : Obs A I) (s : Span A I) (st : PState A I W) : dropSpan env (s, after o st) = after o (dropSpan env (s, st)) := by
  unfold dropSpan
  rw [ensureEnded_after]

/-! ## Only a shutdown shuts the provider down -/

theorem deliver_shutdown (x : Exported A I) (i : Nat) (ps : List (Processor A I B U W)) (st : PState A I W) : (deliver x i ps st).isShutdown = st.isShutdown := by
  induction ps generalizing i st with
  | nil => rfl
  | cons p ps ih => exact (ih _ _).trans rfl

theorem ensureEnded_shutdown (env : Env A I B U W) (ts : Option Time) (s : Span A I) (st : PState A I W) : (ensureEnded env ts s st).2.isShutdown = st.isShutdown := by
  unfold ensureEnded
  split
  · rfl
  · dsimp only
    split
    · rfl
    · split
      · exact deliver_shutdown _ _ _ _
      · split
        · exact deliver_shutdown _ _ _ _
        · exact deliver_shutdown _ _ _ _

theorem run_shutdown (env : Env A I B U W) (c : SpanOp A) (s : Span A I) (st : PState A I W) : (c.run env (s, st)).2.isShutdown = st.isShutdown := by
  cases c with
  | edit e => rfl
  | endAt t => exact ensureEnded_shutdown env _ s st
  | endNow => exact (ensureEnded_shutdown env (some (env.now st.world).1) s { st with world := (env.now st.world).2 }).trans rfl

theorem runs_shutdown (env : Env A I B U W) (os : List (SpanOp A)) (s : Span A I) (st : PState A I W) :
    (os.foldl (fun x c => c.run env x) (s, st)).2.isShutdown = st.isShutdown := by
  induction os generalizing s st with
  | nil => rfl
  | cons c os ih => exact (ih (c.run env (s, st)).1 (c.run env (s, st)).2).trans (run_shutdown env c s st)

theorem startAll_shutdown (env : Env A I B U W) (cx : Cx B U) (i : Nat) (ps : List (Processor A I B U W)) (s : Span A I) (st : PState A I W) :
    (startAll env cx i ps (s, st)).2.isShutdown = st.isShutdown := by
  induction ps generalizing i s st with
  | nil => rfl
  | cons p ps ih =>
    simp only [startAll]
    exact (ih _ _ _).trans (runs_shutdown env _ _ _)

theorem build_shutdown (env : Env A I B U W) (cfg : Config A (Link A) B U W) (scope : I) (b : SpanBuilder A) (cx : Cx B U) (st : PState A I W) :
    (buildWithContext env cfg scope b cx st).2.isShutdown = st.isShutdown := by
  unfold buildWithContext
  split
  · rfl
  · split
    · rfl
    · rcases pickSpanId cfg b st.world with ⟨i, w1⟩
      rcases h2 : pickTraceId cfg b cx w1 with ⟨ti, w2⟩
      rcases h3 : pickSampling cfg b cx ti w2 with ⟨sr, w3⟩
      rcases h4 : makeSpan env cfg scope b cx i ti sr w3 with ⟨s, w4⟩
      simp only [h2, h3, h4]
      exact startAll_shutdown env cx 0 env.processors s ⟨st.isShutdown, st.obs, w4⟩

/-! ## A call on a span leaves its identity -/

theorem run_context (env : Env A I B U W) (c : SpanOp A) (s : Span A I) (st : PState A I W) : (c.run env (s, st)).1.spanContext = s.spanContext :=
  (op_evolved env c s st).1

/-! ## The refinement -/

/-- The observations of a thread. -/
def Th.out (t : Th A I B U W) : Out A I B U W := ⟨⟨t.sys.isShutdown, ⟨t.starts, t.sys.log.map Prod.snd⟩, t.sys.world⟩, t.seen⟩

/-- The active span of a thread: the shared span in the current context, which has a holder and is not poisoned. -/
def Active (t : Th A I B U W) : Option (Span A I) → Prop
  | some s => ∃ i h, t.stack.cur.span = some (.cell i) ∧ t.sys.cells[i]? = some ⟨s, h, false⟩ ∧ 1 ≤ h
  | none => ∀ i, t.stack.cur.span ≠ some (.cell i)

/-- What a block may change: the active span by calls, and spans it started itself, which all lost their holders. -/
structure Step (t t' : Th A I B U W) (cur cur' : Option (Span A I)) : Prop where
  stack : t'.stack = t.stack
  grows : t.sys.cells.length ≤ t'.sys.cells.length
  old : ∀ j, j < t.sys.cells.length → t.stack.cur.span ≠ some (.cell j) → t'.sys.cells[j]? = t.sys.cells[j]?
  new : ∀ j c, t.sys.cells.length ≤ j → t'.sys.cells[j]? = some c → c.holders = 0
  act : match cur, cur' with
    | some s, some s' => s'.spanContext = s.spanContext ∧
        ∀ i h, t.stack.cur.span = some (.cell i) → t.sys.cells[i]? = some ⟨s, h, false⟩ → t'.sys.cells[i]? = some ⟨s', h, false⟩
    | none, none => True
    | _, _ => False

theorem Step.refl (t : Th A I B U W) (cur : Option (Span A I)) : Step t t cur cur :=
  ⟨rfl, Nat.le_refl _, fun _ _ _ => rfl, fun j c hj hc => by
      have := (List.getElem?_eq_some_iff.1 hc).1
      omega, by cases cur <;> simp⟩

theorem Active.lt {t : Th A I B U W} {s : Span A I} {i : Nat} (h : Active t (some s)) (hi : t.stack.cur.span = some (.cell i)) : i < t.sys.cells.length := by
  obtain ⟨j, n, h1, h2, _⟩ := h
  rw [hi] at h1
  injection h1 with h1; injection h1 with h1; subst h1
  exact (List.getElem?_eq_some_iff.1 h2).1

theorem Step.active {t t' : Th A I B U W} {cur cur' : Option (Span A I)} (h : Step t t' cur cur') (ha : Active t cur) : Active t' cur' := by
  cases cur with
  | none => cases cur' with
    | none => intro i; rw [h.stack]; exact ha i
    | some s' => exact h.act.elim
  | some s => cases cur' with
    | none => exact h.act.elim
    | some s' =>
      obtain ⟨i, n, h1, h2, h3⟩ := ha
      exact ⟨i, n, by rw [h.stack]; exact h1, h.act.2 i n h1 h2, h3⟩

theorem Step.trans {t t1 t2 : Th A I B U W} {c c1 c2 : Option (Span A I)} (ha : Active t c) (h : Step t t1 c c1) (h' : Step t1 t2 c1 c2) : Step t t2 c c2 := by
  refine ⟨h'.stack.trans h.stack, Nat.le_trans h.grows h'.grows, fun j hj hn => ?_, fun j d hj hd => ?_, ?_⟩
  · rw [h'.old j (Nat.lt_of_lt_of_le hj h.grows) (by rw [h.stack]; exact hn), h.old j hj hn]
  · by_cases hl : t1.sys.cells.length ≤ j
    · exact h'.new j d hl hd
    · have hn : t1.stack.cur.span ≠ some (.cell j) := by
        rw [h.stack]
        intro he
        cases c with
        | none => exact ha j he
        | some s => have := ha.lt he; omega
      rw [h'.old j (by omega) hn] at hd
      exact h.new j d hj hd
  · cases c with
    | none => cases c1 with
      | none => cases c2 with
        | none => trivial
        | some s2 => exact h'.act.elim
      | some s1 => exact h.act.elim
    | some s => cases c1 with
      | none => exact h.act.elim
      | some s1 => cases c2 with
        | none => exact h'.act.elim
        | some s2 =>
          exact ⟨h'.act.1.trans h.act.1, fun i n hi hc => h'.act.2 i n (by rw [h.stack]; exact hi) (h.act.2 i n hi hc)⟩

/-- The tracer sees the same context before and after. -/
theorem Step.view {t t' : Th A I B U W} {c c' : Option (Span A I)} (ha : Active t c) (h : Step t t' c c') : view t'.sys t'.stack.cur = view t.sys t.stack.cur := by
  unfold Scoped.view
  rw [h.stack]
  congr 1
  cases hs : t.stack.cur.span with
  | none => rfl
  | some r => cases r with
    | remote sc => rfl
    | cell i =>
      cases c with
      | none => exact absurd hs (ha i)
      | some s => cases c' with
        | none => exact h.act.elim
        | some s' =>
          obtain ⟨j, n, h1, h2, _⟩ := ha
          have : j = i := by rw [hs] at h1; injection h1 with h1; injection h1 with h1; exact h1.symm
          subst this
          show some (ctxOf t'.sys (.cell j)) = some (ctxOf t.sys (.cell j))
          simp only [ctxOf, h2, h.act.2 j n h1 h2, h.act.1]

/-! ### Pieces -/

theorem out_st (t : Th A I B U W) : t.out.st = after t.out.st.obs t.sys.provider := by
  simp [Th.out, after, Shared.Sys.provider]

theorem start_spec (env : Env A I B U W) (cfg : Config A (Link A) B U W) (scope : I) (b : SpanBuilder A) (t : Th A I B U W) :
    (start env cfg scope b t).1 = (buildWithContext env cfg scope b (view t.sys t.stack.cur) t.out.st).1 ∧
    (start env cfg scope b t).2.out = ⟨(buildWithContext env cfg scope b (view t.sys t.stack.cur) t.out.st).2, t.seen⟩ ∧
    (start env cfg scope b t).2.stack = t.stack ∧ (start env cfg scope b t).2.sys.cells = t.sys.cells := by
  have hshut : ∀ st : PState A I W, (buildWithContext env cfg scope b (view t.sys t.stack.cur) st).2.isShutdown = st.isShutdown := by
    intro st
    exact build_shutdown env cfg scope b _ st
  refine ⟨?_, ?_, rfl, rfl⟩
  · rw [out_st, build_after]; rfl
  · rw [out_st, build_after]
    have := hshut t.sys.provider
    simp only [start, Th.out, after, List.map_append, List.map_map, Function.comp_def, List.map_id', this]
    rfl

theorem drop_many (env : Env A I B U W) {y : Shared.Sys A I W} {i h : Nat} {s : Span A I} {p : Bool} (hc : y.cells[i]? = some ⟨s, h + 2, p⟩) :
    Shared.step env y (.drop i) = { y with cells := y.cells.set i ⟨s, h + 1, p⟩ } := by
  simp only [Shared.step, hc]
  rw [if_neg (by omega)]
  rfl

theorem drop_last (env : Env A I B U W) {y : Shared.Sys A I W} {i : Nat} {s : Span A I} {p : Bool} (hc : y.cells[i]? = some ⟨s, 1, p⟩) :
    Shared.step env y (.drop i) = y.settle i ⟨s, 0, p⟩ (ensureEnded env none s y.provider) := by
  simp only [Shared.step, hc, if_true]

theorem push_room {α : Type} (s : Stack α) (c : α) (h : s.stack.length + 1 < 65535) :
    (s.push c).2 ≠ maxPos ∧ (s.push c).1.cur = c ∧ (s.push c).1.stack.length = s.stack.length + 1 := by
  have hroom : s.stack.length + 1 < maxPos := h
  simp only [Stack.push, if_pos hroom]
  refine ⟨?_, trivial, by simp⟩
  unfold maxPos; omega

theorem attached_room (env : Env A I B U W) (c : Context Ref B U) (body : Th A I B U W → Th A I B U W × Bool) (t : Th A I B U W) (h : t.stack.stack.length + 1 < 65535) :
    attached env c body t =
      let e := body { t with stack := (t.stack.push c).1 }
      ({ e.1 with stack := e.1.stack.dropGuard (t.stack.push c).2, sys := dropped env c e.1.sys }, e.2) := by
  unfold attached
  dsimp only
  rw [if_neg (push_room t.stack c h).1]

/-- A block that made its own span active leaves the rest as it was. -/
theorem block_step {t t2 e tf : Th A I B U W} {s s' x : Span A I} {n : Nat} {cur : Option (Span A I)} (ha : Active t cur)
    (hcells : t2.sys.cells = t.sys.cells ++ [⟨s, n, false⟩]) (hspan : t2.stack.cur.span = some (.cell t.sys.cells.length))
    (h : Step t2 e (some s) (some s')) (hstack : tf.stack = t.stack) (hf : tf.sys.cells = e.sys.cells.set t.sys.cells.length ⟨x, 0, false⟩) : Step t tf cur cur := by
  have hl2 : t2.sys.cells.length = t.sys.cells.length + 1 := by rw [hcells]; simp
  have key : ∀ j, j < t.sys.cells.length → tf.sys.cells[j]? = t.sys.cells[j]? := by
    intro j hj
    have hne : t.sys.cells.length ≠ j := by omega
    rw [hf, List.getElem?_set_ne hne, h.old j (by omega) (by rw [hspan]; intro he; injection he with he; injection he with he; omega), hcells,
      List.getElem?_append_left hj]
  refine ⟨hstack, ?_, fun j hj _ => key j hj, fun j c hj hc => ?_, ?_⟩
  · have := h.grows
    rw [hf, List.length_set]; omega
  · by_cases he : t.sys.cells.length = j
    · subst he
      rw [hf, List.getElem?_set_self (by have := h.grows; omega)] at hc
      injection hc with hc; subst hc; rfl
    · rw [hf, List.getElem?_set_ne he] at hc
      exact h.new j c (by omega) hc
  · cases cur with
    | none => trivial
    | some a => exact ⟨rfl, fun i m hi hc => by rw [key i (ha.lt hi)]; exact hc⟩

theorem ensureEnded_starts (env : Env A I B U W) (ts : Option Time) (s : Span A I) (st : PState A I W) : (ensureEnded env ts s st).2.obs.starts = st.obs.starts := by
  unfold ensureEnded
  split
  · rfl
  · dsimp only
    split
    · rfl
    · split
      · exact (deliver_obs _ _ _ _).2.1
      · split
        · exact (deliver_obs _ _ _ _).2.1
        · exact (deliver_obs _ _ _ _).2.1

theorem run_starts (env : Env A I B U W) (c : SpanOp A) (s : Span A I) (st : PState A I W) : (c.run env (s, st)).2.obs.starts = st.obs.starts := by
  cases c with
  | edit e => rfl
  | endAt t => exact ensureEnded_starts env _ s st
  | endNow => exact (ensureEnded_starts env (some (env.now st.world).1) s { st with world := (env.now st.world).2 }).trans rfl

theorem runs_starts (env : Env A I B U W) (os : List (SpanOp A)) (s : Span A I) (st : PState A I W) :
    (os.foldl (fun x c => c.run env x) (s, st)).2.obs.starts = st.obs.starts := by
  induction os generalizing s st with
  | nil => rfl
  | cons c os ih => exact (ih (c.run env (s, st)).1 (c.run env (s, st)).2).trans (run_starts env c s st)

/-- What is observed when a span did something. -/
theorem settle_out (t : Th A I B U W) (i : Nat) (c : Shared.Cell A I) (x : Span A I × PState A I W) (hs : x.2.isShutdown = t.sys.isShutdown) (hst : x.2.obs.starts = []) :
    ({ t with sys := t.sys.settle i c x } : Th A I B U W).out = ⟨after t.out.st.obs x.2, t.seen⟩ := by
  simp [Th.out, after, Shared.Sys.settle, hs, hst, Function.comp_def]

theorem getElem?_append_last {α : Type} (l : List α) (a : α) : (l ++ [a])[l.length]? = some a := by simp


/-- What the induction below says of a program. -/
def Refined (env : Env A I B U W) (cfg : Config A (Link A) B U W) (p : Prog A I B U W) : Prop :=
  ∀ (t : Th A I B U W) (cur : Option (Span A I)), Active t cur → t.stack.stack.length + p.depth < 65535 →
    (exec env cfg p t).2 = (eval env cfg p (view t.sys t.stack.cur) cur t.out).2 ∧
    Step t (exec env cfg p t).1 cur (eval env cfg p (view t.sys t.stack.cur) cur t.out).1.1 ∧
    (exec env cfg p t).1.out = (eval env cfg p (view t.sys t.stack.cur) cur t.out).1.2

/-- A block in a context that was derived from the current one and has the same span. -/
theorem derived_block (env : Env A I B U W) (cfg : Config A (Link A) B U W) (p : Prog A I B U W) (ih : Refined env cfg p) (t : Th A I B U W) (cur : Option (Span A I))
    (ha : Active t cur) (c : Context Ref B U) (hc : c.span = t.stack.cur.span) (hd : t.stack.stack.length + 1 + p.depth < 65535) :
    (attached env c (exec env cfg p) { t with sys := copied env c t.sys }).2 = (eval env cfg p (view t.sys c) cur t.out).2 ∧
    Step t (attached env c (exec env cfg p) { t with sys := copied env c t.sys }).1 cur (eval env cfg p (view t.sys c) cur t.out).1.1 ∧
    (attached env c (exec env cfg p) { t with sys := copied env c t.sys }).1.out = (eval env cfg p (view t.sys c) cur t.out).1.2 := by
  have hroom : t.stack.stack.length + 1 < 65535 := by omega
  obtain ⟨r1, r2, r3⟩ := push_room t.stack c hroom
  rw [attached_room env _ _ { t with sys := copied env c t.sys } hroom]
  dsimp only
  cases cur with
  | none =>
    have hcell : ∀ i, c.span ≠ some (.cell i) := fun i => by rw [hc]; exact ha i
    have hcopy : ∀ y : Shared.Sys A I W, copied env c y = y ∧ dropped env c y = y := by
      intro y
      unfold copied dropped
      cases hs : c.span with
      | none => exact ⟨rfl, rfl⟩
      | some x => cases x with
        | remote sc => exact ⟨rfl, rfl⟩
        | cell i => exact absurd hs (hcell i)
    rw [(hcopy t.sys).1]
    have ha2 : Active ({ t with stack := (t.stack.push c).1 } : Th A I B U W) none := by
      intro i; show (t.stack.push c).1.cur.span ≠ _; rw [r2]; exact hcell i
    obtain ⟨g1, g2, g3⟩ := ih { t with stack := (t.stack.push c).1 } none ha2 (by rw [r3]; omega)
    simp only [r2] at g1 g2 g3
    refine ⟨g1, ⟨?_, by rw [(hcopy _).2]; exact g2.grows, fun j hj _ => by rw [(hcopy _).2]; exact g2.old j hj (ha2 j), fun j d hj hc => ?_, ?_⟩, ?_⟩
    · dsimp only
      rw [g2.stack]
      exact push_drop t.stack _ (by omega)
    · rw [(hcopy _).2] at hc
      exact g2.new j d hj hc
    · have := g2.act
      cases hr : (eval env cfg p (view t.sys c) none t.out).1.1 with
      | none => trivial
      | some s' =>
        have e : ({ t with stack := (t.stack.push c).1 } : Th A I B U W).out = t.out := rfl
        rw [e, hr] at this
        exact this.elim
    · rw [(hcopy _).2]; exact g3
  | some s =>
    obtain ⟨i, n, h1, h2, h3⟩ := ha
    have hl := (List.getElem?_eq_some_iff.1 h2).1
    have hci : c.span = some (.cell i) := hc.trans h1
    have hcopy : copied env c t.sys = { t.sys with cells := t.sys.cells.set i ⟨s, n + 1, false⟩ } := by
      simp [copied, hci, Shared.step, h2]
    have hview : view (copied env c t.sys) c = view t.sys c := by
      unfold view
      rw [hci, hcopy]
      simp [ctxOf, h2, List.getElem?_set_self hl]
    generalize ht2 : ({ t with stack := (t.stack.push c).1, sys := copied env c t.sys } : Th A I B U W) = t2
    have e1 : t2.stack = (t.stack.push c).1 := by rw [← ht2]
    have e2 : t2.sys = copied env c t.sys := by rw [← ht2]
    have hout : t2.out = t.out := by rw [← ht2]; simp [Th.out, hcopy]
    have hcell2 : t2.sys.cells[i]? = some ⟨s, n + 1, false⟩ := by rw [e2, hcopy]; exact List.getElem?_set_self hl
    have hspan2 : t2.stack.cur.span = some (.cell i) := by rw [e1, r2]; exact hci
    have ha2 : Active t2 (some s) := ⟨i, n + 1, hspan2, hcell2, by omega⟩
    obtain ⟨g1, g2, g3⟩ := ih t2 (some s) ha2 (by rw [e1, r3]; omega)
    rw [hout, e2, e1, r2, hview] at g1 g2 g3
    generalize eval env cfg p (view t.sys c) (some s) t.out = ev at g1 g2 g3 ⊢
    generalize exec env cfg p t2 = ex at g1 g2 g3 ⊢
    obtain ⟨⟨cur', o'⟩, pan⟩ := ev
    obtain ⟨t3, pan'⟩ := ex
    simp only at g1 g2 g3 ⊢
    cases cur' with
    | none => exact g2.act.elim
    | some s' =>
      have hcell3 : t3.sys.cells[i]? = some ⟨s', n + 1, false⟩ := g2.act.2 i (n + 1) hspan2 hcell2
      obtain ⟨m, rfl⟩ : ∃ m, n = m + 1 := ⟨n - 1, by omega⟩
      have hdrop : dropped env c t3.sys = { t3.sys with cells := t3.sys.cells.set i ⟨s', m + 1, false⟩ } := by
        simp only [dropped, hci]
        exact drop_many env hcell3
      have hl2 : t2.sys.cells.length = t.sys.cells.length := by rw [e2, hcopy]; simp
      have hl3 : i < t3.sys.cells.length := (List.getElem?_eq_some_iff.1 hcell3).1
      refine ⟨g1, ⟨?_, ?_, fun j hj hne => ?_, fun j d hj hd => ?_, g2.act.1, fun k m' hk hck => ?_⟩, ?_⟩
      · rw [g2.stack, e1]
        exact push_drop t.stack _ (by omega)
      · have := g2.grows
        rw [hdrop]; simp only [List.length_set]; omega
      · have hij : i ≠ j := fun e => hne (e ▸ h1)
        rw [hdrop]
        simp only
        rw [List.getElem?_set_ne hij, g2.old j (by omega) (by rw [hspan2]; intro he; injection he with he; injection he with he; exact hij he), e2, hcopy]
        exact List.getElem?_set_ne hij
      · have hij : i ≠ j := by omega
        rw [hdrop] at hd
        simp only at hd
        rw [List.getElem?_set_ne hij] at hd
        exact g2.new j d (by omega) hd
      · have hik : i = k := by rw [h1] at hk; injection hk with hk; injection hk
        subst hik
        rw [h2] at hck
        injection hck with hck; injection hck with _ hck; subst hck
        rw [hdrop]
        exact List.getElem?_set_self hl3
      · rw [← g3, hdrop]; rfl

/-- A block with a span of its own, whose context has `n + 1` holders when the block begins and still has them when its body is done; the block drops `n` before the guard. -/
theorem span_block (env : Env A I B U W) (cfg : Config A (Link A) B U W) (p : Prog A I B U W) (ih : Refined env cfg p) (t : Th A I B U W) (cur : Option (Span A I))
    (ha : Active t cur) (scope : I) (b : SpanBuilder A) (hd : t.stack.stack.length + 1 + p.depth < 65535) (t1 : Th A I B U W) (s : Span A I)
    (hstart : start env cfg scope b t = (s, t1)) (n : Nat) :
    let x := buildWithContext env cfg scope b (view t.sys t.stack.cur) t.out.st
    let c := t.stack.cur.withSpan (.cell t.sys.cells.length)
    let t2 : Th A I B U W := { t1 with stack := (t.stack.push c).1, sys := { t1.sys with cells := t1.sys.cells ++ [⟨s, n, false⟩] } }
    let r := eval env cfg p ((view t.sys t.stack.cur).withSpan x.1.spanContext) (some x.1) { t.out with st := x.2 }
    1 ≤ n → ∃ s' t3, exec env cfg p t2 = (t3, r.2) ∧ r.1.1 = some s' ∧ t3.out = r.1.2 ∧ t3.sys.cells[t.sys.cells.length]? = some ⟨s', n, false⟩ ∧ t3.stack = t2.stack ∧
      ∀ (tf : Th A I B U W) (z : Span A I), tf.stack = t.stack → tf.sys.cells = t3.sys.cells.set t.sys.cells.length ⟨z, 0, false⟩ → Step t tf cur cur := by
  intro x c t2 r hn
  have hroom : t.stack.stack.length + 1 < 65535 := by omega
  obtain ⟨r1, r2, r3⟩ := push_room t.stack c hroom
  obtain ⟨s1, s2, s3, s4⟩ := start_spec env cfg scope b t
  rw [hstart] at s1 s2 s3 s4
  simp only at s1 s2 s3 s4
  have hcell2 : t2.sys.cells[t.sys.cells.length]? = some ⟨s, n, false⟩ := by
    show (t1.sys.cells ++ [_])[_]? = _
    rw [s4]; exact getElem?_append_last _ _
  have hspan2 : t2.stack.cur.span = some (.cell t.sys.cells.length) := by show (t.stack.push c).1.cur.span = _; rw [r2]; rfl
  have ha2 : Active t2 (some s) := ⟨_, n, hspan2, hcell2, hn⟩
  have hview : view t2.sys t2.stack.cur = (view t.sys t.stack.cur).withSpan x.1.spanContext := by
    have e : t2.stack.cur = c := r2
    rw [e]
    show Context.mk _ _ _ = Context.mk _ _ _
    congr 1
    show some (ctxOf t2.sys (.cell t.sys.cells.length)) = _
    rw [ctxOf, hcell2, s1]
  have hout : t2.out = { t.out with st := x.2 } := by
    have e : t2.out = t1.out := rfl
    rw [e, s2]; rfl
  obtain ⟨g1, g2, g3⟩ := ih t2 (some s) ha2 (by show (t.stack.push c).1.stack.length + _ < _; rw [r3]; omega)
  rw [hview, hout, s1] at g1 g2 g3
  have er : r = eval env cfg p ((view t.sys t.stack.cur).withSpan x.1.spanContext) (some x.1) { t.out with st := x.2 } := rfl
  rw [← er] at g1 g2 g3
  rw [← s1] at g2
  cases hr : r.1.1 with
  | none => rw [hr] at g2; exact g2.act.elim
  | some s' =>
    rw [hr] at g2
    refine ⟨s', (exec env cfg p t2).1, Prod.ext rfl g1, rfl, g3, g2.act.2 _ _ hspan2 hcell2, g2.stack, fun tf z h1 h2 => ?_⟩
    exact block_step (t := t) (t2 := t2) ha (by show t1.sys.cells ++ _ = _; rw [s4]) hspan2 g2 h1 h2

/-- **C100.** Whatever program of nested calls a thread runs, the code does what the blocks of the program say: spans are started in the context of the block around
them, calls on the active span reach the span of the block around them, every block ends its span when it is left, by returning or by a panic, and nothing else changes:
the context stack is as before, and no span that was started keeps a holder. Blocks may nest as deep as the context stack allows. -/
theorem exec_eval (env : Env A I B U W) (cfg : Config A (Link A) B U W) (p : Prog A I B U W) (t : Th A I B U W) (cur : Option (Span A I)) (ha : Active t cur)
    (hd : t.stack.stack.length + p.depth < 65535) :
    (exec env cfg p t).2 = (eval env cfg p (view t.sys t.stack.cur) cur t.out).2 ∧
    Step t (exec env cfg p t).1 cur (eval env cfg p (view t.sys t.stack.cur) cur t.out).1.1 ∧
    (exec env cfg p t).1.out = (eval env cfg p (view t.sys t.stack.cur) cur t.out).1.2 := by
  induction p generalizing t cur with
  | skip => exact ⟨rfl, .refl _ _, rfl⟩
  | panic => exact ⟨rfl, .refl _ _, rfl⟩
  | look =>
    refine ⟨rfl, ⟨rfl, Nat.le_refl _, fun _ _ _ => rfl, fun j c hj hc => ?_, ?_⟩, rfl⟩
    · exact (Step.refl t cur).new j c hj hc
    · exact (Step.refl t cur).act
  | world f =>
    refine ⟨rfl, ⟨rfl, Nat.le_refl _, fun _ _ _ => rfl, fun j c hj hc => ?_, ?_⟩, rfl⟩
    · exact (Step.refl t cur).new j c hj hc
    · exact (Step.refl t cur).act
  | shutdown =>
    refine ⟨rfl, ⟨rfl, Nat.le_refl _, fun _ _ _ => rfl, fun j c hj hc => ?_, ?_⟩, rfl⟩
    · exact (Step.refl t cur).new j c hj hc
    · exact (Step.refl t cur).act
  | catching p ih =>
    obtain ⟨_, h2, h3⟩ := ih t cur ha hd
    exact ⟨rfl, h2, h3⟩
  | seq p q ihp ihq =>
    simp only [Prog.depth] at hd
    obtain ⟨h1, h2, h3⟩ := ihp t cur ha (by omega)
    simp only [exec, eval]
    rcases he : exec env cfg p t with ⟨t1, b1⟩
    rcases hv : eval env cfg p (view t.sys t.stack.cur) cur t.out with ⟨⟨c1, o1⟩, b2⟩
    rw [he, hv] at h1 h2 h3
    simp only at h1 h2 h3
    subst h1
    cases b1 with
    | true => exact ⟨rfl, h2, h3⟩
    | false =>
      obtain ⟨g1, g2, g3⟩ := ihq t1 c1 (h2.active ha) (by rw [h2.stack]; omega)
      rw [h2.view ha, h3] at g1 g2 g3
      exact ⟨g1, .trans ha h2 g2, g3⟩
  | op o =>
    cases cur with
    | none =>
      have hne : ∀ r : Th A I B U W, (match t.stack.cur.span with
          | some (.cell i) => (({ t with sys := Shared.step env t.sys (.call i o) } : Th A I B U W), false)
          | _ => (r, false)) = (r, false) := by
        intro r
        cases hs : t.stack.cur.span with
        | none => rfl
        | some x => cases x with
          | remote sc => rfl
          | cell i => exact absurd hs (ha i)
      cases o with
      | edit e => simp only [exec, eval, hne]; exact ⟨trivial, .refl _ _, trivial⟩
      | endAt ts => simp only [exec, eval, hne]; exact ⟨trivial, .refl _ _, trivial⟩
      | endNow =>
        simp only [exec, eval, hne]
        exact ⟨trivial, ⟨rfl, Nat.le_refl _, fun _ _ _ => rfl, fun j c hj hc => (Step.refl t none).new j c hj hc, trivial⟩, rfl⟩
    | some s =>
      obtain ⟨i, n, h1, h2, h3⟩ := ha
      have hl := (List.getElem?_eq_some_iff.1 h2).1
      have hstep : Shared.step env t.sys (.call i o) = t.sys.settle i ⟨s, n, false⟩ (o.run env (s, t.sys.provider)) := by
        simp [Shared.step, h2]
      simp only [exec, eval, h1, hstep]
      rw [out_st, run_after]
      refine ⟨trivial, ⟨rfl, ?_, ?_, ?_, ?_⟩, ?_⟩
      · simp [Shared.Sys.settle]
      · intro j hj hne
        have : i ≠ j := fun e => hne (e ▸ h1)
        exact Shared.get_settle_ne this _ _ _
      · intro j c hj hc
        have : i ≠ j := by omega
        simp only at hc
        rw [Shared.get_settle_ne this] at hc
        exact (Step.refl t (some s)).new j c hj hc
      · refine ⟨run_context env o s _, fun k m hk hc => ?_⟩
        have : i = k := by rw [h1] at hk; injection hk with hk; injection hk
        subst this
        rw [h2] at hc
        injection hc with hc; injection hc with _ hc; subst hc
        exact Shared.get_settle h2 _ _
      · exact settle_out t i _ _ (run_shutdown env o s _) (run_starts env o s _)
  | leaf scope b os =>
    obtain ⟨s1, s2, s3, s4⟩ := start_spec env cfg scope b t
    simp only [exec, eval]
    generalize hx : start env cfg scope b t = x at s1 s2 s3 s4 ⊢
    obtain ⟨s, t1⟩ := x
    simp only at s1 s2 s3 s4 ⊢
    refine ⟨trivial, ⟨s3, by rw [s4], fun j _ _ => by rw [s4], fun j c hj hc => ?_, ?_⟩, ?_⟩
    · rw [s4] at hc; exact (Step.refl t cur).new j c hj hc
    · cases cur with
      | none => trivial
      | some a => exact ⟨rfl, fun i m _ hc => by rw [s4]; exact hc⟩
    · have e : buildWithContext env cfg scope b (view t.sys t.stack.cur) t.out.st = (s, after t1.out.st.obs t1.sys.provider) := by
        rw [← out_st, s2, s1]
      have hse : t.out.seen = t1.out.seen := by rw [s2]; rfl
      rw [e, runs_after]
      have hd1 : (dropSpan env (os.foldl (fun x o => o.run env x) (s, t1.sys.provider))).isShutdown = t1.sys.isShutdown :=
        (ensureEnded_shutdown env none _ _).trans (runs_shutdown env os s t1.sys.provider)
      have hd2 : (dropSpan env (os.foldl (fun x o => o.run env x) (s, t1.sys.provider))).obs.starts = [] :=
        (ensureEnded_starts env none _ _).trans (runs_starts env os s t1.sys.provider)
      rw [drop_after]
      simp only [Th.out] at hse
      simp only [Th.out, after, List.map_append, List.map_map, Function.comp_def, List.map_id', hd1, hd2, List.append_nil, hse]
  | marked scope b p ih =>
    simp only [Prog.depth] at hd
    rcases hx : start env cfg scope b t with ⟨s, t1⟩
    obtain ⟨_, s2, s3, s4⟩ := start_spec env cfg scope b t
    rw [hx] at s3 s4
    simp only at s3 s4
    have hroom : t1.stack.stack.length + 1 < 65535 := by rw [s3]; omega
    obtain ⟨s', t3, e1, e2, e3, e4, e5, e6⟩ := span_block env cfg p ih t cur ha scope b (by omega) t1 s hx 1 (Nat.le_refl _)
    simp only [exec, eval, hx]
    rw [attached_room env _ _ { t1 with sys := Shared.step env t1.sys (.wrap s) } hroom]
    have hlen : t1.sys.cells.length = t.sys.cells.length := by rw [s4]
    simp only [Shared.step, s3, hlen]
    dsimp only at e1 e2 e3 e5
    rw [e1, e2]
    dsimp only
    have hdrop : dropped env (t.stack.cur.withSpan (.cell t.sys.cells.length)) t3.sys =
        t3.sys.settle t.sys.cells.length ⟨s', 0, false⟩ (ensureEnded env none s' t3.sys.provider) := drop_last env e4
    rw [hdrop]
    refine ⟨rfl, e6 _ _ ?_ rfl, ?_⟩
    · dsimp only
      rw [e5]
      exact push_drop t.stack _ (by omega)
    · rw [show (({ t3 with stack := t3.stack.dropGuard (t.stack.push (t.stack.cur.withSpan (.cell t.sys.cells.length))).2, sys := t3.sys.settle t.sys.cells.length ⟨s', 0, false⟩ (ensureEnded env none s' t3.sys.provider) } : Th A I B U W)).out = ({ t3 with sys := t3.sys.settle t.sys.cells.length ⟨s', 0, false⟩ (ensureEnded env none s' t3.sys.provider) } : Th A I B U W).out from rfl,
        settle_out t3 _ _ _ (ensureEnded_shutdown env none s' _) (ensureEnded_starts env none s' _), ← e3]
      show Out.mk _ _ = Out.mk _ _
      congr 1
      exact (drop_after env t3.out.st.obs s' t3.sys.provider).symm.trans (by rw [← out_st]; rfl)
  | inSpan scope name p ih =>
    simp only [Prog.depth] at hd
    rcases hx : start env cfg scope { name := name } t with ⟨s, t1⟩
    obtain ⟨_, s2, s3, s4⟩ := start_spec env cfg scope { name := name } t
    rw [hx] at s3 s4
    simp only at s3 s4
    have hroom : t1.stack.stack.length + 1 < 65535 := by rw [s3]; omega
    obtain ⟨s', t3, e1, e2, e3, e4, e5, e6⟩ := span_block env cfg p ih t cur ha scope { name := name } (by omega) t1 s hx 2 (by omega)
    simp only [exec, eval, hx]
    have hcopy : copied env (t1.stack.cur.withSpan (.cell t1.sys.cells.length)) (Shared.step env t1.sys (.wrap s)) = { t1.sys with cells := t1.sys.cells ++ [⟨s, 2, false⟩] } := by
      simp [copied, Context.withSpan, Shared.step]
    rw [hcopy, attached_room env _ _ { t1 with sys := { t1.sys with cells := t1.sys.cells ++ [⟨s, 2, false⟩] } } hroom]
    have hlen : t1.sys.cells.length = t.sys.cells.length := by rw [s4]
    simp only [s3, hlen]
    dsimp only at e1 e2 e3 e5
    rw [e1, e2]
    dsimp only
    have hdrop1 : dropped env (t.stack.cur.withSpan (.cell t.sys.cells.length)) t3.sys = { t3.sys with cells := t3.sys.cells.set t.sys.cells.length ⟨s', 1, false⟩ } :=
      drop_many env (h := 0) e4
    have hl3 := (List.getElem?_eq_some_iff.1 e4).1
    have hdrop : dropped env (t.stack.cur.withSpan (.cell t.sys.cells.length)) { t3.sys with cells := t3.sys.cells.set t.sys.cells.length ⟨s', 1, false⟩ } =
        Shared.Sys.settle { t3.sys with cells := t3.sys.cells.set t.sys.cells.length ⟨s', 1, false⟩ } t.sys.cells.length ⟨s', 0, false⟩ (ensureEnded env none s' t3.sys.provider) :=
      drop_last env (y := { t3.sys with cells := t3.sys.cells.set t.sys.cells.length ⟨s', 1, false⟩ }) (List.getElem?_set_self hl3)
    rw [hdrop1, hdrop]
    refine ⟨rfl, e6 _ (ensureEnded env none s' t3.sys.provider).1 ?_ ?_, ?_⟩
    · dsimp only
      rw [e5]
      exact push_drop t.stack _ (by omega)
    · simp [Shared.Sys.settle]
    · have h0 := settle_out t3 t.sys.cells.length ⟨s', 0, false⟩ _ (ensureEnded_shutdown env none s' t3.sys.provider) (ensureEnded_starts env none s' t3.sys.provider)
      rw [← e3]
      refine Eq.trans (b := ⟨after t3.out.st.obs (ensureEnded env none s' t3.sys.provider).2, t3.seen⟩) ?_ ?_
      · rw [← h0]; rfl
      · show Out.mk _ _ = Out.mk _ _
        congr 1
        exact (drop_after env t3.out.st.obs s' t3.sys.provider).symm.trans (by rw [← out_st]; rfl)
  | value k v p ih =>
    simp only [Prog.depth] at hd
    exact derived_block env cfg p ih t cur ha (t.stack.cur.withValue k v) rfl (by omega)
  | suppressed p ih =>
    simp only [Prog.depth] at hd
    exact derived_block env cfg p ih t cur ha t.stack.cur.withTelemetrySuppressed rfl (by omega)
  | remote sc p ih =>
    simp only [Prog.depth] at hd
    have hroom : t.stack.stack.length + 1 < 65535 := by omega
    obtain ⟨r1, r2, r3⟩ := push_room t.stack (t.stack.cur.withSpan (.remote sc)) hroom
    simp only [exec, eval]
    rw [attached_room env _ _ t hroom]
    have ha2 : Active ({ t with stack := (t.stack.push (t.stack.cur.withSpan (.remote sc))).1 } : Th A I B U W) none := by
      intro i; rw [r2]; intro h; cases h
    obtain ⟨g1, g2, g3⟩ := ih { t with stack := (t.stack.push (t.stack.cur.withSpan (.remote sc))).1 } none ha2 (by rw [r3]; omega)
    have hv : view t.sys (t.stack.push (t.stack.cur.withSpan (.remote sc))).1.cur = (view t.sys t.stack.cur).withSpan sc := by rw [r2]; rfl
    simp only [hv] at g1 g2 g3
    dsimp only
    refine ⟨g1, ⟨?_, g2.grows, fun j hj _ => g2.old j hj (ha2 j), fun j c hj hc => g2.new j c hj hc, ?_⟩, g3⟩
    · dsimp only
      rw [g2.stack]
      exact push_drop t.stack _ (by omega)
    · cases cur with
      | none => trivial
      | some a => exact ⟨rfl, fun i m hi hc => by
          rw [← hc]
          exact g2.old i (ha.lt hi) (ha2 i)⟩


end Otel.Sdk.Scoped
