import Verif.Sdk.Shared
/-! # C88: a span shared by contexts on many threads is reported once, with all that was recorded before its end -/

namespace Otel.Sdk.Shared
open Rust Otel.Sdk Otel.Sdk.Spec

variable {A I W B : Type} {U : Nat → Type}

/-- A provider before any span. -/
def start (w : W) : Sys A I W := ⟨[], false, w, []⟩

/-- How many spans were put into contexts. -/
def wraps (h : List (Act A I W)) : Nat := (h.filter fun | .wrap _ => true | _ => false).length

/-- No shutdown of the provider among these actions. -/
def NoShutdown (h : List (Act A I W)) : Prop := ∀ a ∈ h, a ≠ .shutdown

theorem step_length (env : Env A I B U W) (y : Sys A I W) (a : Act A I W) : (step env y a).cells.length = y.cells.length + wraps [a] := by
  cases a with
  | wrap s => simp [step, wraps]
  | clone i =>
    simp only [step, wraps]
    cases y.cells[i]? <;> simp
  | drop i =>
    simp only [step, wraps]
    cases y.cells[i]? with
    | none => simp
    | some c =>
      dsimp only
      split <;> simp [Sys.settle]
  | call i o =>
    simp only [step, wraps]
    cases y.cells[i]? with
    | none => simp
    | some c =>
      dsimp only
      split
      · cases o <;> simp
      · simp [Sys.settle]
  | panicIn i es =>
    simp only [step, wraps]
    cases y.cells[i]? with
    | none => simp
    | some c =>
      dsimp only
      split <;> simp
  | _ => simp [step, wraps]

theorem run_length (env : Env A I B U W) (h : List (Act A I W)) (y : Sys A I W) : (run env y h).cells.length = y.cells.length + wraps h := by
  induction h generalizing y with
  | nil => rfl
  | cons a h ih =>
    have e : wraps (a :: h) = wraps [a] + wraps h := by
      unfold wraps
      rw [show a :: h = [a] ++ h from rfl, List.filter_append, List.length_append]
    rw [show run env y (a :: h) = run env (step env y a) h from rfl, ih, step_length, e]
    omega

theorem step_unborn (env : Env A I B U W) (y : Sys A I W) (i : Nat) (hi : y.cells.length ≤ i) (a : Act A I W) : received i (step env y a) = received i y := by
  have key : ∀ (j : Nat) (c : Cell A I), y.cells[j]? = some c → j ≠ i := fun j c hj => by
    have := (List.getElem?_eq_some_iff.1 hj).1
    omega
  cases a with
  | clone j =>
    simp only [step]
    cases hj : y.cells[j]? <;> rfl
  | drop j =>
    simp only [step]
    cases hj : y.cells[j]? with
    | none => rfl
    | some c =>
      dsimp only
      split
      · rw [received_settle, if_neg (key j c hj), List.append_nil]
      · rfl
  | call j o =>
    simp only [step]
    cases hj : y.cells[j]? with
    | none => rfl
    | some c =>
      dsimp only
      split
      · cases o <;> rfl
      · rw [received_settle, if_neg (key j c hj), List.append_nil]
  | panicIn j es =>
    simp only [step]
    cases hj : y.cells[j]? with
    | none => rfl
    | some c =>
      dsimp only
      split <;> rfl
  | _ => rfl

theorem run_unborn (env : Env A I B U W) (h : List (Act A I W)) (y : Sys A I W) (i : Nat) (hi : y.cells.length + wraps h ≤ i) : received i (run env y h) = received i y := by
  induction h generalizing y with
  | nil => rfl
  | cons a h ih =>
    have e : wraps (a :: h) = wraps [a] + wraps h := by
      unfold wraps
      rw [show a :: h = [a] ++ h from rfl, List.filter_append, List.length_append]
    rw [show run env y (a :: h) = run env (step env y a) h from rfl, ih (step env y a) (by rw [step_length]; omega), step_unborn env y i (by omega)]

theorem step_shutdown (env : Env A I B U W) (y : Sys A I W) (a : Act A I W) : (step env y a).isShutdown = true ↔ y.isShutdown = true ∨ a = .shutdown := by
  cases a with
  | clone j =>
    simp only [step]
    cases hj : y.cells[j]? <;> simp
  | drop j =>
    simp only [step]
    cases hj : y.cells[j]? with
    | none => simp
    | some c =>
      dsimp only
      split <;> simp [Sys.settle]
  | call j o =>
    simp only [step]
    cases hj : y.cells[j]? with
    | none => simp
    | some c =>
      dsimp only
      split
      · cases o <;> simp
      · simp [Sys.settle]
  | panicIn j es =>
    simp only [step]
    cases hj : y.cells[j]? with
    | none => simp
    | some c =>
      dsimp only
      split <;> simp
  | _ => simp [step]

theorem run_shutdown (env : Env A I B U W) (h : List (Act A I W)) (y : Sys A I W) : (run env y h).isShutdown = true ↔ y.isShutdown = true ∨ .shutdown ∈ h := by
  induction h generalizing y with
  | nil => simp [run]
  | cons a h ih =>
    rw [show run env y (a :: h) = run env (step env y a) h from rfl, ih, step_shutdown, List.mem_cons, or_assoc, eq_comm (a := a)]

/-- The state when a span was just put into a context. -/
theorem run_wrap (env : Env A I B U W) (w : W) (before : List (Act A I W)) (s : Span A I) :
    (run env (start w) (before ++ [.wrap s])).cells[wraps before]? = some ⟨s, 1, false⟩ ∧ received (wraps before) (run env (start w) (before ++ [.wrap s])) = [] := by
  have hl := run_length env before (start w)
  rw [show (start w : Sys A I W).cells.length = 0 from rfl, Nat.zero_add] at hl
  constructor
  · rw [run_append]
    show ((run env (start w) before).cells ++ [_])[wraps before]? = _
    rw [List.getElem?_append_right (by omega), hl, Nat.sub_self]
    rfl
  · have := run_unborn env before (start w) (wraps before) (by simp [start])
    rw [run_append]
    exact this

/-! ## Theorems -/

/-- C88: as long as no thread ends a span and a context holds it, its processors receive nothing, and it holds all edits of all threads, in one order. -/
theorem shared_recording (env : Env A I B U W) (w : W) (before h : List (Act A I W)) (s : Span A I) (d : SpanData A) (hd : s.data = some d)
    (hn : NotEnded (wraps before) 1 h) :
    received (wraps before) (run env (start w) (before ++ .wrap s :: h)) = []
      ∧ ∃ c, (run env (start w) (before ++ .wrap s :: h)).cells[wraps before]? = some c
        ∧ c.span.data = some ((editsOn (wraps before) h).foldl (fun d e => e.apply s.limits d) d) := by
  obtain ⟨h1, h2⟩ := run_wrap env w before s
  obtain ⟨p, _, h4, h5⟩ := run_alive env (wraps before) h _ _ d h1 rfl hd hn
  rw [show before ++ .wrap s :: h = (before ++ [.wrap s]) ++ h by simp, run_append]
  exact ⟨h5.trans h2, _, h4, rfl⟩

/-- C88: whatever the threads do, and in whatever order, once one of them ends the span, or the last context that holds it is dropped, every processor receives
it exactly once, also after all that follows: with the edits of all threads before its end, and the time of the end. Nothing is received if the provider was
shut down before. -/
theorem shared_once (env : Env A I B U W) (w : W) (before pre post : List (Act A I W)) (a : Act A I W) (s : Span A I) (d : SpanData A) (hd : s.data = some d)
    (hn : NotEnded (wraps before) 1 pre) (ha : Ends (wraps before) 1 pre a) :
    let d' := (editsOn (wraps before) pre).foldl (fun d e => e.apply s.limits d) d
    let t := endTimeOf env (run env (start w) (before ++ .wrap s :: pre)).world d' a
    (NoShutdown (before ++ pre) → received (wraps before) (run env (start w) (before ++ .wrap s :: pre ++ a :: post)) =
      (List.range env.processors.length).map fun k => (k, ⟨s.spanContext, { d' with endTime := t }, s.scope⟩))
    ∧ (¬ NoShutdown (before ++ pre) → received (wraps before) (run env (start w) (before ++ .wrap s :: pre ++ a :: post)) = []) := by
  intro d' t
  obtain ⟨h1, h2⟩ := run_wrap env w before s
  obtain ⟨p, hp, h4, h5⟩ := run_alive env (wraps before) pre _ _ d h1 rfl hd hn
  have hrun : run env (start w) (before ++ .wrap s :: pre) = run env (run env (start w) (before ++ [.wrap s])) pre := by rw [← run_append]; simp
  rw [← hrun] at h4 h5
  rw [h2] at h5
  have hsd : (run env (start w) (before ++ .wrap s :: pre)).isShutdown = true ↔ ¬ NoShutdown (before ++ pre) := by
    rw [run_shutdown]
    unfold NoShutdown
    simp [start]
  -- the action itself
  have hstep : (∃ c', (step env (run env (start w) (before ++ .wrap s :: pre)) a).cells[wraps before]? = some c' ∧ c'.span.data = none)
      ∧ received (wraps before) (step env (run env (start w) (before ++ .wrap s :: pre)) a) =
        if (run env (start w) (before ++ .wrap s :: pre)).isShutdown then [] else
          (List.range env.processors.length).map fun k => (k, ⟨s.spanContext, { d' with endTime := t }, s.scope⟩) := by
    cases a with
    | drop j =>
      obtain ⟨rfl, hh⟩ := ha
      simp only [step, h4, hh, if_true]
      have := ensureEnded_some env none ⟨s.spanContext, some d', s.scope, s.limits⟩ (run env (start w) (before ++ .wrap s :: pre)).provider d' rfl
      refine ⟨⟨_, get_settle h4 _ _, this.1⟩, ?_⟩
      rw [received_settle, if_pos rfl, h5, this.2]
      rfl
    | call j o =>
      cases o with
      | edit e => exact ha.elim
      | endAt x =>
        obtain ⟨rfl, hnp⟩ := ha
        have hpf : ¬ p = true := fun e => hnp (hp.1 e)
        simp only [step, h4, if_neg hpf, SpanOp.run]
        have := ensureEnded_some env (some x) ⟨s.spanContext, some d', s.scope, s.limits⟩ (run env (start w) (before ++ .wrap s :: pre)).provider d' rfl
        refine ⟨⟨_, get_settle h4 _ _, this.1⟩, ?_⟩
        rw [received_settle, if_pos rfl, h5, this.2]
        rfl
      | endNow =>
        obtain ⟨rfl, hnp⟩ := ha
        have hpf : ¬ p = true := fun e => hnp (hp.1 e)
        simp only [step, h4, if_neg hpf, SpanOp.run]
        have := ensureEnded_some env (some (env.now (run env (start w) (before ++ .wrap s :: pre)).provider.world).1) ⟨s.spanContext, some d', s.scope, s.limits⟩
          { (run env (start w) (before ++ .wrap s :: pre)).provider with world := (env.now (run env (start w) (before ++ .wrap s :: pre)).provider.world).2 } d' rfl
        refine ⟨⟨_, get_settle h4 _ _, this.1⟩, ?_⟩
        rw [received_settle, if_pos rfl, h5]
        exact this.2
    | _ => exact ha.elim
  obtain ⟨⟨c', hc', hdead⟩, hr⟩ := hstep
  have hpost := (run_dead env post _ _ c' hc' hdead).2
  have hall : run env (start w) (before ++ .wrap s :: pre ++ a :: post) = run env (step env (run env (start w) (before ++ .wrap s :: pre)) a) post := by
    rw [run_append]; rfl
  rw [hall, hpost, hr]
  refine ⟨fun h => if_neg fun e => hsd.1 e h, fun h => if_pos (hsd.2 h)⟩

/-- The first action that ends a span. -/
theorem first_end (i n : Nat) (l q : List (Act A I W)) (hq : NotEnded i n q) (hne : ¬ NotEnded i n (q ++ l)) :
    ∃ pre a post, q ++ l = pre ++ a :: post ∧ NotEnded i n pre ∧ Ends i n pre a := by
  induction l generalizing q with
  | nil => rw [List.append_nil] at hne; exact absurd hq hne
  | cons a l ih =>
    by_cases ha : Ends i n q a
    · exact ⟨q, a, l, rfl, hq, ha⟩
    · have hq' : NotEnded i n (q ++ [a]) := by
        intro pre b post e
        rcases List.eq_nil_or_concat post with rfl | ⟨post', z, rfl⟩
        · obtain ⟨rfl, h⟩ := List.append_inj' e rfl
          cases h
          exact ha
        · have e' : q ++ [a] = (pre ++ b :: post') ++ [z] := by rw [e]; simp
          obtain ⟨h, _⟩ := List.append_inj' e' rfl
          exact hq pre b post' h
      have := ih (q ++ [a]) hq' (by simpa using hne)
      simpa using this

/-- C88: a span that something ended before the provider was shut down is reported, exactly once to each processor. -/
theorem shared_ended (env : Env A I B U W) (w : W) (before h : List (Act A I W)) (s : Span A I) (d : SpanData A) (hd : s.data = some d)
    (hn : ¬ NotEnded (wraps before) 1 h) (hs : NoShutdown (before ++ h)) :
    ∃ x, received (wraps before) (run env (start w) (before ++ .wrap s :: h)) = (List.range env.processors.length).map fun k => (k, x) := by
  obtain ⟨pre, a, post, e, h1, h2⟩ := first_end _ 1 h [] (fun pre a post e => by simp at e) hn
  rw [List.nil_append] at e
  subst e
  have := (shared_once env w before pre post a s d hd h1 h2).1 fun b hb => hs b (by simp only [List.mem_append, List.mem_cons] at hb ⊢; exact hb.imp id Or.inl)
  rw [show before ++ .wrap s :: (pre ++ a :: post) = before ++ .wrap s :: pre ++ a :: post by simp, this]
  exact ⟨_, rfl⟩

/-- C88: a span is reported at most once to each processor, in any execution. -/
theorem shared_at_most_once (env : Env A I B U W) (w : W) (before h : List (Act A I W)) (s : Span A I) (d : SpanData A) (hd : s.data = some d) :
    received (wraps before) (run env (start w) (before ++ .wrap s :: h)) = []
      ∨ ∃ x, received (wraps before) (run env (start w) (before ++ .wrap s :: h)) = (List.range env.processors.length).map fun k => (k, x) := by
  by_cases hn : NotEnded (wraps before) 1 h
  · exact Or.inl (shared_recording env w before h s d hd hn).1
  · obtain ⟨pre, a, post, e, h1, h2⟩ := first_end _ 1 h [] (fun pre a post e => by simp at e) hn
    rw [List.nil_append] at e
    subst e
    have := shared_once env w before pre post a s d hd h1 h2
    rw [show before ++ .wrap s :: (pre ++ a :: post) = before ++ .wrap s :: pre ++ a :: post by simp]
    by_cases hs : NoShutdown (before ++ pre)
    · exact Or.inr ⟨_, this.1 hs⟩
    · exact Or.inl (this.2 hs)

/-- `in_span`: the span goes into a context, a copy of which is attached; the closure gets the context and drops it when it returns or panics (unless it keeps
it: then it is a copy made by the body); then the guard drops the attached copy. `body` is what all threads do meanwhile. tracer.rs:204-214 -/
def inSpan (i : Nat) (body : List (Act A I W)) : List (Act A I W) := .clone i :: body ++ [.drop i, .drop i]

/-- C88, partially: when `in_span` returns, or panics, the span was ended and reported exactly once to every processor, if no copy of the context made meanwhile is
left. Missing: a closure that keeps the context (`in_span_violated`). -/
theorem in_span_partial (env : Env A I B U W) (w : W) (before body : List (Act A I W)) (s : Span A I) (d : SpanData A) (hd : s.data = some d)
    (hb : holdersAfter (wraps before) 2 body = 2) (hs : NoShutdown (before ++ body)) :
    ∃ x, received (wraps before) (run env (start w) (before ++ .wrap s :: inSpan (wraps before) body)) = (List.range env.processors.length).map fun k => (k, x) := by
  refine shared_ended env w before _ s d hd (fun hn => ?_) fun b hb' => ?_
  · refine hn (.clone (wraps before) :: body ++ [.drop (wraps before)]) (.drop (wraps before)) [] (by simp [inSpan]) ⟨rfl, ?_⟩
    rw [holdersAfter_append]
    have : holdersAfter (wraps before) 1 (.clone (wraps before) :: body) = 2 := by
      rw [holdersAfter, if_pos rfl]; exact hb
    rw [this]
    simp [holdersAfter]
  · simp only [inSpan, List.mem_append, List.mem_cons, List.not_mem_nil, or_false] at hb'
    rcases hb' with h | (rfl | h) | rfl | rfl
    · exact hs b (List.mem_append_left _ h)
    · nofun
    · exact hs b (List.mem_append_right _ h)
    · nofun
    · nofun

/-- A recording span of the examples. -/
def exampleSpan : Span Nat Unit := ⟨SpanContext.none, some (recordingData ⟨8, 8, 8, 8, 8⟩ SpanContext.none { name := ['n'] } [] 5), (), ⟨8, 8, 8, 8, 8⟩⟩

/-- C88 is violated: the documentation of `in_span` says that it ends the span before it returns. If the closure keeps the context it is given, as in
`tracer.in_span("x", |cx| cx)`, or spawned work has it, the span has not ended when `in_span` returns, and nobody received it. -/
theorem in_span_violated : ∃ (s : Span Nat Unit) (body : List (Act Nat Unit Nat)), s.data.isSome = true ∧
    received 0 (run exampleEnv (start 0) (.wrap s :: inSpan 0 body)) = []
      ∧ ((run exampleEnv (start 0) (.wrap s :: inSpan 0 body)).cells[0]?.map fun c => c.span.data.isSome) = some true :=
  ⟨exampleSpan, [.clone 0], by decide +kernel, by decide +kernel, by decide +kernel⟩

/-- C88 is violated: once a call on the span of a context panics (an iterator of attributes, a conversion), what any thread records on it later is lost, although
it is still recording and is reported when its last context is dropped; also `end` does nothing, the span is reported with the time of the drop. -/
theorem poison_violated : ∃ (s : Span Nat Unit) (h : List (Act Nat Unit Nat)), s.data.isSome = true ∧ NoShutdown h ∧
    h = [.clone 0, .panicIn 0 [.setAttribute 1], .drop 0, .call 0 (.edit (.setAttribute 2)), .call 0 (.endAt 7), .world 99, .drop 0] ∧
    (received 0 (run exampleEnv (start 0) (.wrap s :: h))).map (fun x => (x.1, x.2.data.attributes, x.2.data.endTime)) = [(0, [1], 99), (1, [1], 99)] := by
  refine ⟨exampleSpan, _, by decide +kernel, ?_, rfl, by decide +kernel⟩
  intro a ha
  simp only [List.mem_cons, List.not_mem_nil, or_false] at ha
  rcases ha with rfl | rfl | rfl | rfl | rfl | rfl | rfl <;> nofun

/-! ## Witnesses -/

/-- Two threads record on one span, one ends it, the other goes on: reported once, with both edits before the end. -/
example : (received 0 (run exampleEnv (start 0) [.wrap exampleSpan, .clone 0, .call 0 (.edit (.setAttribute 1)), .call 0 (.edit (.setAttribute 2)),
    .call 0 (.endAt 7), .call 0 (.edit (.setAttribute 3)), .call 0 .endNow, .drop 0, .drop 0])).map (fun x => (x.1, x.2.data.attributes, x.2.data.endTime))
    = [(0, [1, 2], 7), (1, [1, 2], 7)] := by decide +kernel

/-- A body of `in_span` that copies the context to another thread and waits for it. -/
example : holdersAfter (wraps ([] : List (Act Nat Unit Nat))) 2 ([.clone 0, .call 0 (.edit (.setAttribute 1)), .drop 0] : List (Act Nat Unit Nat)) = 2
    ∧ (received 0 (run exampleEnv (start 0) (.wrap exampleSpan :: inSpan 0 [.clone 0, .call 0 (.edit (.setAttribute 1)), .drop 0]))).length = 2 := by decide +kernel

/-- Hypotheses of `shared_once`: the drop of the last of two holders. -/
example : Ends 0 1 ([.clone 0, .call 0 (.edit (.setAttribute 1)), .drop 0] : List (Act Nat Unit Nat)) (.drop 0)
    ∧ ¬ Ends 0 1 ([.clone 0, .call 0 (.edit (.setAttribute 1))] : List (Act Nat Unit Nat)) (.drop 0) :=
  ⟨⟨rfl, by decide⟩, fun h => absurd h.2 (by decide)⟩

end Otel.Sdk.Shared
