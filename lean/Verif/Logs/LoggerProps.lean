import Verif.Logs.Logger
/-! # C30 (logs), C31 (records), C32 -/

namespace Otel.Logs

open Otel.Sdk (Cx)
open Rust

variable {V Time Sev I W B : Type} {U : Nat → Type}

/-! ## C31 for records -/

/-- The attributes a call adds. -/
def RecOp.added : RecOp V Time Sev → List (Str × V)
  | .attr k v => [(k, v)]
  | .attrs kvs => kvs
  | _ => []

/-- The attribute array of a record stands for this list. -/
def Holds (r : Record V Time Sev) (kvs : List (Str × V)) : Prop := Represents attrCap r.attributes (kvs.map some)

theorem holds_add {r : Record V Time Sev} {kvs : List (Str × V)} (h : Holds r kvs) (k : Str) (v : V) :
    ∃ r', r.addAttribute? k v = some r' ∧ Holds r' (kvs ++ [(k, v)]) ∧ r'.body = r.body ∧ r'.traceContext = r.traceContext := by
  obtain ⟨a, h1, h2⟩ := represents_push h (some (k, v))
  exact ⟨{ r with attributes := a }, by simp [Record.addAttribute?, h1], by simpa [Holds] using h2, rfl, rfl⟩

theorem holds_addAll {r : Record V Time Sev} {kvs : List (Str × V)} (h : Holds r kvs) (more : List (Str × V)) :
    ∃ r', more.foldlM (fun r kv => Record.addAttribute? r kv.1 kv.2) r = some r' ∧ Holds r' (kvs ++ more) ∧ r'.body = r.body
      ∧ r'.traceContext = r.traceContext := by
  induction more generalizing r kvs with
  | nil => exact ⟨r, rfl, by simpa using h, rfl, rfl⟩
  | cons kv more ih =>
    obtain ⟨r1, h1, h2, h3, h4⟩ := holds_add h kv.1 kv.2
    obtain ⟨r2, h5, h6, h7, h8⟩ := ih h2
    exact ⟨r2, by simp [List.foldlM, h1, h5], by simpa using h6, h7.trans h3, h8.trans h4⟩

/-- The body a call sets, and the trace context. -/
def RecOp.bodySet : RecOp V Time Sev → Option V
  | .body v => some v
  | _ => none

/-- The trace context a call sets. -/
def RecOp.traceSet : RecOp V Time Sev → Option TraceContext
  | .traceContext t s f => some ⟨t, s, f⟩
  | _ => none

/-- **C31 (records)** Whatever calls are made on a new log record, in whatever order, none panics, and the record yields all the
attributes added, duplicates included, in the order they were added; the body and the trace context are the last ones set. -/
theorem record_keeps_attributes (ops : List (RecOp V Time Sev)) :
    ∃ r : Record V Time Sev, ops.foldlM RecOp.run? Record.new = some r ∧ r.attributesIter = ops.flatMap RecOp.added
      ∧ r.body = (ops.filterMap RecOp.bodySet).getLast? ∧ r.traceContext = (ops.filterMap RecOp.traceSet).getLast? := by
  have main : ∀ (ops : List (RecOp V Time Sev)) (r : Record V Time Sev) (kvs : List (Str × V)), Holds r kvs →
      ∃ r', ops.foldlM RecOp.run? r = some r' ∧ Holds r' (kvs ++ ops.flatMap RecOp.added)
        ∧ r'.body = (ops.filterMap RecOp.bodySet).getLast?.or r.body
        ∧ r'.traceContext = (ops.filterMap RecOp.traceSet).getLast?.or r.traceContext := by
    intro ops
    induction ops with
    | nil => intro r kvs h; exact ⟨r, rfl, by simpa using h, by simp, by simp⟩
    | cons o ops ih =>
      intro r kvs h
      have step : ∃ r1, RecOp.run? r o = some r1 ∧ Holds r1 (kvs ++ o.added) ∧ r1.body = o.bodySet.or r.body
          ∧ r1.traceContext = o.traceSet.or r.traceContext := by
        cases o with
        | attr k v => obtain ⟨r1, h1, h2, h3, h4⟩ := holds_add h k v; exact ⟨r1, h1, h2, h3, h4⟩
        | attrs l => obtain ⟨r1, h1, h2, h3, h4⟩ := holds_addAll h l; exact ⟨r1, h1, h2, h3, h4⟩
        | _ => exact ⟨_, rfl, by simpa [RecOp.added, Holds] using h, rfl, rfl⟩
      obtain ⟨r1, h1, h2, h3, h4⟩ := step
      obtain ⟨r2, h5, h6, h7, h8⟩ := ih r1 _ h2
      refine ⟨r2, by simp [List.foldlM, h1, h5], by simpa using h6, ?_, ?_⟩
      · rw [h7, h3]
        cases hb : o.bodySet <;> simp [hb, List.getLast?_cons]
      · rw [h8, h4]
        cases hb : o.traceSet <;> simp [hb, List.getLast?_cons]
  obtain ⟨r, h1, h2, h3, h4⟩ := main ops Record.new [] (represents_empty attrCap)
  refine ⟨r, h1, ?_, by simpa [Record.new] using h3, by simpa [Record.new] using h4⟩
  have := h2
  simp only [List.nil_append] at this
  obtain ⟨a1, a2, a3, a4, a5⟩ := this
  have hiter : r.attributes.iter = (ops.flatMap RecOp.added).map some := by
    unfold GrowableArray.iter
    split
    · rename_i ho
      rw [ho] at a4; simp at a4
      rw [a3, List.take_of_length_le (by simpa using a4)]
    · rename_i ho
      rw [ho] at a4; simp at a4
      rw [a3, List.take_of_length_le (by simpa using a4)]
    · rename_i x o ho
      rw [ho] at a4
      rw [a3, show x :: o = _ from a4, List.take_append_drop]
  simp [Record.attributesIter, hiter]

/-! ## C32 -/

/-- What a processor was given and what it made of it: the processor's number, the record it received, the record it left. -/
structure Call (V Time Sev I : Type) where
  who : Nat
  got : Record V Time Sev
  scope : I
  left : Record V Time Sev

/-- Watch a processor: its behaviour is unchanged, its calls are noted. -/
def watch (n : Nat) (p : Processor V Time Sev I W) : Processor V Time Sev I (W × List (Call V Time Sev I)) :=
  fun r scope w => ((p r scope w.1).1, ((p r scope w.1).2, w.2 ++ [⟨n, r, scope, (p r scope w.1).1⟩]))

/-- Watch all processors, numbering them in registration order. -/
def watchAll (n : Nat) : List (Processor V Time Sev I W) → List (Processor V Time Sev I (W × List (Call V Time Sev I)))
  | [] => []
  | p :: ps => watch n p :: watchAll (n + 1) ps

/-- Each processor received what the one before it left; the first received `r`. -/
def Handed (r : Record V Time Sev) : List (Call V Time Sev I) → Prop
  | [] => True
  | c :: cs => c.got = r ∧ Handed c.left cs

theorem run_watched (scope : I) (ps : List (Processor V Time Sev I W)) (n : Nat) (r : Record V Time Sev) (w : W)
    (l : List (Call V Time Sev I)) :
    ∃ cs, (runProcessors scope (watchAll n ps) r (w, l)).2.2 = l ++ cs ∧ cs.map Call.who = (List.range ps.length).map (n + ·)
      ∧ (∀ c ∈ cs, c.scope = scope) ∧ Handed r cs := by
  induction ps generalizing n r w l with
  | nil => exact ⟨[], by simp [watchAll, runProcessors], rfl, by simp, trivial⟩
  | cons p ps ih =>
    obtain ⟨cs, h1, h2, h3, h4⟩ := ih (n + 1) (p r scope w).1 (p r scope w).2 (l ++ [⟨n, r, scope, (p r scope w).1⟩])
    refine ⟨⟨n, r, scope, (p r scope w).1⟩ :: cs, ?_, ?_, ?_, rfl, h4⟩
    · simp only [watchAll, runProcessors, watch]
      rw [h1]; simp
    · simp only [List.map_cons, h2, List.length_cons, List.range_succ_eq_map, List.map_map, Nat.add_zero]
      congr 1
      apply List.map_congr_left
      intro a _; simp only [Function.comp]; omega
    · intro c hc
      rcases List.mem_cons.1 hc with rfl | hc
      · rfl
      · exact h3 c hc

/-- The record the processors must be given first. -/
structure Prepared (cx : Cx B U) (r r' : Record V Time Sev) : Prop where
  /-- an explicit trace context is kept -/
  explicit : ∀ t, r.traceContext = some t → r'.traceContext = some t
  /-- otherwise the active span's ids and flags -/
  active : r.traceContext = none → ∀ sc, cx.span = some sc → r'.traceContext = some ⟨sc.traceId, sc.spanId, some sc.flags⟩
  /-- and nothing if there is none -/
  inactive : r.traceContext = none → cx.span = none → r'.traceContext = none
  observed : r'.observedTimestamp.isSome = true ∧ ∀ t, r.observedTimestamp = some t → r'.observedTimestamp = some t
  rest : r'.eventName = r.eventName ∧ r'.target = r.target ∧ r'.timestamp = r.timestamp ∧ r'.severityText = r.severityText
    ∧ r'.severityNumber = r.severityNumber ∧ r'.body = r.body ∧ r'.attributesIter = r.attributesIter

theorem prepare_prepared (cx : Cx B U) (now : Time) (r : Record V Time Sev) : Prepared cx r (prepare cx now r) := by
  unfold prepare
  cases ht : r.traceContext <;> cases hc : cx.span <;> cases ho : r.observedTimestamp <;>
    simp only [Otel.Ctx.Context.hasActiveSpan, hc, Otel.Sdk.spanContextOf, Option.isNone_none, Option.isNone_some, Option.isSome_none,
      Option.isSome_some, and_self, if_true, if_false, Bool.false_eq_true, false_and, and_false, ho] <;>
    constructor <;> simp_all [TraceContext.ofSpanContext, Record.attributesIter]

/-- **C32** An emit in a context that is not suppressed hands the record to every processor exactly once, in registration order, with
the logger's scope; the first one gets the prepared record, each other one gets what the one before it left. -/
theorem emit_reaches_each_once (scope : I) (ps : List (Processor V Time Sev I W)) (cx : Cx B U) (now : Time) (r : Record V Time Sev) (w : W)
    (h : cx.suppress = false) :
    ∃ r0, Prepared cx r r0 ∧ ∃ cs, (emit scope (watchAll 0 ps) cx now r (w, [])).2 = cs
      ∧ cs.map Call.who = List.range ps.length ∧ (∀ c ∈ cs, c.scope = scope) ∧ Handed r0 cs := by
  obtain ⟨cs, h1, h2, h3, h4⟩ := run_watched scope ps 0 (prepare cx now r) w []
  exact ⟨_, prepare_prepared cx now r, cs, by simpa [emit, h] using h1, by simpa using h2, h3, h4⟩

/-- Watching changes nothing: the world ends up the same. -/
theorem watch_faithful (scope : I) (ps : List (Processor V Time Sev I W)) (cx : Cx B U) (now : Time) (r : Record V Time Sev) (w : W) :
    (emit scope (watchAll 0 ps) cx now r (w, [])).1 = emit scope ps cx now r w := by
  have : ∀ (ps : List (Processor V Time Sev I W)) (n : Nat) (r : Record V Time Sev) (w : W) (l : List (Call V Time Sev I)),
      (runProcessors scope (watchAll n ps) r (w, l)).2.1 = (runProcessors scope ps r w).2 := by
    intro ps
    induction ps with
    | nil => intro n r w l; rfl
    | cons p ps ih => intro n r w l; simp only [watchAll, runProcessors, watch]; exact ih _ _ _ _
  unfold emit
  split
  · rfl
  · exact this _ _ _ _ _

/-! ## C30 for logs -/

/-- **C30 (logs)** In a suppressed context, or one derived from it, emitting a record calls no processor and changes nothing, and
`event_enabled` answers false. -/
theorem suppressed_emit (scope : I) (ps : List (Processor V Time Sev I W)) (ds : List (Otel.Ctx.Deriv SpanContext B U)) (cx : Cx B U)
    (now : Time) (r : Record V Time Sev) (w : W) (answers : List Bool) (h : cx.suppress = true) :
    (emit scope (watchAll 0 ps) (ds.foldl Otel.Ctx.Context.derive cx) now r (w, [])).2 = []
    ∧ emit scope ps (ds.foldl Otel.Ctx.Context.derive cx) now r w = w
    ∧ eventEnabled answers (ds.foldl Otel.Ctx.Context.derive cx) = false := by
  have : (ds.foldl Otel.Ctx.Context.derive cx).suppress = true := by
    induction ds generalizing cx with
    | nil => exact h
    | cons d ds ih =>
      apply ih
      cases d <;> simp [Otel.Ctx.Context.derive, Otel.Ctx.Context.withValue, Otel.Ctx.Context.withSpan,
        Otel.Ctx.Context.withTelemetrySuppressed, h]
  simp [emit, eventEnabled, this]

/-- The premise of C32 is met, with two processors of which the first changes the body. -/
example : (emit () (watchAll 0 [fun r _ (w : Nat) => ({ r with body := some 5 }, w + 1), fun r _ w => (r, w + 1)])
    (Otel.Ctx.Context.new : Cx Nat (fun _ => Nat)) 77 (Record.new : Record Nat Nat Nat) (0, [])).2.map
      (fun c => (c.who, c.got.body, c.got.observedTimestamp)) = [(0, none, some 77), (1, some 5, some 77)] := by rfl

/-! ## C67: an exporter that logs -/

/-- What an exporter does while it exports: it emits records through the same logger. -/
abbrev Chatter (R : Type) := R → List R

/-- Emit a record to one processor whose exporter emits records of its own. `guarded`: the processor exports inside a suppressed
scope. The result is the list of exported records; `none` means more than `fuel` nested emits.
logger.rs:32-55, simple_log_processor.rs:78-97 (guarded), concurrent_log_processor.rs:27-36 (not guarded) -/
def emitFeedback {R : Type} (guarded : Bool) (chatter : Chatter R) : Nat → Cx B U → R → Option (List R)
  | 0, _, _ => none
  | fuel + 1, cx, r =>
    if cx.suppress then some []
    else
      let inner := if guarded then cx.withTelemetrySuppressed else cx
      ((chatter r).mapM (emitFeedback guarded chatter fuel inner)).map fun l => l.flatten ++ [r]

/-- **C67 (simple log processor)** However many records the exporter emits while exporting, they are not fed back: exactly the
emitted record is exported, and two levels of calls suffice. -/
theorem simple_log_no_feedback_partial {R : Type} (chatter : Chatter R) (fuel : Nat) (cx : Cx B U) (r : R) (h : cx.suppress = false) :
    emitFeedback true chatter (fuel + 2) cx r = some [r] := by
  have h1 : ∀ r', emitFeedback true chatter (fuel + 1) cx.withTelemetrySuppressed r' = some [] := by
    intro r'; simp [emitFeedback, Otel.Ctx.Context.withTelemetrySuppressed]
  rw [emitFeedback, if_neg (by simp [h])]
  have h2 : ∀ l : List R, l.mapM (emitFeedback true chatter (fuel + 1) cx.withTelemetrySuppressed) = some (l.map fun _ => []) := by
    intro l
    induction l with
    | nil => rfl
    | cons a l ih => simp [List.mapM_cons, h1, ih]
  simp only [if_true, h2]
  simp

/-- **C67 (concurrent log processor, violated)** With the concurrent processor an exporter that emits at least one record per export
never returns: every amount of nesting is exceeded. -/
theorem concurrent_log_feedback_violated {R : Type} (chatter : Chatter R) (hc : ∀ r, chatter r ≠ []) (cx : Cx B U)
    (h : cx.suppress = false) (fuel : Nat) (r : R) : emitFeedback false chatter fuel cx r = none := by
  induction fuel generalizing r with
  | zero => rfl
  | succ fuel ih =>
    rw [emitFeedback, if_neg (by simp [h])]
    simp only [Bool.false_eq_true, if_false]
    cases hl : chatter r with
    | nil => exact absurd hl (hc r)
    | cons a l => simp [List.mapM_cons, ih]

end Otel.Logs
