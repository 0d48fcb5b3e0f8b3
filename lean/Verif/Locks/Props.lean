import Verif.Locks.Api
/-!
# Calls that never return, and programs that keep to the rules, C95

For each rule of `Allowed` a program that breaks it and gets stuck: alone, or together with a second thread that keeps to the rules.
-/

namespace Otel.Locks

/-! ## Running programs -/

/-- `grantable`, decided. -/
def grantB (ts : Threads Lock) (l : Lock) : Mode → Bool
  | .exclusive => ts.all fun t => t.held.all fun p => decide (p.1 ≠ l)
  | .shared => ts.all fun t => !t.held.contains (l, Mode.exclusive)

theorem grantB_iff (ts : Threads Lock) (l : Lock) (m : Mode) : grantB ts l m = true ↔ grantable ts l m := by
  cases m with
  | exclusive =>
    simp only [grantB, grantable, holds, List.all_eq_true, decide_eq_true_eq]
    exact ⟨fun h t ht ⟨m, hm⟩ => h t ht _ hm rfl, fun h t ht p hp he => h t ht ⟨p.2, he ▸ hp⟩⟩
  | shared =>
    simp only [grantB, grantable, List.all_eq_true]
    exact forall_congr' fun t => forall_congr' fun _ => by simp

/-- The next step of a thread, if it can make one. -/
def moveB (ts : Threads Lock) : Thread Lock → Option (Thread Lock)
  | ⟨_, []⟩ => none
  | ⟨h, .work :: r⟩ => some ⟨h, r⟩
  | ⟨h, .acquire l m :: r⟩ => if grantB ts l m then some ⟨(l, m) :: h, r⟩ else none
  | ⟨h, .release l m :: r⟩ => some ⟨h.erase (l, m), r⟩

theorem moveB_iff (ts : Threads Lock) (t t' : Thread Lock) : moveB ts t = some t' ↔ Move (grantable ts) t t' := by
  constructor
  · intro h
    obtain ⟨held, rest⟩ := t
    cases rest with
    | nil => cases h
    | cons i r =>
      cases i with
      | work => injection h with h; subst h; exact .work
      | acquire l m =>
        rw [moveB] at h
        split at h
        · rename_i hg; injection h with h; subst h; exact .acquire ((grantB_iff ts l m).1 hg)
        · cases h
      | release l m => injection h with h; subst h; exact .release
  · intro h
    cases h with
    | work => rfl
    | acquire hg => rw [moveB, if_pos ((grantB_iff ts _ _).2 hg)]
    | release => rfl

/-- Runs the threads named, one step each. -/
def runB : Threads Lock → List Nat → Option (Threads Lock)
  | ts, [] => some ts
  | ts, i :: is =>
    match ts[i]? with
    | none => none
    | some t =>
      match moveB ts t with
      | none => none
      | some t' => runB (ts.set i t') is

theorem runB_reach {ps : List Code} (is : List Nat) {ts ts' : Threads Lock} (h : Reach ps ts) (hr : runB ts is = some ts') : Reach ps ts' := by
  induction is generalizing ts with
  | nil => injection hr with hr; exact hr ▸ h
  | cons i is ih =>
    rw [runB] at hr
    cases hi : ts[i]? with
    | none => rw [hi] at hr; cases hr
    | some t =>
      rw [hi] at hr
      dsimp only at hr
      cases hm : moveB ts t with
      | none => rw [hm] at hr; cases hr
      | some t' =>
        rw [hm] at hr
        refine ih (.step h ?_) hr
        obtain ⟨hlt, he⟩ := List.getElem?_eq_some_iff.1 hi
        refine ⟨ts.take i, t, t', ts.drop (i + 1), ?_, ?_, (moveB_iff ts t t').1 hm⟩
        · rw [← he, List.getElem_cons_drop, List.take_append_drop]
        · rw [List.set_eq_take_append_cons_drop, if_pos hlt]

/-- `Stuck`, decided. -/
def stuckB (ts : Threads Lock) : Bool := (ts.any fun t => !t.rest.isEmpty) && ts.all fun t => (moveB ts t).isNone

theorem stuckB_stuck {ts : Threads Lock} (h : stuckB ts = true) : Stuck ts := by
  rw [stuckB, Bool.and_eq_true, List.any_eq_true, List.all_eq_true] at h
  obtain ⟨⟨t, ht, hne⟩, hall⟩ := h
  refine ⟨fun hd => ?_, fun ts' hs => ?_⟩
  · rw [hd t ht] at hne; cases hne
  · obtain ⟨a, t, t', b, rfl, rfl, hm⟩ := hs
    have := hall t (by simp)
    rw [(moveB_iff _ t t').2 hm] at this
    cases this

/-- A schedule that leads to threads that are stuck. -/
def getsStuck (ps : List Code) (is : List Nat) : Bool :=
  match runB (start ps) is with
  | some ts => stuckB ts
  | none => false

theorem stuck_of_run {ps : List Code} (is : List Nat) (h : getsStuck ps is = true) : ∃ ts, Reach ps ts ∧ Stuck ts := by
  rw [getsStuck] at h
  cases hr : runB (start ps) is with
  | none => rw [hr] at h; cases h
  | some ts => rw [hr] at h; exact ⟨ts, runB_reach is .start hr, stuckB_stuck h⟩

/-! ## Calls that never return -/

/-- C95 violated: a callback of an observable instrument that creates an instrument never returns, nor does the collection: `produce` runs callbacks while it holds the
lock of the pipeline, and a new instrument enters the pipeline under this lock. -/
theorem create_in_callback_violated :
    ∃ ts, Reach [collectManual 0 [] [createInstrument [(0, 0, true, [], [], [])] []] []] ts ∧ Stuck ts :=
  stuck_of_run [0, 0, 0, 0, 0] (by decide)

/-- C95 violated: a callback that flushes its provider never returns: with a periodic reader the thread that runs the callback is the one that would answer
(`force_flush` waits without a timeout), with a manual reader a collection waits for the lock of the reader. -/
theorem flush_in_callback_violated :
    (∃ ts, Reach [collectPeriodic 0 [] [collectPeriodic 0 [] [] [] []] [] []] ts ∧ Stuck ts) ∧
    (∃ ts, Reach [collectManual 0 [] [collectManual 0 [] [] []] []] ts ∧ Stuck ts) :=
  ⟨stuck_of_run [0, 0, 0] (by decide), stuck_of_run [0, 0] (by decide)⟩

/-- C95 violated: an exporter that flushes the provider it belongs to never returns. -/
theorem flush_in_exporter_violated : ∃ ts, Reach [collectPeriodic 0 [] [] [] (collectPeriodic 0 [] [] [] [])] ts ∧ Stuck ts :=
  stuck_of_run [0, 0, 0, 0, 0] (by decide)

/-- C95 violated: when the exporter of a simple span processor ends a span of its own provider (an instrumented HTTP client), `end` never returns: the processor holds
its lock during the export and, unlike the simple log processor, does not suppress telemetry. -/
theorem span_in_exporter_violated : ∃ ts, Reach [endSpan [.simple 0 (endSpan [.simple 0 []])]] ts ∧ Stuck ts :=
  stuck_of_run [0] (by decide)

/-- C95 violated: a span processor that looks at the span of the current context (`is_recording`) when this span is ended through its context never returns; nor does
an error or an iterator of attributes given to a span that uses the same span. -/
theorem span_under_lock_violated :
    (∃ ts, Reach [endInContext 0 [.other (onSpan 0 [])]] ts ∧ Stuck ts) ∧ (∃ ts, Reach [onSpan 0 (onSpan 0 [])] ts ∧ Stuck ts) :=
  ⟨stuck_of_run [0] (by decide), stuck_of_run [0] (by decide)⟩

/-- C95 violated: two threads that use two spans in opposite order under their locks. -/
theorem two_spans_violated : ∃ ts, Reach [onSpan 0 (onSpan 1 []), onSpan 1 (onSpan 0 [])] ts ∧ Stuck ts :=
  stuck_of_run [0, 1] (by decide)

/-- C95 violated: the exporter of a simple log processor that ends a span, while the exporter of a simple span processor logs. -/
theorem exporters_cross_violated :
    ∃ ts, Reach [endSpan [.simple 0 (emitLog [.simple 0 []])], emitLog [.simple 0 (endSpan [.simple 0 []])]] ts ∧ Stuck ts :=
  stuck_of_run [0, 1] (by decide)

/-- C95 violated: a span exporter that creates an instrument, while a callback ends a span. -/
theorem instrument_in_span_exporter_violated :
    ∃ ts, Reach [endSpan [.simple 0 (createInstrument [(0, 0, true, [], [], [])] [])], collectManual 0 [] [endSpan [.simple 0 []]] []] ts ∧ Stuck ts :=
  stuck_of_run [0, 0, 0, 0, 1, 1] (by decide)

/-- C95 violated: a subscriber that gets a meter when the SDK reports that a meter was made (the diagnostic is written under the lock of the meters). -/
theorem meter_in_diagnostic_violated : ∃ ts, Reach [getMeter 0 (getMeter 0 [])] ts ∧ Stuck ts :=
  stuck_of_run [0] (by decide)

/-! ## The hypotheses can be met -/

/-- A callback that observes, logs to a simple processor and ends a span whose exporter logs and measures. -/
def goodCallback : Code :=
  measure [(false, 0, 1, .fresh)] ++ (emitLog [.simple 0 (measure [(true, 1, 0, .known)])] ++
    endSpan [.simple 0 (emitLog [.simple 0 []] ++ measure [(false, 2, 0, .noAttributes)]), .other (measure [])])

theorem goodCallback_allowed : Allowed .callback goodCallback := by
  refine .seq (.measure _) (.seq (.log _ (by decide) ?_ ?_) (.endSpan _ (by decide) ?_ ?_))
  · intro p e h
    simp at h
    obtain ⟨rfl, rfl⟩ := h
    exact .measure _
  · intro c h; simp at h
  · intro p e h
    simp at h
    obtain ⟨rfl, rfl⟩ := h
    refine .seq (.log _ (by decide) ?_ ?_) (.measure _)
    · intro p e h
      simp at h
      obtain ⟨rfl, rfl⟩ := h
      exact .nothing
    · intro c h; simp at h
  · intro c h
    simp at h
    subst h
    exact .measure _

/-- Three threads: one collects with that callback, one flushes a periodic reader whose exporter creates an instrument, one records and ends a span through its context. -/
def goodProgram : List Code :=
  [collectManual 0 [] [goodCallback] [(false, 0, [1], .delta), (true, 1, [0, 1], .cumulative)],
   collectPeriodic 1 [] [goodCallback] [(false, 3, [1], .precomputedDelta)] (createInstrument [(0, 0, true, [], [], []), (0, 1, false, [], [], [])] [0, 1]),
   measure [(true, 1, 0, .fresh)] ++ endInContext 7 [.simple 0 []]]

example : ∀ p ∈ goodProgram, Allowed .program p := by
  intro p hp
  simp only [goodProgram, List.mem_cons, List.not_mem_nil, or_false] at hp
  have hc : ∀ c ∈ [goodCallback], Allowed .callback c := by
    intro c h
    obtain rfl := List.mem_singleton.1 h
    exact goodCallback_allowed
  rcases hp with rfl | rfl | rfl
  · exact .collectManual _ _ _ .nothing hc
  · refine .collectPeriodic _ _ _ .nothing hc (.create _ _ (by decide) ?_ ?_ ?_)
    all_goals
      intro s h
      simp only [List.mem_cons, List.not_mem_nil, or_false] at h
      rcases h with rfl | rfl <;> exact .nothing
  · refine .seq (.measure _) (.onSpan _ (by decide) (.endSpan _ (by decide) ?_ ?_))
    · intro p e h
      simp at h
      obtain ⟨rfl, rfl⟩ := h
      exact .nothing
    · intro c h; simp at h

end Otel.Locks
