import Verif.Metrics.PeriodicResults
/-! # C48: every caller of the periodic reader is answered -/

namespace Otel.Metrics.Periodic

/-! ## What `Ok` means -/

/-- **C48 (flush)** A `force_flush` or `shutdown` of a reader with a cumulative exporter answered `Ok`: every measurement recorded before
the call was exported successfully. -/
theorem ok_delivered (s : State) (h : Reachable .cumulative s) (tok : Nat) (hr : (tok, Ret.ok) ∈ s.returned) :
    ∀ i, i < s.atCall tok → Delivered s.log i := by
  intro i hi
  have hI := inv h
  rcases hI.replies tok (hI.returned tok hr) with h0 | ⟨hi', h1, h2⟩
  · omega
  · exact ⟨0, hi', h2, Nat.zero_le _, by omega⟩

/-- **C48 (flush, delta, partial)** With a delta exporter: every measurement recorded before the call was handed to the exporter, and if no
export has failed, exported successfully. The full statement is false of the code, see `ok_not_delivered_violated`. -/
theorem ok_delivered_delta_partial (s : State) (h : Reachable .delta s) (tok : Nat) (hr : (tok, Ret.ok) ∈ s.returned) :
    (∀ i, i < s.atCall tok → Attempted s.log i) ∧
    ((∀ lo hi, Ev.export lo hi false ∉ s.log) → ∀ i, i < s.atCall tok → Delivered s.log i) := by
  have hI := inv h
  have hA : ∀ i, i < s.atCall tok → Attempted s.log i := hI.replies tok (hI.returned tok hr)
  refine ⟨hA, fun hn i hi => ?_⟩
  obtain ⟨lo, hi', ok, hm, hh⟩ := hA i hi
  cases ok with
  | true => exact ⟨lo, hi', hm, hh⟩
  | false => exact absurd hm (hn lo hi')

/-- **C48 (flush, violated)** With a delta exporter a flush may return `Ok` although a measurement recorded before the call was never
exported successfully: a periodic export failed, and what it carried is gone. -/
theorem ok_not_delivered_violated :
    ∃ s, Reachable .delta s ∧ (0, Ret.ok) ∈ s.returned ∧ s.atCall 0 = 1 ∧ ¬ Delivered s.log 0 := by
  have h : (runAll .delta State.init [.record, .timer, .work true, .work false, .flush 0, .thread 0, .take, .work true, .work true, .thread 0]).map
      (fun s => (s.returned, s.atCall 0, s.log)) = some ([(0, Ret.ok)], 1, [Ev.export 0 1 false]) := by rfl
  obtain ⟨s, hs, he⟩ := Option.map_eq_some_iff.1 h
  simp only [Prod.mk.injEq] at he
  refine ⟨s, reachable_runAll .init _ hs, by simp [he.1], he.2.1, ?_⟩
  rintro ⟨lo, hi, hm, _⟩
  rw [he.2.2] at hm
  simp at hm

/-- Non-vacuity of `ok_delivered`: a flush that exports one measurement while another is recorded. -/
example : (runAll .cumulative State.init [.record, .flush 0, .thread 0, .take, .record, .work true, .work true, .work true, .thread 0]).map
    (fun s => (s.returned, s.atCall 0, s.log)) = some ([(0, Ret.ok)], 1, [Ev.export 0 2 true]) := by rfl

/-- **C48 (delta)** In every history of a reader with a delta exporter no measurement is handed to the exporter twice, and while no export
is running every collected measurement has been handed over exactly once. -/
theorem delta_once (s : State) (h : Reachable .delta s) (i : Nat) : s.log.countP (Ev.covers i) ≤ 1 := by
  have hI := inv h
  by_cases hw : ∃ lo hi k, s.worker = .exporting lo hi k
  · obtain ⟨lo, hi, k, hw⟩ := hw
    rw [((hI.exporting lo hi k hw).2.2.2 rfl).2.once i (Nat.zero_le _)]; split <;> omega
  · rw [(hI.tiles rfl (fun lo hi k h => hw ⟨lo, hi, k, h⟩)).once i (Nat.zero_le _)]; split <;> omega

/-! ## Shutdown calls -/

structure Kinds (s : State) : Prop where
  pcs : ∀ t tok, s.threads t = .flush0 tok ∨ s.threads t = .flushWait tok → s.isFlush tok = true
  msgs : ∀ tok, Msg.flush tok ∈ s.msgs → s.isFlush tok = true
  worker : ∀ tok, s.worker.cont? = some (.flush tok) → s.isFlush tok = true
  replies : ∀ tok b, (tok, b) ∈ s.replies → s.isFlush tok = true ∨ Ev.shutdown ∈ s.log

theorem kinds_thread {s s' : State} (hk : Kinds s) {t : Nat} (hs : threadStep s t = some s') : Kinds s' := by
  have goto : ∀ pc, (∀ tok, pc = .flush0 tok ∨ pc = .flushWait tok → s.isFlush tok = true) →
      ∀ t' tok, (s.goto t pc).threads t' = .flush0 tok ∨ (s.goto t pc).threads t' = .flushWait tok → s.isFlush tok = true := by
    intro pc hpc t' tok h
    by_cases he : t' = t
    · subst he; simp only [State.goto, set_eq] at h; exact hpc tok h
    · simp only [State.goto, set_ne _ _ he] at h; exact hk.pcs t' tok h
  have idle := goto .idle (by simp)
  simp only [threadStep] at hs
  split at hs
  · cases hs
  · rename_i tok hpc
    split at hs
    · injection hs with hs; subst hs
      refine ⟨goto _ ?_, ?_, hk.worker, hk.replies⟩
      · intro tok' h
        simp only [reduceCtorEq, Pc.flushWait.injEq, false_or] at h; subst h
        exact hk.pcs t tok (.inl hpc)
      · intro tok' hm
        rcases List.mem_append.1 hm with hm | hm
        · exact hk.msgs tok' hm
        · simp only [List.mem_singleton, Msg.flush.injEq] at hm; subst hm; exact hk.pcs t _ (.inl hpc)
    · injection hs with hs; subst hs; exact ⟨idle, hk.msgs, hk.worker, hk.replies⟩
  · rw [Option.map_eq_some_iff] at hs; obtain ⟨r, _, rfl⟩ := hs; exact ⟨idle, hk.msgs, hk.worker, hk.replies⟩
  · split at hs
    · injection hs with hs; subst hs
      refine ⟨goto _ (by simp), ?_, hk.worker, hk.replies⟩
      intro tok' hm
      rcases List.mem_append.1 hm with hm | hm
      · exact hk.msgs tok' hm
      · simp at hm
    · injection hs with hs; subst hs; exact ⟨idle, hk.msgs, hk.worker, hk.replies⟩
  · rw [Option.map_eq_some_iff] at hs; obtain ⟨r, _, rfl⟩ := hs; exact ⟨idle, hk.msgs, hk.worker, hk.replies⟩

theorem afterExport_cont {k : Cont} {b : Bool} {tok : Nat} (h : (afterExport k b).cont? = some (.flush tok)) : k = .flush tok := by
  cases k <;> simp_all [afterExport, Worker.cont?]

theorem kinds {temp : Temp} {s : State} (h : Reachable temp s) : Kinds s := by
  induction h with
  | init => exact ⟨by simp [State.init], by simp [State.init], by simp [State.init, Worker.cont?], by simp [State.init]⟩
  | @step s s' a hr hs ih =>
    have hf := fresh hr
    cases a with
    | record => simp only [step, Option.some.injEq] at hs; subst hs; exact ⟨ih.pcs, ih.msgs, ih.worker, ih.replies⟩
    | flush t =>
      simp only [step, callStep] at hs
      split at hs
      · injection hs with hs; subst hs
        refine ⟨?_, fun tok hm => ?_, fun tok hm => ?_, fun tok b hm => ?_⟩
        · intro t' tok h
          by_cases he : tok = s.nextTok
          · subst he; exact set_eq _ _ _
          · show set s.isFlush s.nextTok true tok = true
            rw [set_ne _ _ he]
            by_cases ht : t' = t
            · subst ht; simp only [State.goto, set_eq, reduceCtorEq, Pc.flush0.injEq, or_false] at h; exact absurd h.symm he
            · simp only [State.goto, set_ne _ _ ht] at h; exact ih.pcs t' tok h
        · show set s.isFlush s.nextTok true tok = true
          by_cases he : tok = s.nextTok
          · subst he; exact set_eq _ _ _
          · rw [set_ne _ _ he]; exact ih.msgs tok hm
        · show set s.isFlush s.nextTok true tok = true
          by_cases he : tok = s.nextTok
          · subst he; exact set_eq _ _ _
          · rw [set_ne _ _ he]; exact ih.worker tok hm
        · show set s.isFlush s.nextTok true tok = true ∨ _
          by_cases he : tok = s.nextTok
          · subst he; exact .inl (set_eq _ _ _)
          · rw [set_ne _ _ he]; exact ih.replies tok b hm
      · cases hs
    | shutdown t =>
      simp only [step, callStep] at hs
      split at hs
      · injection hs with hs; subst hs
        have ne : ∀ {tok}, tok < s.nextTok → set s.isFlush s.nextTok false tok = s.isFlush tok := fun h => set_ne _ _ (by omega)
        refine ⟨?_, fun tok hm => ?_, fun tok hm => ?_, fun tok b hm => ?_⟩
        · intro t' tok h
          show set s.isFlush s.nextTok false tok = true
          by_cases ht : t' = t
          · subst ht; simp [State.goto, set_eq] at h
          · simp only [State.goto, set_ne _ _ ht] at h
            rw [ne (hf.pcs t' tok (by rcases h with h | h <;> (rw [h]; rfl)))]; exact ih.pcs t' tok h
        · show set s.isFlush s.nextTok false tok = true
          rw [ne (show tok < s.nextTok from hf.msgs _ hm)]; exact ih.msgs tok hm
        · show set s.isFlush s.nextTok false tok = true
          rw [ne (hf.worker tok ⟨_, hm, rfl⟩)]; exact ih.worker tok hm
        · show set s.isFlush s.nextTok false tok = true ∨ _
          rw [ne (hf.replies _ hm)]; exact ih.replies tok b hm
      · cases hs
    | thread t => exact kinds_thread ih hs
    | timeout t =>
      simp only [step, timeoutStep] at hs
      split at hs
      · injection hs with hs; subst hs
        refine ⟨?_, ih.msgs, ih.worker, ih.replies⟩
        intro t' tok h
        by_cases ht : t' = t
        · subst ht; simp [State.ret, State.goto, set_eq] at h
        · simp only [State.ret, State.goto, set_ne _ _ ht] at h; exact ih.pcs t' tok h
      · cases hs
    | take =>
      simp only [step, takeStep] at hs
      split at hs
      · rename_i tok ms hw hm
        injection hs with hs; subst hs
        refine ⟨ih.pcs, fun tok h => ih.msgs tok (by rw [hm]; exact List.mem_cons_of_mem _ h), ?_, ih.replies⟩
        intro tok' h
        simp only [Worker.cont?, Option.some.injEq, Cont.flush.injEq] at h; subst h
        exact ih.msgs _ (by rw [hm]; exact List.mem_cons_self)
      · rename_i tok ms hw hm
        injection hs with hs; subst hs
        exact ⟨ih.pcs, fun tok h => ih.msgs tok (by rw [hm]; exact List.mem_cons_of_mem _ h), by simp [Worker.cont?], ih.replies⟩
      · cases hs
    | timer =>
      simp only [step, timerStep] at hs
      split at hs
      · injection hs with hs; subst hs; exact ⟨ih.pcs, ih.msgs, by simp [Worker.cont?], ih.replies⟩
      · cases hs
    | callbackFlush =>
      simp only [step, callbackFlushStep] at hs
      split at hs
      · rename_i k hw
        injection hs with hs; subst hs
        have le : ∀ {tok}, s.isFlush tok = true → set s.isFlush s.nextTok true tok = true := by
          intro tok h
          by_cases he : tok = s.nextTok
          · subst he; exact set_eq _ _ _
          · rw [set_ne _ _ he]; exact h
        refine ⟨fun t tok h => le (ih.pcs t tok h), ?_, fun tok h => le (ih.worker tok (by rw [hw]; exact h)),
          fun tok b h => (ih.replies tok b h).imp le id⟩
        intro tok h
        rcases List.mem_append.1 h with h | h
        · exact le (ih.msgs tok h)
        · simp only [List.mem_singleton, Msg.flush.injEq] at h; subst h; exact set_eq _ _ _
      · cases hs
    | work ok =>
      have hc := closed_inv hr
      simp only [step, workStep] at hs
      split at hs
      · cases hs
      · rename_i k hw
        have hwk : ∀ tok, k = .flush tok → s.isFlush tok = true := fun tok h => ih.worker tok (by rw [hw, h]; rfl)
        split at hs
        · split at hs
          · injection hs with hs; subst hs; exact ⟨ih.pcs, ih.msgs, fun tok h => hwk tok (afterExport_cont h), ih.replies⟩
          · injection hs with hs; subst hs
            exact ⟨ih.pcs, ih.msgs, fun tok h => hwk tok (by simpa [Worker.cont?] using h), ih.replies⟩
        · injection hs with hs; subst hs; exact ⟨ih.pcs, ih.msgs, fun tok h => hwk tok (afterExport_cont h), ih.replies⟩
      · rename_i tok k hw
        split at hs
        · injection hs with hs; subst hs
          exact ⟨ih.pcs, ih.msgs, fun tok h => ih.worker tok (by rw [hw]; exact h), ih.replies⟩
        · cases hs
      · rename_i lo hi k hw
        injection hs with hs; subst hs
        exact ⟨ih.pcs, ih.msgs, fun tok h => ih.worker tok (by rw [hw, ← afterExport_cont h]; rfl),
          fun tok b h => (ih.replies tok b h).imp id (List.mem_append_left _)⟩
      · injection hs with hs; subst hs
        exact ⟨ih.pcs, ih.msgs, by simp [Worker.cont?], fun tok b h => (ih.replies tok b h).imp id (List.mem_append_left _)⟩
      · rename_i k r hw
        split at hs
        · cases hs
        · rename_i tok
          injection hs with hs; subst hs
          refine ⟨ih.pcs, ih.msgs, by simp [Worker.cont?], fun tok' b h => ?_⟩
          rcases List.mem_append.1 h with h | h
          · exact ih.replies tok' b h
          · simp only [List.mem_singleton, Prod.mk.injEq] at h
            rw [h.1]; exact .inl (ih.worker tok (by rw [hw]; rfl))
        · injection hs with hs; subst hs
          refine ⟨ih.pcs, ih.msgs, by simp [Worker.cont?], fun tok' b h => ?_⟩
          rcases List.mem_append.1 h with h | h
          · exact ih.replies tok' b h
          · obtain ⟨pre, hp, _⟩ := hc.2 (by rw [hw]; rfl)
            exact .inr (by rw [hp]; simp)
      · injection hs with hs; subst hs
        exact ⟨ih.pcs, by simp, by simp [Worker.cont?], ih.replies⟩
      · cases hs

/-- **C48 (shutdown)** A `shutdown` call answered `Ok`: the exporter has been shut down (with either temporality), and by `ok_delivered` what
was recorded before the call has been exported. -/
theorem shutdown_ok (temp : Temp) (s : State) (h : Reachable temp s) (tok : Nat) (hf : s.isFlush tok = false) (hr : (tok, Ret.ok) ∈ s.returned) :
    Ev.shutdown ∈ s.log := by
  rcases (kinds h).replies tok true ((inv h).returned tok hr) with h' | h'
  · rw [hf] at h'; cases h'
  · exact h'

/-- Non-vacuity of `shutdown_ok`. -/
example : (runAll .delta State.init [.record, .shutdown 0, .thread 0, .take, .work true, .work true, .work true, .work true, .thread 0]).map
    (fun s => (s.returned, s.isFlush 0, s.log)) = some ([(0, Ret.ok)], false, [Ev.export 0 1 true, .shutdown]) := by rfl

/-! ## Every caller is answered -/

/-- The caller has been answered, or its response sender has been dropped. -/
def Answered (s : State) (tok : Nat) : Prop := (∃ b, (tok, b) ∈ s.replies) ∨ tok ∈ s.lost

theorem answerFor_isSome {s : State} {tok : Nat} : (answerFor s tok).isSome = true ↔ Answered s tok := by
  simp only [answerFor, Answered]
  split
  · rename_i p hp
    have hm := List.mem_of_find?_eq_some hp
    have he := List.find?_some hp
    simp only [beq_iff_eq] at he
    simp only [Option.isSome_some, true_iff]
    exact .inl ⟨p.2, by rw [← he]; exact hm⟩
  · rename_i hn
    rw [List.find?_eq_none] at hn
    have hno : ¬ ∃ b, (tok, b) ∈ s.replies := by rintro ⟨b, hb⟩; exact hn _ hb (by simp)
    split
    · rename_i hl; simp [hl]
    · rename_i hl; simp [hl, hno]

/-- The worker, as a number of steps to its next rest. -/
def Worker.rank : Worker → Nat
  | .idle => 0
  | .collecting _ => 5
  | .selfWait _ _ => 6
  | .exporting _ _ _ => 4
  | .closing _ _ => 3
  | .reply _ _ => 2
  | .exiting => 1
  | .done => 0

/-- At most `n` worker steps until `tok` is answered. -/
def Bound (s : State) (tok n : Nat) : Prop :=
  Answered s tok ∨ (s.worker.serves tok ∧ s.worker.rank ≤ n) ∨
    ∃ pre m post, s.msgs = pre ++ m :: post ∧ m.tok = tok ∧ s.worker.rank + 6 * (pre.length + 1) ≤ n

/-- Facts about the worker: it never answers a timer, and once it is done the channel is empty. -/
theorem worker_shape {temp : Temp} {s : State} (h : Reachable temp s) :
    (∀ b, s.worker ≠ .reply .timer b) ∧ (s.worker = .done → s.msgs = []) := by
  induction h with
  | init => simp [State.init]
  | @step s s' a hr hs ih =>
    cases a with
    | record => simp only [step, Option.some.injEq] at hs; subst hs; exact ih
    | flush t =>
      simp only [step, callStep] at hs
      split at hs
      · injection hs with hs; subst hs; exact ih
      · cases hs
    | shutdown t =>
      simp only [step, callStep] at hs
      split at hs
      · injection hs with hs; subst hs; exact ih
      · cases hs
    | thread t =>
      refine ⟨by rw [(threadStep_frame hs).1]; exact ih.1, fun hd => ?_⟩
      rw [(threadStep_frame hs).1] at hd
      have hal : s.worker.alive = false := by rw [hd]; rfl
      simp only [step, threadStep, hal] at hs
      split at hs
      · cases hs
      · simp only [Bool.false_eq_true, if_false, Option.some.injEq] at hs; subst hs; exact ih.2 hd
      · rw [Option.map_eq_some_iff] at hs; obtain ⟨r, _, rfl⟩ := hs; exact ih.2 hd
      · simp only [Bool.false_eq_true, if_false, Option.some.injEq] at hs; subst hs; exact ih.2 hd
      · rw [Option.map_eq_some_iff] at hs; obtain ⟨r, _, rfl⟩ := hs; exact ih.2 hd
    | timeout t =>
      simp only [step, timeoutStep] at hs
      split at hs
      · injection hs with hs; subst hs; exact ih
      · cases hs
    | take =>
      simp only [step, takeStep] at hs
      split at hs
      · injection hs with hs; subst hs; simp
      · injection hs with hs; subst hs; simp
      · cases hs
    | timer =>
      simp only [step, timerStep] at hs
      split at hs
      · injection hs with hs; subst hs; simp
      · cases hs
    | callbackFlush =>
      simp only [step, callbackFlushStep] at hs
      split at hs
      · injection hs with hs; subst hs; simp
      · cases hs
    | work ok =>
      have ha : ∀ k b, (∀ b', afterExport k b ≠ .reply .timer b') ∧ afterExport k b ≠ .done := by
        intro k b; cases k <;> simp [afterExport]
      simp only [step, workStep] at hs
      split at hs
      · cases hs
      · split at hs
        · split at hs
          · injection hs with hs; subst hs; exact ⟨(ha _ _).1, fun h => absurd h (ha _ _).2⟩
          · injection hs with hs; subst hs; simp
        · injection hs with hs; subst hs; exact ⟨(ha _ _).1, fun h => absurd h (ha _ _).2⟩
      · split at hs
        · injection hs with hs; subst hs; simp
        · cases hs
      · injection hs with hs; subst hs; exact ⟨(ha _ _).1, fun h => absurd h (ha _ _).2⟩
      · injection hs with hs; subst hs; simp
      · split at hs
        · cases hs
        · injection hs with hs; subst hs; simp
        · injection hs with hs; subst hs; simp
      · injection hs with hs; subst hs; simp
      · cases hs

/-- Actions of the worker. -/
def Action.isWorker : Action → Bool
  | .take => true
  | .work _ => true
  | _ => false

theorem Bound.mono {s : State} {tok n m : Nat} (h : Bound s tok n) (hle : n ≤ m) : Bound s tok m := by
  rcases h with h | ⟨h1, h2⟩ | ⟨pre, x, post, h1, h2, h3⟩
  · exact .inl h
  · exact .inr (.inl ⟨h1, by omega⟩)
  · exact .inr (.inr ⟨pre, x, post, h1, h2, by omega⟩)

theorem bound_frame {s s' : State} {tok n : Nat} (h : Bound s tok n) (hw : s'.worker = s.worker) (hr : s'.replies = s.replies) (hl : s'.lost = s.lost)
    (hm : ∃ l, s'.msgs = s.msgs ++ l) : Bound s' tok n := by
  obtain ⟨l, hm⟩ := hm
  simp only [Bound, Answered, hw, hr, hl, hm] at h ⊢
  rcases h with h | h | ⟨pre, x, post, h1, h2⟩
  · exact .inl h
  · exact .inr (.inl h)
  · exact .inr (.inr ⟨pre, x, post ++ l, by rw [h1]; simp, h2⟩)

theorem bound_thread {s s' : State} {t tok n : Nat} (h : Bound s tok n) (hs : threadStep s t = some s') : Bound s' tok n := by
  simp only [threadStep] at hs
  split at hs
  · cases hs
  · split at hs
    · injection hs with hs; subst hs; exact bound_frame h rfl rfl rfl ⟨_, rfl⟩
    · injection hs with hs; subst hs; exact bound_frame h rfl rfl rfl ⟨[], (List.append_nil _).symm⟩
  · rw [Option.map_eq_some_iff] at hs; obtain ⟨r, _, rfl⟩ := hs; exact bound_frame h rfl rfl rfl ⟨[], (List.append_nil _).symm⟩
  · split at hs
    · injection hs with hs; subst hs; exact bound_frame h rfl rfl rfl ⟨_, rfl⟩
    · injection hs with hs; subst hs; exact bound_frame h rfl rfl rfl ⟨[], (List.append_nil _).symm⟩
  · rw [Option.map_eq_some_iff] at hs; obtain ⟨r, _, rfl⟩ := hs; exact bound_frame h rfl rfl rfl ⟨[], (List.append_nil _).symm⟩

/-- The worker moves on: same call, lower rank. -/
theorem bound_move {s s' : State} {tok n : Nat} (h : Bound s tok (n + 1)) (hr : s'.replies = s.replies) (hl : s'.lost = s.lost)
    (hm : s'.msgs = s.msgs) (hk : s.worker.serves tok → s'.worker.serves tok) (hrank : s'.worker.rank < s.worker.rank) : Bound s' tok n := by
  rcases h with h | ⟨h1, h2⟩ | ⟨pre, x, post, h1, h2, h3⟩
  · left; simpa only [Answered, hr, hl] using h
  · exact .inr (.inl ⟨hk h1, by omega⟩)
  · exact .inr (.inr ⟨pre, x, post, by rw [hm, h1], h2, by omega⟩)

theorem afterExport_rank (k : Cont) (b : Bool) : (afterExport k b).rank < 4 := by cases k <;> simp [afterExport, Worker.rank]

theorem serves_afterExport {k : Cont} {b : Bool} {tok : Nat} (h : k.tok? = some tok) : (afterExport k b).serves tok := by
  cases k with
  | timer => cases h
  | flush t => exact ⟨_, rfl, h⟩
  | shut t => exact ⟨_, rfl, h⟩

theorem bound_work {temp : Temp} {s s' : State} {tok n : Nat} {ok : Bool} (hself : ∀ a k, s.worker ≠ .selfWait a k)
    (h : Bound s tok (n + 1)) (hs : workStep temp s ok = some s') : Bound s' tok n := by
  simp only [workStep] at hs
  split at hs
  · cases hs
  · rename_i k hw
    have hk : s.worker.serves tok → k.tok? = some tok := by
      rintro ⟨k', h1, h2⟩; rw [hw] at h1; simp only [Worker.cont?, Option.some.injEq] at h1; subst h1; exact h2
    have hrk : s.worker.rank = 5 := by rw [hw]; rfl
    split at hs
    · split at hs
      · injection hs with hs; subst hs
        exact bound_move h rfl rfl rfl (fun hh => serves_afterExport (hk hh)) (by have := afterExport_rank k true; simp only; omega)
      · injection hs with hs; subst hs
        exact bound_move h rfl rfl rfl (fun hh => ⟨k, rfl, hk hh⟩) (by rw [hrk]; simp [Worker.rank])
    · injection hs with hs; subst hs
      exact bound_move h rfl rfl rfl (fun hh => serves_afterExport (hk hh)) (by have := afterExport_rank k false; simp only; omega)
  · rename_i a k hw; exact absurd hw (hself a k)
  · rename_i lo hi k hw
    have hk : s.worker.serves tok → k.tok? = some tok := by
      rintro ⟨k', h1, h2⟩; rw [hw] at h1; simp only [Worker.cont?, Option.some.injEq] at h1; subst h1; exact h2
    injection hs with hs; subst hs
    exact bound_move h rfl rfl rfl (fun hh => serves_afterExport (hk hh)) (by rw [hw]; exact afterExport_rank k ok)
  · rename_i a r hw
    injection hs with hs; subst hs
    refine bound_move h rfl rfl rfl ?_ (by rw [hw]; simp [Worker.rank])
    rintro ⟨k', h1, h2⟩; rw [hw] at h1; exact ⟨k', h1, h2⟩
  · rename_i k r hw
    have key : ∀ (a : Nat) (w : Worker), k.tok? = some a → w.rank < 2 → Bound { s with replies := s.replies ++ [(a, r)], worker := w } tok n := by
      intro a w hka hrw
      rcases h with h | ⟨h1, h2⟩ | ⟨pre, x, post, h1, h2, h3⟩
      · left
        rcases h with ⟨b, hb⟩ | h
        · exact .inl ⟨b, List.mem_append_left _ hb⟩
        · exact .inr h
      · obtain ⟨k', h1, h3⟩ := h1
        rw [hw] at h1; simp only [Worker.cont?, Option.some.injEq] at h1; subst h1
        rw [hka] at h3; injection h3 with h3; subst h3
        exact .inl (.inl ⟨r, by simp⟩)
      · rw [hw] at h3
        refine .inr (.inr ⟨pre, x, post, h1, h2, ?_⟩)
        have h4 : (Worker.reply k r).rank = 2 := rfl
        show w.rank + 6 * (pre.length + 1) ≤ n
        omega
    split at hs
    · cases hs
    · injection hs with hs; subst hs; exact key _ .idle rfl (by simp [Worker.rank])
    · injection hs with hs; subst hs; exact key _ .exiting rfl (by simp [Worker.rank])
  · rename_i hw
    injection hs with hs; subst hs
    rcases h with h | ⟨⟨k', h1, _⟩, _⟩ | ⟨pre, x, post, h1, h2, _⟩
    · left
      rcases h with h | h
      · exact .inl h
      · exact .inr (List.mem_append_left _ h)
    · rw [hw] at h1; cases h1
    · exact .inl (.inr (List.mem_append_right _ (by rw [← h2, h1]; simp)))
  · cases hs

theorem bound_step {temp : Temp} {s s' : State} {a : Action} {tok n : Nat} (hself : ∀ t k, s.worker ≠ .selfWait t k) (ha : a ≠ .callbackFlush)
    (h : Bound s tok (n + (if a.isWorker then 1 else 0))) (hs : step temp s a = some s') : Bound s' tok n := by
  cases a with
  | record => simp only [step, Option.some.injEq] at hs; subst hs; exact bound_frame h rfl rfl rfl ⟨[], (List.append_nil _).symm⟩
  | flush t =>
    simp only [step, callStep] at hs
    split at hs
    · injection hs with hs; subst hs; exact bound_frame h rfl rfl rfl ⟨[], (List.append_nil _).symm⟩
    · cases hs
  | shutdown t =>
    simp only [step, callStep] at hs
    split at hs
    · injection hs with hs; subst hs; exact bound_frame h rfl rfl rfl ⟨[], (List.append_nil _).symm⟩
    · cases hs
  | thread t => exact bound_thread h hs
  | timeout t =>
    simp only [step, timeoutStep] at hs
    split at hs
    · injection hs with hs; subst hs; exact bound_frame h rfl rfl rfl ⟨[], (List.append_nil _).symm⟩
    · cases hs
  | take =>
    have key : ∀ (m : Msg) (ms : List Msg) (w : Worker), s.worker = .idle → s.msgs = m :: ms → w.serves m.tok → w.rank = 5 →
        Bound { s with msgs := ms, worker := w } tok n := by
      intro m ms w hw hm hsv hrk
      rcases h with h | ⟨⟨k', h1, _⟩, _⟩ | ⟨pre, x, post, h1, h2, h3⟩
      · exact .inl h
      · rw [hw] at h1; cases h1
      · simp only [Action.isWorker, if_true] at h3
        cases pre with
        | nil =>
          rw [hm] at h1
          simp only [List.nil_append, List.cons.injEq] at h1
          rw [← h1.1] at h2; subst h2
          exact .inr (.inl ⟨hsv, by simp only [hrk]; simp only [List.length_nil] at h3; omega⟩)
        | cons y pre =>
          rw [hm] at h1
          simp only [List.cons_append, List.cons.injEq] at h1
          refine .inr (.inr ⟨pre, x, post, h1.2, h2, ?_⟩)
          simp only [hrk]; simp only [List.length_cons] at h3; omega
    simp only [step, takeStep] at hs
    split at hs
    · rename_i a ms hw hm; injection hs with hs; subst hs; exact key _ _ _ hw hm ⟨_, rfl, rfl⟩ rfl
    · rename_i a ms hw hm; injection hs with hs; subst hs; exact key _ _ _ hw hm ⟨_, rfl, rfl⟩ rfl
    · cases hs
  | timer =>
    simp only [step, timerStep] at hs
    split at hs
    · rename_i hw hm
      injection hs with hs; subst hs
      rcases h with h | ⟨⟨k', h1, _⟩, _⟩ | ⟨pre, x, post, h1, _⟩
      · exact .inl h
      · rw [hw] at h1; cases h1
      · rw [hm] at h1; simp at h1
    · cases hs
  | work ok => exact bound_work hself h hs
  | callbackFlush => exact absurd rfl ha

theorem no_self_step {temp : Temp} {s s' : State} {a : Action} (hself : ∀ t k, s.worker ≠ .selfWait t k) (ha : a ≠ .callbackFlush)
    (hs : step temp s a = some s') : ∀ t k, s'.worker ≠ .selfWait t k := by
  intro t k
  cases a with
  | record => simp only [step, Option.some.injEq] at hs; subst hs; exact hself t k
  | flush t' =>
    simp only [step, callStep] at hs
    split at hs
    · injection hs with hs; subst hs; exact hself t k
    · cases hs
  | shutdown t' =>
    simp only [step, callStep] at hs
    split at hs
    · injection hs with hs; subst hs; exact hself t k
    · cases hs
  | thread t' => rw [(threadStep_frame hs).1]; exact hself t k
  | timeout t' =>
    simp only [step, timeoutStep] at hs
    split at hs
    · injection hs with hs; subst hs; exact hself t k
    · cases hs
  | take =>
    simp only [step, takeStep] at hs
    split at hs
    · injection hs with hs; subst hs; simp
    · injection hs with hs; subst hs; simp
    · cases hs
  | timer =>
    simp only [step, timerStep] at hs
    split at hs
    · injection hs with hs; subst hs; simp
    · cases hs
  | callbackFlush => exact absurd rfl ha
  | work ok =>
    simp only [step, workStep] at hs
    split at hs
    · cases hs
    · split at hs
      · split at hs
        · injection hs with hs; subst hs; exact afterExport_ne_self _ _ _ _
        · injection hs with hs; subst hs; simp
      · injection hs with hs; subst hs; exact afterExport_ne_self _ _ _ _
    · split at hs
      · injection hs with hs; subst hs; simp
      · cases hs
    · injection hs with hs; subst hs; exact afterExport_ne_self _ _ _ _
    · injection hs with hs; subst hs; simp
    · split at hs
      · cases hs
      · injection hs with hs; subst hs; simp
      · injection hs with hs; subst hs; simp
    · injection hs with hs; subst hs; simp
    · cases hs

/-- A caller that waits has been answered, or is in the channel, or is being served. -/
theorem waiting_inv {temp : Temp} {s : State} (h : Reachable temp s) (t tok : Nat)
    (hw : s.threads t = .flushWait tok ∨ s.threads t = .shutWait tok) : ∃ n, Bound s tok n := by
  induction h with
  | init => simp [State.init] at hw
  | @step s s' a hr hs ih =>
    by_cases hpc : s.threads t = .flushWait tok ∨ s.threads t = .shutWait tok
    · obtain ⟨n, hn⟩ := ih hpc
      by_cases ha : a = .callbackFlush
      · subst ha
        simp only [step, callbackFlushStep] at hs
        split at hs
        · rename_i k hwk
          injection hs with hs; subst hs
          refine ⟨n + 6, ?_⟩
          rcases hn with h | ⟨⟨k', h1, h1'⟩, h2⟩ | ⟨pre, x, post, h1, h2, h3⟩
          · exact .inl h
          · refine .inr (.inl ⟨⟨k', ?_, h1'⟩, by simp [Worker.rank]⟩)
            rw [hwk] at h1; exact h1
          · refine .inr (.inr ⟨pre, x, post ++ [_], by simp only [h1]; simp; rfl, h2, ?_⟩)
            simp only [Worker.rank]; omega
        · cases hs
      · by_cases hself : ∃ a k, s.worker = .selfWait a k
        · obtain ⟨a', k, hsw⟩ := hself
          cases a with
          | work ok =>
            simp only [step, workStep, hsw] at hs
            split at hs
            · injection hs with hs; subst hs
              refine ⟨n, ?_⟩
              rcases hn with h | ⟨⟨k', h1, h1'⟩, h2⟩ | ⟨pre, x, post, h1, h2, h3⟩
              · exact .inl h
              · rw [hsw] at h1 h2
                exact .inr (.inl ⟨⟨k', h1, h1'⟩, by simp only [Worker.rank] at h2 ⊢; omega⟩)
              · rw [hsw] at h3
                exact .inr (.inr ⟨pre, x, post, h1, h2, by simp only [Worker.rank] at h3 ⊢; omega⟩)
            · cases hs
          | callbackFlush => exact absurd rfl ha
          | take => simp [step, takeStep, hsw] at hs
          | timer => simp [step, timerStep, hsw] at hs
          | thread t' => exact ⟨n, bound_thread hn hs⟩
          | record => simp only [step, Option.some.injEq] at hs; subst hs; exact ⟨n, bound_frame hn rfl rfl rfl ⟨[], (List.append_nil _).symm⟩⟩
          | flush t' =>
            simp only [step, callStep] at hs
            split at hs
            · injection hs with hs; subst hs; exact ⟨n, bound_frame hn rfl rfl rfl ⟨[], (List.append_nil _).symm⟩⟩
            · cases hs
          | shutdown t' =>
            simp only [step, callStep] at hs
            split at hs
            · injection hs with hs; subst hs; exact ⟨n, bound_frame hn rfl rfl rfl ⟨[], (List.append_nil _).symm⟩⟩
            · cases hs
          | timeout t' =>
            simp only [step, timeoutStep] at hs
            split at hs
            · injection hs with hs; subst hs; exact ⟨n, bound_frame hn rfl rfl rfl ⟨[], (List.append_nil _).symm⟩⟩
            · cases hs
        · exact ⟨n, bound_step (fun a k h => hself ⟨a, k, h⟩) ha (hn.mono (Nat.le_add_right _ _)) hs⟩
    · -- the thread has just sent its message
      have hsent : ∃ m, s'.msgs = s.msgs ++ [m] ∧ m.tok = tok := by
        have frame : s'.threads = s.threads → False := fun he => hpc (by rw [← he]; exact hw)
        have fgoto : ∀ t' pc, s'.threads = set s.threads t' pc → t' = t ∧ (pc = .flushWait tok ∨ pc = .shutWait tok) := by
          intro t' pc he
          by_cases hte : t = t'
          · subst hte; rw [he, set_eq] at hw; exact ⟨rfl, hw⟩
          · rw [he, set_ne _ _ hte] at hw; exact absurd hw hpc
        cases a with
        | record => simp only [step, Option.some.injEq] at hs; subst hs; exact (frame rfl).elim
        | flush t' =>
          simp only [step, callStep] at hs
          split at hs
          · injection hs with hs; subst hs; have := (fgoto _ _ rfl).2; simp at this
          · cases hs
        | shutdown t' =>
          simp only [step, callStep] at hs
          split at hs
          · injection hs with hs; subst hs; have := (fgoto _ _ rfl).2; simp at this
          · cases hs
        | timeout t' =>
          simp only [step, timeoutStep] at hs
          split at hs
          · injection hs with hs; subst hs; have := (fgoto _ _ rfl).2; simp at this
          · cases hs
        | thread t' =>
          simp only [step, threadStep] at hs
          split at hs
          · cases hs
          · rename_i a hpc'
            split at hs
            · injection hs with hs; subst hs
              have := (fgoto _ _ rfl).2
              simp only [Pc.flushWait.injEq, reduceCtorEq, or_false] at this
              exact ⟨_, rfl, this⟩
            · injection hs with hs; subst hs; have := (fgoto _ _ rfl).2; simp at this
          · rw [Option.map_eq_some_iff] at hs; obtain ⟨r, _, rfl⟩ := hs; have := (fgoto _ _ rfl).2; simp at this
          · rename_i a hpc'
            split at hs
            · injection hs with hs; subst hs
              have := (fgoto _ _ rfl).2
              simp only [Pc.shutWait.injEq, reduceCtorEq, false_or] at this
              exact ⟨_, rfl, this⟩
            · injection hs with hs; subst hs; have := (fgoto _ _ rfl).2; simp at this
          · rw [Option.map_eq_some_iff] at hs; obtain ⟨r, _, rfl⟩ := hs; have := (fgoto _ _ rfl).2; simp at this
        | take =>
          simp only [step, takeStep] at hs
          split at hs
          · injection hs with hs; subst hs; exact (frame rfl).elim
          · injection hs with hs; subst hs; exact (frame rfl).elim
          · cases hs
        | timer =>
          simp only [step, timerStep] at hs
          split at hs
          · injection hs with hs; subst hs; exact (frame rfl).elim
          · cases hs
        | callbackFlush =>
          simp only [step, callbackFlushStep] at hs
          split at hs
          · injection hs with hs; subst hs; exact (frame rfl).elim
          · cases hs
        | work ok =>
          simp only [step, workStep] at hs
          cases_step hs
          all_goals first
            | (cases hs; done)
            | (injection hs with hs; subst hs; exact (frame rfl).elim)
      obtain ⟨m, hm, ht⟩ := hsent
      exact ⟨_, .inr (.inr ⟨s.msgs, m, [], hm, ht, Nat.le_refl _⟩)⟩

theorem bound_sharp {s : State} {tok n : Nat} (h : Bound s tok n) (hself : ∀ a k, s.worker ≠ .selfWait a k) :
    Bound s tok (6 * (s.msgs.length + 1)) := by
  have hr : s.worker.rank ≤ 5 := by
    cases hw : s.worker <;> simp [Worker.rank]
    rename_i a k; exact hself a k hw
  rcases h with h | ⟨h1, _⟩ | ⟨pre, x, post, h1, h2, _⟩
  · exact .inl h
  · exact .inr (.inl ⟨h1, by omega⟩)
  · refine .inr (.inr ⟨pre, x, post, h1, h2, ?_⟩)
    rw [h1]; simp only [List.length_append, List.length_cons]; omega

/-- **C48 (answer)** As long as no callback of the reader's own collection calls `force_flush`: whatever the schedule and the exporter do, a
caller waiting in `force_flush` or `shutdown` has its answer after at most six steps of the worker for each request then in the channel and
six more. -/
theorem caller_answered_partial (temp : Temp) (s s' : State) (h : Reachable temp s) (t tok : Nat)
    (hw : s.threads t = .flushWait tok ∨ s.threads t = .shutWait tok) (hself : ∀ a k, s.worker ≠ .selfWait a k)
    (as : List Action) (hrun : runAll temp s as = some s') (hno : Action.callbackFlush ∉ as)
    (hlong : 6 * (s.msgs.length + 1) ≤ as.countP Action.isWorker) : (answerFor s' tok).isSome = true := by
  obtain ⟨n, hn⟩ := waiting_inv h t tok hw
  have hb := bound_sharp hn hself
  clear hn hw h
  rw [answerFor_isSome]
  generalize 6 * (s.msgs.length + 1) = b at hb hlong
  induction as generalizing s b with
  | nil =>
    simp only [runAll, Option.some.injEq] at hrun; subst hrun
    simp only [List.countP_nil, Nat.le_zero] at hlong
    subst hlong
    rcases hb with h | ⟨⟨k, h1, _⟩, h2⟩ | ⟨pre, x, post, _, _, h3⟩
    · exact h
    · cases hw : s.worker <;> simp [hw, Worker.cont?, Worker.rank] at h1 h2
    · omega
  | cons a as ih =>
    simp only [runAll] at hrun
    split at hrun
    · rename_i s1 hs
      have ha : a ≠ .callbackFlush := fun he => hno (by simp [he])
      have hno' : Action.callbackFlush ∉ as := fun he => hno (List.mem_cons_of_mem _ he)
      rw [List.countP_cons] at hlong
      refine ih s1 (no_self_step hself ha hs) hrun hno' (b - if a.isWorker then 1 else 0) ?_ (by split at hlong <;> simp_all <;> omega)
      refine bound_step hself ha (hb.mono ?_) hs
      split <;> omega
    · cases hrun

/-- **C48 (no stuck worker)** While a caller waits unanswered and the worker does not wait for itself, the worker has a step to take; the
bound of `caller_answered_partial` is reached in every fair schedule. -/
theorem worker_moves_partial (temp : Temp) (s : State) (h : Reachable temp s) (t tok : Nat)
    (hw : s.threads t = .flushWait tok ∨ s.threads t = .shutWait tok) (hself : ∀ a k, s.worker ≠ .selfWait a k)
    (hun : answerFor s tok = none) : (step temp s .take).isSome = true ∨ ∀ ok, (step temp s (.work ok)).isSome = true := by
  obtain ⟨n, hn⟩ := waiting_inv h t tok hw
  have hsh := worker_shape h
  have hna : ¬ Answered s tok := by rw [← answerFor_isSome, hun]; simp
  rcases hn with h1 | ⟨⟨k, h1, h2⟩, _⟩ | ⟨pre, x, post, h1, h2, _⟩
  · exact absurd h1 hna
  · right
    intro ok
    cases hwk : s.worker with
    | idle => rw [hwk] at h1; cases h1
    | collecting k => simp only [step, workStep, hwk]; (repeat' split) <;> rfl
    | selfWait a k => exact absurd hwk (hself a k)
    | exporting => simp [step, workStep, hwk]
    | closing => simp [step, workStep, hwk]
    | reply k r =>
      cases k with
      | timer => exact absurd hwk (hsh.1 r)
      | flush => simp [step, workStep, hwk]
      | shut => simp [step, workStep, hwk]
    | exiting => simp [step, workStep, hwk]
    | done => rw [hwk] at h1; cases h1
  · cases hwk : s.worker with
    | idle =>
      left
      obtain ⟨m, ms, hms⟩ : ∃ m ms, s.msgs = m :: ms := by
        cases hq : s.msgs with
        | nil => rw [hq] at h1; simp at h1
        | cons m ms => exact ⟨m, ms, rfl⟩
      cases m <;> simp [step, takeStep, hwk, hms]
    | collecting k => right; intro ok; simp only [step, workStep, hwk]; (repeat' split) <;> rfl
    | selfWait a k => exact absurd hwk (hself a k)
    | exporting => right; intro ok; simp [step, workStep, hwk]
    | closing => right; intro ok; simp [step, workStep, hwk]
    | reply k r =>
      right; intro ok
      cases k with
      | timer => exact absurd hwk (hsh.1 r)
      | flush => simp [step, workStep, hwk]
      | shut => simp [step, workStep, hwk]
    | exiting => right; intro ok; simp [step, workStep, hwk]
    | done => rw [hsh.2 hwk] at h1; simp at h1

/-- Non-vacuity: a caller waiting behind another. -/
example : (runAll .cumulative State.init [.record, .flush 0, .flush 1, .thread 0, .thread 1]).map
    (fun s => (s.threads 0, s.threads 1, s.msgs.length, s.worker)) = some (.flushWait 0, .flushWait 1, 2, .idle) := by rfl

/-! ## A flush from inside a callback -/

theorem self_unanswered {temp : Temp} {s : State} (h : Reachable temp s) (tok : Nat) (k : Cont) (hw : s.worker = .selfWait tok k) :
    ¬ Answered s tok := by
  induction h with
  | init => simp [State.init] at hw
  | @step s s' a hr hs ih =>
    by_cases ha : a = .callbackFlush
    · subst ha
      have hf := fresh hr
      simp only [step, callbackFlushStep] at hs
      split at hs
      · injection hs with hs; subst hs
        injection hw with h1 h2; subst h1
        rintro (⟨b, hb⟩ | hl)
        · exact absurd (hf.replies _ hb) (Nat.lt_irrefl _)
        · exact absurd (hf.lost _ hl) (Nat.lt_irrefl _)
      · cases hs
    · by_cases hself : ∃ t k, s.worker = .selfWait t k
      · obtain ⟨t, k', hsw⟩ := hself
        have keep : s'.worker = s.worker → s'.replies = s.replies → s'.lost = s.lost → ¬ Answered s' tok := by
          intro h1 h2 h3
          rw [h1] at hw
          have := ih hw
          simpa only [Answered, h2, h3] using this
        cases a with
        | record => simp only [step, Option.some.injEq] at hs; subst hs; exact keep rfl rfl rfl
        | flush t' =>
          simp only [step, callStep] at hs
          split at hs
          · injection hs with hs; subst hs; exact keep rfl rfl rfl
          · cases hs
        | shutdown t' =>
          simp only [step, callStep] at hs
          split at hs
          · injection hs with hs; subst hs; exact keep rfl rfl rfl
          · cases hs
        | thread t' =>
          simp only [step, threadStep] at hs
          split at hs
          · cases hs
          · split at hs <;> (injection hs with hs; subst hs; exact keep rfl rfl rfl)
          · rw [Option.map_eq_some_iff] at hs; obtain ⟨r, _, rfl⟩ := hs; exact keep rfl rfl rfl
          · split at hs <;> (injection hs with hs; subst hs; exact keep rfl rfl rfl)
          · rw [Option.map_eq_some_iff] at hs; obtain ⟨r, _, rfl⟩ := hs; exact keep rfl rfl rfl
        | timeout t' =>
          simp only [step, timeoutStep] at hs
          split at hs
          · injection hs with hs; subst hs; exact keep rfl rfl rfl
          · cases hs
        | take => simp [step, takeStep, hsw] at hs
        | timer => simp [step, timerStep, hsw] at hs
        | callbackFlush => exact absurd rfl ha
        | work ok =>
          simp only [step, workStep, hsw] at hs
          split at hs
          · injection hs with hs; subst hs; simp at hw
          · cases hs
      · exact absurd hw (no_self_step (fun t k h => hself ⟨t, k, h⟩) ha hs tok k)

/-- One step of a system whose worker waits for itself. -/
theorem self_step {temp : Temp} {s s' : State} {a : Action} (h : Reachable temp s) (tok : Nat) (k : Cont) (hw : s.worker = .selfWait tok k)
    (hs : step temp s a = some s') : s'.worker = .selfWait tok k ∧ s'.replies = s.replies ∧ s'.lost = s.lost := by
  have hna := self_unanswered h tok k hw
  cases a with
  | record => simp only [step, Option.some.injEq] at hs; subst hs; exact ⟨hw, rfl, rfl⟩
  | flush t' =>
    simp only [step, callStep] at hs
    split at hs
    · injection hs with hs; subst hs; exact ⟨hw, rfl, rfl⟩
    · cases hs
  | shutdown t' =>
    simp only [step, callStep] at hs
    split at hs
    · injection hs with hs; subst hs; exact ⟨hw, rfl, rfl⟩
    · cases hs
  | thread t' =>
    simp only [step, threadStep] at hs
    split at hs
    · cases hs
    · split at hs <;> (injection hs with hs; subst hs; exact ⟨hw, rfl, rfl⟩)
    · rw [Option.map_eq_some_iff] at hs; obtain ⟨r, _, rfl⟩ := hs; exact ⟨hw, rfl, rfl⟩
    · split at hs <;> (injection hs with hs; subst hs; exact ⟨hw, rfl, rfl⟩)
    · rw [Option.map_eq_some_iff] at hs; obtain ⟨r, _, rfl⟩ := hs; exact ⟨hw, rfl, rfl⟩
  | timeout t' =>
    simp only [step, timeoutStep] at hs
    split at hs
    · injection hs with hs; subst hs; exact ⟨hw, rfl, rfl⟩
    · cases hs
  | take => simp [step, takeStep, hw] at hs
  | timer => simp [step, timerStep, hw] at hs
  | callbackFlush => simp [step, callbackFlushStep, hw] at hs
  | work ok =>
    simp only [step, workStep, hw] at hs
    split at hs
    · rename_i r hr
      exact absurd (answerFor_isSome.1 (by rw [hr]; rfl)) hna
    · cases hs

theorem self_forever {temp : Temp} {s s' : State} (h : Reachable temp s) (tok : Nat) (k : Cont) (hw : s.worker = .selfWait tok k)
    (hl : Later temp s s') : Reachable temp s' ∧ s'.worker = .selfWait tok k ∧ s'.replies = s.replies ∧ s'.lost = s.lost := by
  induction hl with
  | refl => exact ⟨h, hw, rfl, rfl⟩
  | step _ hs ih =>
    obtain ⟨h1, h2, h3, h4⟩ := ih
    obtain ⟨h5, h6, h7⟩ := self_step h1 tok k h2 hs
    exact ⟨.step h1 hs, h5, h6.trans h3, h7.trans h4⟩

/-- **C48 (violated)** An observable callback that calls `force_flush` stops the reader for ever: nothing is exported in any later state, and a
thread that waits in `force_flush` never returns. -/
theorem callback_flush_deadlocks_violated (temp : Temp) :
    ∃ s, Reachable temp s ∧ s.threads 0 = .flushWait 0 ∧ s.recorded = 1 ∧
      ∀ s', Later temp s s' → s'.threads 0 = .flushWait 0 ∧ s'.log = [] := by
  have h : (runAll temp State.init [.record, .flush 0, .thread 0, .take, .callbackFlush]).map
      (fun s => (s.worker, s.recorded, s.threads 0, s.log, s.replies, s.lost)) =
        some (.selfWait 1 (.flush 0), 1, .flushWait 0, [], [], []) := by cases temp <;> rfl
  obtain ⟨s, hs, he⟩ := Option.map_eq_some_iff.1 h
  simp only [Prod.mk.injEq] at he
  obtain ⟨e1, e2, e3, e4, e5, e6⟩ := he
  have hr := reachable_runAll .init _ hs
  refine ⟨s, hr, e3, e2, fun s' hl => ?_⟩
  induction hl with
  | refl => exact ⟨e3, e4⟩
  | @step s1 s2 a hl hs ih =>
    obtain ⟨h1, h2, h3, h4⟩ := self_forever hr 1 _ e1 hl
    have hna : answerFor s1 0 = none := by simp [answerFor, h3, h4, e5, e6]
    obtain ⟨i1, i2⟩ := ih
    cases a with
    | record => simp only [step, Option.some.injEq] at hs; subst hs; exact ⟨i1, i2⟩
    | flush t' =>
      simp only [step, callStep] at hs
      split at hs
      · rename_i hi
        injection hs with hs; subst hs
        refine ⟨?_, i2⟩
        simp only [State.goto]; rw [set_ne]; exact i1
        intro h0; rw [h0] at i1; rw [hi] at i1; cases i1
      · cases hs
    | shutdown t' =>
      simp only [step, callStep] at hs
      split at hs
      · rename_i hi
        injection hs with hs; subst hs
        refine ⟨?_, i2⟩
        simp only [State.goto]; rw [set_ne]; exact i1
        intro h0; rw [h0] at i1; rw [hi] at i1; cases i1
      · cases hs
    | thread t' =>
      refine ⟨?_, by rw [(threadStep_frame hs).2]; exact i2⟩
      by_cases ht : t' = 0
      · subst ht; simp [step, threadStep, i1, hna] at hs
      · have ht' : (0 : Nat) ≠ t' := fun h => ht h.symm
        simp only [step, threadStep] at hs
        split at hs
        · cases hs
        · split at hs <;> (injection hs with hs; subst hs; simp only [State.ret, State.goto]; rw [set_ne _ _ ht']; exact i1)
        · rw [Option.map_eq_some_iff] at hs; obtain ⟨r, _, rfl⟩ := hs; simp only [State.ret, State.goto]; rw [set_ne _ _ ht']; exact i1
        · split at hs <;> (injection hs with hs; subst hs; simp only [State.ret, State.goto]; rw [set_ne _ _ ht']; exact i1)
        · rw [Option.map_eq_some_iff] at hs; obtain ⟨r, _, rfl⟩ := hs; simp only [State.ret, State.goto]; rw [set_ne _ _ ht']; exact i1
    | timeout t' =>
      simp only [step, timeoutStep] at hs
      split at hs
      · rename_i tok hi
        injection hs with hs; subst hs
        refine ⟨?_, i2⟩
        simp only [State.ret, State.goto]; rw [set_ne]; exact i1
        intro h0; rw [h0] at i1; rw [hi] at i1; cases i1
      · cases hs
    | take => simp [step, takeStep, h2] at hs
    | timer => simp [step, timerStep, h2] at hs
    | callbackFlush => simp [step, callbackFlushStep, h2] at hs
    | work ok =>
      have := (self_step h1 1 _ h2 hs)
      simp only [step, workStep, h2] at hs
      split at hs
      · injection hs with hs; subst hs; simp at this
      · cases hs

/-! ## After shutdown -/

/-- **C48 (late calls)** Once the worker has ended, a `force_flush` or `shutdown` call fails at once. -/
theorem late_call_fails (temp : Temp) (s : State) (hd : s.worker = .done) (t : Nat) (hi : s.threads t = .idle) :
    (runAll temp s [.flush t, .thread t]).map State.returned = some (s.returned ++ [(s.nextTok, .failed)]) ∧
    (runAll temp s [.shutdown t, .thread t]).map State.returned = some (s.returned ++ [(s.nextTok, .failed)]) := by
  constructor <;> simp [runAll, step, callStep, threadStep, hi, hd, State.goto, set_eq, State.ret, Worker.alive]

/-- The state that `late_call_fails` talks about is reached. -/
example : (runAll .cumulative State.init [.shutdown 0, .thread 0, .take, .work true, .work true, .work true, .work true, .thread 0]).map
    (fun s => (s.worker, s.threads 0, s.returned)) = some (.done, .idle, [(0, .ok)]) := by rfl

/-- The worker holds a negative result. -/
def Worker.negative : Worker → Bool
  | .closing _ ok => !ok
  | .reply _ ok => !ok
  | _ => false

/-- **C48 (no false alarm)** If the pipeline and the exporter never fail, no request the worker takes up is answered with an error. -/
theorem no_false_alarm (temp : Temp) (as : List Action) (s : State) (hrun : runAll temp State.init as = some s)
    (hok : Action.work false ∉ as) (p : Nat × Bool) (hp : p ∈ s.replies) : p.2 = true := by
  have key : ∀ (as : List Action) (s0 : State), (∀ p ∈ s0.replies, p.2 = true) → s0.worker.negative = false → Action.work false ∉ as →
      runAll temp s0 as = some s → ∀ p ∈ s.replies, p.2 = true := by
    intro as
    induction as with
    | nil => intro s0 h1 _ _ hr; simp only [runAll, Option.some.injEq] at hr; subst hr; exact h1
    | cons a as ih =>
      intro s0 h1 h2 hno hr
      simp only [runAll] at hr
      split at hr
      · rename_i s1 hs
        have hno' : Action.work false ∉ as := fun he => hno (List.mem_cons_of_mem _ he)
        have ha : a ≠ .work false := fun he => hno (by simp [he])
        refine ih s1 ?_ ?_ hno' hr
        all_goals
          cases a with
          | record => simp only [step, Option.some.injEq] at hs; subst hs; assumption
          | flush t' =>
            simp only [step, callStep] at hs
            split at hs
            · injection hs with hs; subst hs; assumption
            · cases hs
          | shutdown t' =>
            simp only [step, callStep] at hs
            split at hs
            · injection hs with hs; subst hs; assumption
            · cases hs
          | thread t' =>
            simp only [step, threadStep] at hs
            split at hs
            · cases hs
            · split at hs <;> (injection hs with hs; subst hs; assumption)
            · rw [Option.map_eq_some_iff] at hs; obtain ⟨r, _, rfl⟩ := hs; assumption
            · split at hs <;> (injection hs with hs; subst hs; assumption)
            · rw [Option.map_eq_some_iff] at hs; obtain ⟨r, _, rfl⟩ := hs; assumption
          | timeout t' =>
            simp only [step, timeoutStep] at hs
            split at hs
            · injection hs with hs; subst hs; assumption
            · cases hs
          | take =>
            simp only [step, takeStep] at hs
            split at hs
            · injection hs with hs; subst hs; first | assumption | rfl
            · injection hs with hs; subst hs; first | assumption | rfl
            · cases hs
          | timer =>
            simp only [step, timerStep] at hs
            split at hs
            · injection hs with hs; subst hs; first | assumption | rfl
            · cases hs
          | callbackFlush =>
            simp only [step, callbackFlushStep] at hs
            split at hs
            · injection hs with hs; subst hs; first | assumption | rfl
            · cases hs
          | work ok =>
            have hok : ok = true := by cases ok <;> simp_all
            subst hok
            have hae : ∀ k, (afterExport k true).negative = false := by intro k; cases k <;> rfl
            simp only [step, workStep] at hs
            split at hs
            · cases hs
            · split at hs
              · split at hs
                · injection hs with hs; subst hs; first | assumption | exact hae _
                · injection hs with hs; subst hs; first | assumption | rfl
              · rename_i hne; exact absurd trivial hne
            · split at hs
              · injection hs with hs; subst hs; first | assumption | rfl
              · cases hs
            · injection hs with hs; subst hs; first | assumption | exact hae _
            · rename_i tok r hw
              rw [hw] at h2
              injection hs with hs; subst hs
              first | assumption | (simpa [Worker.negative] using h2)
            · rename_i k r hw
              rw [hw] at h2
              have hr' : r = true := by simpa [Worker.negative] using h2
              subst hr'
              split at hs
              · cases hs
              · injection hs with hs; subst hs
                first
                  | rfl
                  | (intro p hp
                     rcases List.mem_append.1 hp with hp | hp
                     · exact h1 p hp
                     · simp only [List.mem_singleton] at hp; subst hp; rfl)
              · injection hs with hs; subst hs
                first
                  | rfl
                  | (intro p hp
                     rcases List.mem_append.1 hp with hp | hp
                     · exact h1 p hp
                     · simp only [List.mem_singleton] at hp; subst hp; rfl)
            · injection hs with hs; subst hs; first | assumption | rfl
            · cases hs
      · cases hr
  exact key as State.init (by simp [State.init]) rfl hok hrun p hp

end Otel.Metrics.Periodic
