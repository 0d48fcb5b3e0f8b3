import Verif.Sdk.BspProps
/-! # C65, C28: the export request of the batch span processor, and late flushes -/

namespace Otel.Sdk.Bsp

variable {X : Type}

/-- Somebody will act on, or take back, an export request: it is in the message channel, the worker has just received it, or a
thread is about to send it or to reset the flag. -/
def RequestUnderway (s : State X) : Prop :=
  Msg.exportSpan ∈ s.msgs ∨ s.worker = .reset ∨ ∃ t x, s.threads t = .onEnd5 x ∨ s.threads t = .onEnd6 x

theorem underway_frame {s s' : State X} (h : RequestUnderway s) (hm : Msg.exportSpan ∈ s.msgs → Msg.exportSpan ∈ s'.msgs)
    (hw : s.worker = .reset → s'.worker = .reset) (t : Nat) (ht : ∀ u, u ≠ t → s'.threads u = s.threads u)
    (hn : ∀ x, s.threads t ≠ .onEnd5 x ∧ s.threads t ≠ .onEnd6 x) : RequestUnderway s' := by
  rcases h with h | h | ⟨u, x, h⟩
  · exact Or.inl (hm h)
  · exact Or.inr (Or.inl (hw h))
  · refine Or.inr (Or.inr ⟨u, x, ?_⟩)
    have hu : u ≠ t := by
      rintro rfl
      rcases h with h | h
      · exact (hn x).1 h
      · exact (hn x).2 h
    rw [ht u hu]; exact h

theorem set_ne {Y : Type} (f : Nat → Y) {i j : Nat} (y : Y) (h : j ≠ i) : set f i y j = f j := by simp [set, h]

/-- **C65 (no lost request)** In every history, while the flag that holds back further export requests is set, a request is
underway. -/
theorem flag_means_request (cfg : Cfg) (s : State X) (h : Reachable cfg s) (hf : s.exportSpanMessageSent = true) :
    RequestUnderway s := by
  induction h with
  | init => cases hf
  | @step s s' a _ hs ih =>
    cases a with
    | call t c =>
      simp only [step, callStep] at hs
      cases_step hs
      all_goals first
        | (cases hs; done)
        | (injection hs with hs; subst hs
           refine underway_frame (ih hf) id id t (fun u hu => set_ne _ _ hu) ?_
           intro x; simp_all)
    | thread t =>
      simp only [step, threadStep] at hs
      split at hs
      case h_6 x hpc =>
        split at hs
        · rename_i hold
          injection hs with hs; subst hs
          refine underway_frame (ih hold) id id t (fun u hu => set_ne _ _ hu) ?_
          intro x; simp_all
        · injection hs with hs; subst hs
          exact Or.inr (Or.inr ⟨t, x, Or.inl (by simp [State.goto, set])⟩)
      case h_7 x hpc =>
        split at hs
        · injection hs with hs; subst hs
          exact Or.inl (by simp)
        · injection hs with hs; subst hs
          exact Or.inr (Or.inr ⟨t, x, Or.inr (by simp [State.goto, set])⟩)
      case h_8 x hpc =>
        injection hs with hs; subst hs
        cases hf
      all_goals
        cases_step hs
        all_goals first
          | (cases hs; done)
          | (injection hs with hs; subst hs
             refine underway_frame (ih hf) (fun h => by simp [State.ret, State.goto, h]) id t (fun u hu => set_ne _ _ hu) ?_
             intro x; simp_all)
    | timeout t =>
      simp only [step, timeoutStep] at hs
      cases_step hs
      all_goals first
        | (cases hs; done)
        | (injection hs with hs; subst hs
           refine underway_frame (ih hf) id id t (fun u hu => set_ne _ _ hu) ?_
           intro x; simp_all)
    | take =>
      simp only [step, takeStep] at hs
      split at hs
      case h_2 => cases hs
      rename_i m ms hw hm
      split at hs
      · injection hs with hs; subst hs; exact Or.inr (Or.inl rfl)
      all_goals
        injection hs with hs; subst hs
        rcases ih hf with h | h | h
        · rw [hm] at h; exact Or.inl (by simpa using h)
        · rw [hw] at h; cases h
        · exact Or.inr (Or.inr h)
    | timer =>
      simp only [step, timerStep] at hs
      split at hs
      case h_2 => cases hs
      rename_i hw
      injection hs with hs; subst hs
      rcases ih hf with h | h | h
      · exact Or.inl h
      · rw [hw] at h; cases h
      · exact Or.inr (Or.inr h)
    | work ok =>
      simp only [step, workStep] at hs
      split at hs
      case h_2 hw => injection hs with hs; subst hs; cases hf
      all_goals
        rename_i hw
        cases_step hs
        all_goals first
          | (cases hs; done)
          | (injection hs with hs; subst hs
             rcases ih hf with h | h | h
             · exact Or.inl h
             · simp_all
             · exact Or.inr (Or.inr h))
    | setResource r =>
      injection hs with hs; subst hs
      revert hf; unfold setResourceStep; split
      · intro hf
        rcases ih hf with h | h | h
        · exact Or.inl (by simp [h])
        · exact Or.inr (Or.inl h)
        · exact Or.inr (Or.inr h)
      · exact ih

/-- **C65 (rest)** When no call is running, the worker waits and its message channel is empty, the flag is down: the next span that
fills a batch will ask for an export. -/
theorem flag_down_at_rest (cfg : Cfg) (s : State X) (h : Reachable cfg s) (ht : ∀ t, s.threads t = .idle) (hw : s.worker = .idle)
    (hm : s.msgs = []) : s.exportSpanMessageSent = false := by
  by_cases hf : s.exportSpanMessageSent = true
  · rcases flag_means_request cfg s h hf with h | h | ⟨t, x, h | h⟩
    · simp [hm] at h
    · simp [hw] at h
    · simp [ht] at h
    · simp [ht] at h
  · simpa using hf

/-- **C65 (request sent)** From such a state of rest, a span that is accepted when the counter already shows a full batch but one puts
an export request into the worker's channel by the time its `on_end` returns, and the worker acts on it by draining the queue. -/
theorem full_batch_asks (cfg : Cfg) (s : State X) (h : Reachable cfg s) (ht : ∀ t, s.threads t = .idle) (hw : s.worker = .idle)
    (hm : s.msgs = []) (hsd : s.isShutdown = false) (hq : s.queue.length < cfg.maxQueue)
    (hb : cfg.maxBatch ≤ (s.currentBatchSize + 1).toNat) (t : Nat) (x : X) :
    ∃ s1, runAll cfg s ([.call t (.onEnd x)] ++ List.replicate 6 (.thread t)) = some s1 ∧ s1.msgs = [.exportSpan]
      ∧ s1.threads t = .idle ∧ s1.queue = s.queue ++ [x]
      ∧ ∃ s2, runAll cfg s1 [.take, .work true] = some s2 ∧ s2.worker = .drain [] .loop ∧ s2.exportSpanMessageSent = false := by
  have hf := flag_down_at_rest cfg s h ht hw hm
  have hb' := hb
  simp only [BitVec.toNat_add] at hb'
  simp at hb'
  have hal : s.worker.alive = true := by rw [hw]; rfl
  have hrun : ∃ s1 : State X, runAll cfg s ([.call t (.onEnd x)] ++ List.replicate 6 (.thread t)) = some s1 ∧ s1.msgs = [.exportSpan]
      ∧ s1.threads t = .idle ∧ s1.queue = s.queue ++ [x] ∧ s1.worker = .idle := by
    simp only [List.replicate, List.cons_append, List.nil_append, runAll, step, callStep, ht t]
    simp [threadStep, State.goto, set, hsd, hq, hal, hf, canSend, hm, msgCap, hb', hw, show (Worker.idle : Worker X).alive = true from rfl]
  obtain ⟨s1, h1, h2, h3, h4, h5⟩ := hrun
  refine ⟨s1, h1, h2, h3, h4, ?_⟩
  simp [runAll, step, takeStep, h2, h5, workStep]

/-- **C28 (late flush)** A `force_flush` call made after shutdown was requested never waits for the worker: its first step returns
`AlreadyShutdown`. -/
theorem late_flush_refused (cfg : Cfg) (s s' : State X) (t tok : Nat) (hpc : s.threads t = .flush0 tok)
    (hsd : s.isShutdown = true) (hs : step cfg s (.thread t) = some s') :
    s'.returned = s.returned ++ [(tok, .alreadyShutdown)] ∧ s'.msgs = s.msgs ∧ s'.threads t = .idle := by
  simp only [step, threadStep, hpc, hsd, if_true, Option.some.injEq] at hs
  subst hs
  exact ⟨rfl, rfl, by simp [State.ret, set]⟩

end Otel.Sdk.Bsp
