import Verif.Sdk.BspProps

/-!
# The batch counter of the batch span processor (C65)

`current_batch_size` is meant to be the number of spans waiting in the queue: when it reaches the batch size a producer asks the
worker to export. What it really counts, in every reachable state, is shown here, with the schedules on which it is wrong.
-/

namespace Otel.Sdk.Bsp

variable {X : Type}

/-- Between `try_send` and `fetch_add`. span_processor.rs:525-537 -/
def Pc.adding : Pc X → Bool
  | .onEnd2 _ => true
  | _ => false

/-- How many of the threads `0 .. n-1` are between `try_send` and `fetch_add`. -/
def pendingUpTo (f : Nat → Pc X) : Nat → Nat
  | 0 => 0
  | n + 1 => pendingUpTo f n + (f n).adding.toNat

/-- Spans that the worker has taken from the queue and not yet subtracted. -/
def Worker.held : Worker X → Nat
  | .drain buf _ => buf.length
  | .export buf _ => buf.length
  | .sub n _ _ => n
  | _ => 0

theorem pending_set_ge (f : Nat → Pc X) (t n : Nat) (y : Pc X) (h : n ≤ t) : pendingUpTo (set f t y) n = pendingUpTo f n := by
  induction n with
  | zero => rfl
  | succ n ih =>
    simp only [pendingUpTo]
    rw [ih (by omega)]
    have : set f t y n = f n := by simp [set]; intro h'; omega
    rw [this]

theorem pending_set (f : Nat → Pc X) (t n : Nat) (y : Pc X) (h : t < n) :
    pendingUpTo (set f t y) n + (f t).adding.toNat = pendingUpTo f n + y.adding.toNat := by
  induction n with
  | zero => omega
  | succ n ih =>
    simp only [pendingUpTo]
    by_cases he : t = n
    · subst he
      rw [pending_set_ge f t t y (Nat.le_refl _)]
      simp [set]; omega
    · have := ih (by omega)
      have h2 : set f t y n = f n := by simp [set]; intro h'; omega
      rw [h2]; omega

theorem pending_extend (f : Nat → Pc X) (n m : Nat) (hf : ∀ t, n ≤ t → f t = .idle) (h : n ≤ m) :
    pendingUpTo f m = pendingUpTo f n := by
  induction m with
  | zero => have : n = 0 := by omega
            rw [this]
  | succ m ih =>
    by_cases he : n = m + 1
    · rw [he]
    · simp only [pendingUpTo]
      rw [ih (by omega), hf m (by omega)]; rfl

/-- What the counter counts. -/
def CounterInv (s : State X) : Prop :=
  ∃ n, (∀ t, n ≤ t → s.threads t = .idle) ∧
    s.currentBatchSize + BitVec.ofNat 64 (pendingUpTo s.threads n)
      = BitVec.ofNat 64 (s.queue.length + s.worker.held + s.refused.length)

/-- A thread other than the counter's own steps moves. -/
theorem counter_frame {s s' : State X} (h : CounterInv s) (t : Nat) (pc : Pc X) (ht : s'.threads = set s.threads t pc)
    (hne : s.threads t ≠ .idle)
    (hd : ∀ p q : Nat, q + (s.threads t).adding.toNat = p + pc.adding.toNat →
      s.currentBatchSize + BitVec.ofNat 64 p = BitVec.ofNat 64 (s.queue.length + s.worker.held + s.refused.length) →
      s'.currentBatchSize + BitVec.ofNat 64 q = BitVec.ofNat 64 (s'.queue.length + s'.worker.held + s'.refused.length)) :
    CounterInv s' := by
  obtain ⟨n, hf, hc⟩ := h
  have htn : t < n := by
    by_cases hlt : t < n
    · exact hlt
    · exact absurd (hf t (by omega)) hne
  refine ⟨n, ?_, ?_⟩
  · intro t' ht'
    rw [ht]; simp only [set]
    split
    · omega
    · exact hf t' ht'
  · rw [ht]
    exact hd _ _ (pending_set s.threads t n pc htn) hc

theorem counter_step {cfg : Cfg} {s s' : State X} {a : Action X} (h : CounterInv s) (hs : step cfg s a = some s') :
    CounterInv s' := by
  cases a with
  | call t c =>
    have key : ∀ (s1 : State X) (pc : Pc X), pc.adding = false → s.threads t = .idle → s1.threads = set s.threads t pc →
        s1.currentBatchSize = s.currentBatchSize → s1.queue = s.queue → s1.worker = s.worker → s1.refused = s.refused →
        CounterInv s1 := by
      intro s1 pc hpc hidle e1 e2 e3 e4 e5
      obtain ⟨n, hf, hc⟩ := h
      refine ⟨max n (t + 1), ?_, ?_⟩
      · intro t' ht'
        rw [e1]; simp only [set]
        split
        · omega
        · exact hf t' (by omega)
      · rw [e1, e2, e3, e4, e5]
        have h1 := pending_set s.threads t (max n (t + 1)) pc (by omega)
        have h2 := pending_extend s.threads n (max n (t + 1)) hf (by omega)
        rw [hidle, hpc] at h1
        have h3 : pendingUpTo (set s.threads t pc) (max n (t + 1)) = pendingUpTo s.threads n := by
          simp [Pc.adding] at h1; omega
        rw [h3]; exact hc
    simp only [step, callStep] at hs
    split at hs
    · rename_i hidle
      cases c
      · injection hs with hs; subst hs; exact key _ (.onEnd0 _) rfl hidle rfl rfl rfl rfl rfl
      · injection hs with hs; subst hs; exact key _ (.flush0 _) rfl hidle rfl rfl rfl rfl rfl
      · injection hs with hs; subst hs; exact key _ (.shut0 _) rfl hidle rfl rfl rfl rfl rfl
    · cases hs
  | thread t =>
    simp only [step, threadStep] at hs
    split at hs
    case h_3 x hpc =>
      split at hs
      · injection hs with hs; subst hs
        refine counter_frame h t (.onEnd2 x) rfl (by simp [hpc]) ?_
        intro p q hq hp
        have : q = p + 1 := by simpa [hpc, Pc.adding] using hq
        subst this
        simp only [State.goto, List.length_append, List.length_singleton]
        rw [BitVec.ofNat_add, ← BitVec.add_assoc, hp, ← BitVec.ofNat_add]
        congr 1; omega
      · injection hs with hs; subst hs
        refine counter_frame h t (.onEnd2 x) rfl (by simp [hpc]) ?_
        intro p q hq hp
        have : q = p + 1 := by simpa [hpc, Pc.adding] using hq
        subst this
        simp only [State.goto, List.length_append, List.length_singleton]
        rw [BitVec.ofNat_add, ← BitVec.add_assoc, hp, ← BitVec.ofNat_add]
        congr 1
    case h_4 x hpc =>
      have hk : ∀ p q : Nat, q + 1 = p →
          s.currentBatchSize + BitVec.ofNat 64 p = BitVec.ofNat 64 (s.queue.length + s.worker.held + s.refused.length) →
          s.currentBatchSize + 1 + BitVec.ofNat 64 q = BitVec.ofNat 64 (s.queue.length + s.worker.held + s.refused.length) := by
        intro p q hq hp
        subst hq
        rw [← hp, BitVec.ofNat_add, BitVec.add_assoc, BitVec.add_comm 1]
        rfl
      split at hs
      · injection hs with hs; subst hs
        refine counter_frame h t (.onEnd3 x) rfl (by simp [hpc]) ?_
        intro p q hq hp
        exact hk p q (by simpa [hpc, Pc.adding] using hq) hp
      · injection hs with hs; subst hs
        refine counter_frame h t .idle rfl (by simp [hpc]) ?_
        intro p q hq hp
        exact hk p q (by simpa [hpc, Pc.adding] using hq) hp
    all_goals
      rename_i hpc
      cases_step hs
      all_goals first
        | (cases hs; done)
        | (injection hs with hs; subst hs
           refine counter_frame h t _ rfl (by simp [hpc]) ?_
           intro p q hq hp
           have : q = p := by simpa [hpc, Pc.adding] using hq
           subst this
           exact hp)
  | timeout t =>
    simp only [step, timeoutStep] at hs
    split at hs
    · rename_i hpc
      injection hs with hs; subst hs
      refine counter_frame h t _ rfl (by simp [hpc]) ?_
      intro p q hq hp
      have : q = p := by simpa [hpc, Pc.adding] using hq
      subst this
      exact hp
    · rename_i hpc
      injection hs with hs; subst hs
      refine counter_frame h t _ rfl (by simp [hpc]) ?_
      intro p q hq hp
      have : q = p := by simpa [hpc, Pc.adding] using hq
      subst this
      exact hp
    · cases hs
  | take =>
    obtain ⟨n, hf, hc⟩ := h
    simp only [step, takeStep] at hs
    split at hs
    · rename_i m ms hw hm
      rw [hw] at hc
      cases m <;> (injection hs with hs; subst hs; exact ⟨n, hf, by simpa [Worker.held, hw] using hc⟩)
    · cases hs
  | timer =>
    obtain ⟨n, hf, hc⟩ := h
    simp only [step, timerStep] at hs
    split at hs
    · rename_i hw
      rw [hw] at hc
      injection hs with hs; subst hs; exact ⟨n, hf, by simpa [Worker.held] using hc⟩
    · cases hs
  | work ok =>
    obtain ⟨n, hf, hc⟩ := h
    simp only [step, workStep] at hs
    split at hs
    · cases hs
    · rename_i hw; rw [hw] at hc
      injection hs with hs; subst hs; exact ⟨n, hf, by simpa [Worker.held] using hc⟩
    · rename_i buf k hw; rw [hw] at hc
      split at hs
      · rename_i hq
        injection hs with hs; subst hs; exact ⟨n, hf, by simpa [Worker.held] using hc⟩
      · rename_i x q hq
        rw [hq] at hc
        split at hs <;>
        · injection hs with hs; subst hs
          refine ⟨n, hf, ?_⟩
          simp only [Worker.held, List.length_append, List.length_nil, List.length_cons] at hc ⊢
          rw [hc]; congr 1; omega
    · rename_i buf k hw; rw [hw] at hc
      split at hs
      · rename_i he
        injection hs with hs; subst hs
        have : buf = [] := by simpa using he
        subst this
        exact ⟨n, hf, by simpa [Worker.held] using hc⟩
      · injection hs with hs; subst hs; exact ⟨n, hf, by simpa [Worker.held] using hc⟩
    · rename_i m r k hw; rw [hw] at hc
      have hk : s.currentBatchSize - BitVec.ofNat 64 m + BitVec.ofNat 64 (pendingUpTo s.threads n)
          = BitVec.ofNat 64 (s.queue.length + 0 + s.refused.length) := by
        simp only [Worker.held] at hc
        have h1 : s.queue.length + m + s.refused.length = (s.queue.length + 0 + s.refused.length) + m := by omega
        rw [h1, BitVec.ofNat_add] at hc
        have h2 : s.currentBatchSize - BitVec.ofNat 64 m + BitVec.ofNat 64 (pendingUpTo s.threads n)
            = (s.currentBatchSize + BitVec.ofNat 64 (pendingUpTo s.threads n)) - BitVec.ofNat 64 m := by
          rw [BitVec.sub_eq_add_neg, BitVec.sub_eq_add_neg, BitVec.add_assoc, BitVec.add_comm (-_), ← BitVec.add_assoc]
        rw [h2, hc, BitVec.add_sub_cancel]
      split at hs <;> (injection hs with hs; subst hs; exact ⟨n, hf, hk⟩)
    · rename_i r k hw; rw [hw] at hc
      split at hs
      · cases hs
      · injection hs with hs; subst hs; exact ⟨n, hf, by simpa [Worker.held] using hc⟩
      · injection hs with hs; subst hs; exact ⟨n, hf, by simpa [Worker.held] using hc⟩
    · rename_i hw; rw [hw] at hc
      injection hs with hs; subst hs; exact ⟨n, hf, by simpa [Worker.held] using hc⟩
    · cases hs
  | setResource r =>
    injection hs with hs; subst hs
    unfold setResourceStep; split <;> exact h

theorem counter_reachable {cfg : Cfg} {s : State X} (h : Reachable cfg s) : CounterInv s := by
  induction h with
  | init => exact ⟨0, by simp [State.init], by simp [State.init, pendingUpTo, Worker.held]⟩
  | step _ hs ih => exact counter_step ih hs

/-- No call is in progress and the worker waits for a message. -/
def Resting (s : State X) : Prop := (∀ t, s.threads t = .idle) ∧ s.worker = .idle

/-- **C65 (what the counter is)** At rest the counter is the number of queued spans plus the number of spans ever dropped. -/
theorem counter_at_rest (cfg : Cfg) (s : State X) (h : Reachable cfg s) (hr : Resting s) :
    s.currentBatchSize = BitVec.ofNat 64 (s.queue.length + s.refused.length) := by
  obtain ⟨n, _, hc⟩ := counter_reachable h
  have hp : pendingUpTo s.threads n = 0 := by
    have := pending_extend s.threads 0 n (fun t _ => hr.1 t) (Nat.zero_le n)
    rw [this]; rfl
  rw [hp, hr.2] at hc
  simpa [Worker.held] using hc

/-- **C65 (partial)** As long as no span has been dropped, at rest the counter is the number of queued spans. -/
theorem counter_counts_queue_partial (cfg : Cfg) (s : State X) (h : Reachable cfg s) (hr : Resting s) (hd : s.refused = []) :
    s.currentBatchSize = BitVec.ofNat 64 s.queue.length := by
  have := counter_at_rest cfg s h hr
  rw [this, hd]; simp

/-- Three threads at most have acted, and all are at rest. -/
theorem resting_of {cfg : Cfg} {as : List (Action Nat)} {s : State Nat} (hs : runAll cfg State.init as = some s)
    (hin : ∀ a ∈ as, ∀ t, (∃ c, a = .call t c) → t = 0) (h0 : s.threads 0 = .idle) (hw : s.worker = .idle) : Resting s := by
  refine ⟨?_, hw⟩
  intro t
  by_cases ht : t = 0
  · rw [ht]; exact h0
  · have key : ∀ (as : List (Action Nat)) (s0 s : State Nat), s0.threads t = .idle → runAll cfg s0 as = some s →
        (∀ a ∈ as, ∀ t, (∃ c, a = Action.call t c) → t = 0) → s.threads t = .idle := by
      intro as
      induction as with
      | nil => intro s0 s h1 h2 _; simp [runAll] at h2; subst h2; exact h1
      | cons a as ih =>
        intro s0 s h1 h2 h3
        simp only [runAll] at h2
        split at h2
        · rename_i s1 hs1
          refine ih s1 s ?_ h2 (fun a ha => h3 a (by simp [ha]))
          have h3a := h3 a (by simp)
          cases a with
          | call t' c =>
            have : t' = 0 := h3a t' ⟨c, rfl⟩
            subst this
            simp only [step, callStep] at hs1
            cases_step hs1
            all_goals first
              | (cases hs1; done)
              | (injection hs1 with hs1; subst hs1; simp [State.goto, set, ht, h1])
          | thread t' =>
            by_cases htt : t = t'
            · subst htt; simp [step, threadStep, h1] at hs1
            · simp only [step, threadStep] at hs1
              cases_step hs1
              all_goals first
                | (cases hs1; done)
                | (injection hs1 with hs1; subst hs1; simp [State.goto, State.ret, set, htt, h1])
          | timeout t' =>
            by_cases htt : t = t'
            · subst htt; simp [step, timeoutStep, h1] at hs1
            · simp only [step, timeoutStep] at hs1
              cases_step hs1
              all_goals first
                | (cases hs1; done)
                | (injection hs1 with hs1; subst hs1; simp [State.ret, set, htt, h1])
          | take =>
            simp only [step, takeStep] at hs1
            cases_step hs1
            all_goals first | (cases hs1; done) | (injection hs1 with hs1; subst hs1; exact h1)
          | timer =>
            simp only [step, timerStep] at hs1
            cases_step hs1
            all_goals first | (cases hs1; done) | (injection hs1 with hs1; subst hs1; exact h1)
          | work ok =>
            simp only [step, workStep] at hs1
            cases_step hs1
            all_goals first | (cases hs1; done) | (injection hs1 with hs1; subst hs1; exact h1)
          | setResource r =>
            injection hs1 with hs1; subst hs1
            unfold setResourceStep; split <;> exact h1
        · cases h2
    exact key as State.init s rfl hs hin

/-- Two spans end with room for one in the queue; then the timer exports what is there. -/
def leakSchedule : List (Action Nat) :=
  endSpan 0 1 ++ endSpan 0 2 ++ [.timer, .work true, .work true, .work true, .work true]

/-- **C65 (violated)** After one span was dropped the counter says one span is queued although the queue is empty, for ever: with
batch size 3 exports are then requested for batches of two. -/
theorem counter_leak_violated : ∃ s : State Nat, Reachable ⟨3, 1⟩ s ∧ Resting s ∧ s.queue = [] ∧ s.currentBatchSize = 1 := by
  have h : (runAll ⟨3, 1⟩ State.init leakSchedule).map (fun s => (s.queue, s.currentBatchSize, s.threads 0, s.worker))
      = some ([], 1, .idle, .idle) := by rfl
  obtain ⟨s, hs, he⟩ := Option.map_eq_some_iff.1 h
  simp only [Prod.mk.injEq] at he
  refine ⟨s, reachable_runAll .init _ hs, resting_of hs ?_ he.2.2.1 he.2.2.2, he.1, he.2.1⟩
  intro a ha t ht
  obtain ⟨c, rfl⟩ := ht
  simp [leakSchedule, endSpan] at ha
  rcases ha with h | h <;> exact h.1

/-- A producer is between `try_send` and `fetch_add` while the worker exports its span and subtracts. -/
def overflowSchedule : List (Action Nat) :=
  [.call 0 (.onEnd 1), .thread 0, .thread 0, .timer, .work true, .work true, .work true, .work true, .thread 0]

/-- **C65 (no panic, violated)** The worker may subtract before the producer adds; the counter is then `usize::MAX` and the
producer's `fetch_add(1) + 1` overflows, which panics in a build with overflow checks. -/
theorem counter_overflow_violated : ∃ s : State Nat, Reachable ⟨10, 10⟩ s ∧ s.overflowed = true := by
  have h : (runAll ⟨10, 10⟩ State.init overflowSchedule).map (fun s => s.overflowed) = some true := by rfl
  obtain ⟨s, hs, he⟩ := Option.map_eq_some_iff.1 h
  exact ⟨s, reachable_runAll .init _ hs, he⟩

/-- Non-vacuity of the partial theorem: one span is queued and nothing was dropped. -/
example : ∃ s : State Nat, Reachable ⟨3, 2⟩ s ∧ Resting s ∧ s.refused = [] ∧ s.queue = [1] := by
  have h : (runAll ⟨3, 2⟩ State.init (endSpan 0 1)).map (fun s => (s.refused, s.queue, s.threads 0, s.worker))
      = some ([], [1], .idle, .idle) := by rfl
  obtain ⟨s, hs, he⟩ := Option.map_eq_some_iff.1 h
  simp only [Prod.mk.injEq] at he
  refine ⟨s, reachable_runAll .init _ hs, resting_of hs ?_ he.2.2.1 he.2.2.2, he.1, he.2.1⟩
  intro a ha t ht
  obtain ⟨c, rfl⟩ := ht
  simp [endSpan] at ha
  exact ha.1

end Otel.Sdk.Bsp
