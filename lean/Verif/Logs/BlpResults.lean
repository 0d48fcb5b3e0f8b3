import Verif.Logs.BlpProps
/-! # C66: exactly what a flush of the batch log processor reports -/

namespace Otel.Logs.Blp

open Otel.Sdk.Bsp (Cfg msgCap Res Ret Cont)

variable {X : Type}

/-- The result of the last round: a round that found nothing to export counts as a success, and so does having no round. -/
def lastResult (tries : List (Option Res)) : Res :=
  match tries.getLast? with
  | some (some r) => r
  | _ => .ok

/-- The work was done for a call of the recorded kind. -/
def KindOk (isFlush : Nat → Bool) : Cont → Prop
  | .loop => True
  | .flush tok => isFlush tok = true
  | .shut tok => isFlush tok = false

/-- A thread is in a call of the recorded kind. -/
def PcKind (isFlush : Nat → Bool) : Pc X → Prop
  | .flush0 tok => isFlush tok = true
  | .flushWait tok => isFlush tok = true
  | .shut0 tok => isFlush tok = false
  | .shutWait tok => isFlush tok = false
  | .shutJoin tok _ => isFlush tok = false
  | _ => True

/-- A message of the recorded kind. -/
def MsgKind (isFlush : Nat → Bool) : Msg → Prop
  | .exportLog => True
  | .forceFlush tok => isFlush tok = true
  | .shutdown tok => isFlush tok = false
  | .setResource _ => True

/-- The worker's job. -/
def WorkerOk (isFlush : Nat → Bool) : Worker X → Prop
  | .load k => KindOk isFlush k
  | .test j => KindOk isFlush j.k ∧ j.r = lastResult j.tries
  | .drain j _ => KindOk isFlush j.k ∧ j.r = lastResult j.tries
  | .export j _ => KindOk isFlush j.k ∧ j.r = lastResult j.tries
  | .sub j _ => KindOk isFlush j.k ∧ j.r = lastResult j.tries
  | .closing j => KindOk isFlush j.k ∧ j.r = lastResult j.tries
  | .reply j => KindOk isFlush j.k ∧ j.r = lastResult j.tries
  | _ => True

/-- An answer with its history. -/
def Explained (s : State X) (tok : Nat) (r : Res) : Prop :=
  ∃ k tries, (k, r, tries) ∈ s.served ∧ Sdk.Bsp.Cont.tok k = some tok ∧ KindOk s.isFlush k ∧ r = lastResult tries

structure OutInv (s : State X) : Prop where
  threads : ∀ t, PcKind s.isFlush (s.threads t)
  msgs : ∀ m ∈ s.msgs, MsgKind s.isFlush m
  worker : WorkerOk s.isFlush s.worker
  replies : ∀ q ∈ s.replies, Explained s q.1 q.2.1
  returned : ∀ tok r p, (tok, Ret.result r, p) ∈ s.returned → s.isFlush tok = true → Explained s tok r

theorem lastResult_snoc (l : List (Option Res)) (r : Res) : lastResult (l ++ [some r]) = r := by simp [lastResult]
theorem lastResult_none (l : List (Option Res)) : lastResult (l ++ [none]) = .ok := by simp [lastResult]

/-- A thread moves; nothing else that matters changes. -/
theorem outInv_thread_frame {s s' : State X} (h : OutInv s) (t : Nat) (pc : Pc X) (hk : s'.isFlush = s.isFlush)
    (ht : s'.threads = Sdk.Bsp.set s.threads t pc) (hpc : PcKind s.isFlush pc)
    (hm : ∀ m ∈ s'.msgs, m ∈ s.msgs ∨ MsgKind s.isFlush m) (hw : s'.worker = s.worker) (hr : s'.replies = s.replies)
    (hsv : s'.served = s.served)
    (hret : ∀ tok r p, (tok, Ret.result r, p) ∈ s'.returned → (tok, Ret.result r, p) ∈ s.returned ∨ s.isFlush tok = false ∨ Explained s tok r) :
    OutInv s' := by
  have hex : ∀ tok r, Explained s tok r → Explained s' tok r := by
    intro tok r ⟨k, tries, h1, h2, h3, h4⟩
    exact ⟨k, tries, by rw [hsv]; exact h1, h2, by rw [hk]; exact h3, h4⟩
  refine ⟨?_, ?_, ?_, ?_, ?_⟩
  · intro u
    rw [hk, ht]; simp only [Sdk.Bsp.set]
    split
    · exact hpc
    · exact h.threads u
  · intro m hmm
    rw [hk]
    exact (hm m hmm).elim (h.msgs m) id
  · rw [hw, hk]; exact h.worker
  · intro q hq
    rw [hr] at hq
    exact hex _ _ (h.replies q hq)
  · intro tok r p hp hf
    rw [hk] at hf
    rcases hret tok r p hp with h1 | h1 | h1
    · exact hex _ _ (h.returned tok r p h1 hf)
    · rw [hf] at h1; cases h1
    · exact hex _ _ h1

/-- The worker moves without answering. -/
theorem outInv_worker_frame {s s' : State X} (h : OutInv s) (hk : s'.isFlush = s.isFlush) (ht : s'.threads = s.threads)
    (hm : ∀ m ∈ s'.msgs, m ∈ s.msgs) (hw : WorkerOk s.isFlush s'.worker) (hr : s'.replies = s.replies)
    (hsv : s'.served = s.served) (hret : s'.returned = s.returned) : OutInv s' := by
  have hex : ∀ tok r, Explained s tok r → Explained s' tok r := by
    intro tok r ⟨k, tries, h1, h2, h3, h4⟩
    exact ⟨k, tries, by rw [hsv]; exact h1, h2, by rw [hk]; exact h3, h4⟩
  refine ⟨?_, ?_, ?_, ?_, ?_⟩
  · rw [hk, ht]; exact h.threads
  · intro m hmm; rw [hk]; exact h.msgs m (hm m hmm)
  · rw [hk]; exact hw
  · rw [hr]; intro q hq; exact hex _ _ (h.replies q hq)
  · rw [hret, hk]; intro tok r p hp hf; exact hex _ _ (h.returned tok r p hp hf)

/-- A new token: nothing mentions it yet. -/
theorem outInv_call {cfg : Cfg} (_ : cfg.maxQueue < 2 ^ 64) {s s' : State X} {t : Nat} {c : Call X} (h : OutInv s) (hi : FlushInv cfg s)
    (hs : callStep s t c = some s') : OutInv s' := by
  simp only [callStep] at hs
  split at hs
  case h_2 => cases hs
  have old : ∀ (b : Bool) (tok : Nat), tok < s.nextTok → Sdk.Bsp.set s.isFlush s.nextTok b tok = s.isFlush tok := by
    intro b tok hl
    simp [Sdk.Bsp.set, Nat.ne_of_lt hl]
  have oldKind : ∀ (b : Bool) (k : Cont), (∀ tok, Sdk.Bsp.Cont.tok k = some tok → tok < s.nextTok) → KindOk s.isFlush k →
      KindOk (Sdk.Bsp.set s.isFlush s.nextTok b) k := by
    intro b k hl hk
    cases k with
    | loop => trivial
    | flush tok => show _ = _; rw [old b tok (hl tok rfl)]; exact hk
    | shut tok => show _ = _; rw [old b tok (hl tok rfl)]; exact hk
  have main : ∀ (b : Bool) (pc : Pc X) (s'' : State X), PcKind (Sdk.Bsp.set s.isFlush s.nextTok b) pc →
      s''.isFlush = Sdk.Bsp.set s.isFlush s.nextTok b → s''.threads = Sdk.Bsp.set s.threads t pc → s''.msgs = s.msgs →
      s''.worker = s.worker → s''.replies = s.replies → s''.served = s.served → s''.returned = s.returned → OutInv s'' := by
    intro b pc s'' hpc e1 e2 e3 e4 e5 e6 e7
    have hex : ∀ tok r, tok < s.nextTok → Explained s tok r → Explained s'' tok r := by
      intro tok r hl ⟨k, tries, h1, h2, h3, h4⟩
      refine ⟨k, tries, by rw [e6]; exact h1, h2, ?_, h4⟩
      rw [e1]
      apply oldKind b k _ h3
      intro tok' ht'
      rw [h2] at ht'; injection ht' with ht'; omega
    refine ⟨?_, ?_, ?_, ?_, ?_⟩
    · intro u
      rw [e1, e2]; simp only [Sdk.Bsp.set]
      split
      · exact hpc
      · have h1 := h.threads u
        have h2 := hi.threads u
        revert h1 h2
        cases hpc' : s.threads u <;> simp only [PcKind, Pc.tok, imp_self, implies_true, Option.some.injEq] <;>
          (intro h1 h2; have := h2 _ rfl; rw [old b _ this]; exact h1)
    · intro m hm
      rw [e3] at hm
      rw [e1]
      have h1 := h.msgs m hm
      have h2 := hi.msgs m hm
      cases m with
      | exportLog => trivial
      | forceFlush tok => show _ = _; rw [old b tok (h2 tok rfl)]; exact h1
      | shutdown tok => show _ = _; rw [old b tok (h2 tok rfl)]; exact h1
      | setResource r => trivial
    · rw [e4, e1]
      have h1 := h.worker
      have h2 := hi.wtok
      cases hw : s.worker <;> rw [hw] at h1 h2 <;> first
        | trivial
        | exact oldKind b _ h2 h1
        | exact ⟨oldKind b _ h2 h1.1, h1.2⟩
    · rw [e5]; intro q hq; exact hex _ _ (hi.replies q hq).1 (h.replies q hq)
    · rw [e7, e1]
      intro tok r p hp hf
      have hl := (hi.returned tok r p hp).1
      rw [old b tok hl] at hf
      exact hex _ _ hl (h.returned tok r p hp hf)
  split at hs
  · injection hs with hs; subst hs
    exact outInv_thread_frame h t _ rfl rfl trivial (fun m hm => Or.inl hm) rfl rfl rfl (fun _ _ _ hp => Or.inl hp)
  · injection hs with hs; subst hs
    exact main true (.flush0 s.nextTok) _ (by simp [PcKind, Sdk.Bsp.set]) rfl rfl rfl rfl rfl rfl rfl
  · injection hs with hs; subst hs
    exact main false (.shut0 s.nextTok) _ (by simp [PcKind, Sdk.Bsp.set]) rfl rfl rfl rfl rfl rfl rfl

theorem outInv_step {cfg : Cfg} (hcap : cfg.maxQueue < 2 ^ 64) {s s' : State X} {a : Action X} (h : OutInv s) (hi : FlushInv cfg s)
    (hs : step cfg s a = some s') : OutInv s' := by
  cases a with
  | call t c => exact outInv_call hcap h hi hs
  | thread t =>
    have hpk := h.threads t
    simp only [step, threadStep] at hs
    split at hs
    case h_1 => cases hs
    case h_8 tok hpc =>
      rw [hpc] at hpk
      cases_step hs
      all_goals
        injection hs with hs; subst hs
      · exact outInv_thread_frame h t _ rfl rfl trivial (fun m hm => Or.inl hm) rfl rfl rfl
          (fun _ _ _ hp => Or.inl (by simpa [State.ret] using hp))
      · refine outInv_thread_frame h t _ rfl rfl hpk (fun m hm => ?_) rfl rfl rfl (fun _ _ _ hp => Or.inl hp)
        simp only [List.mem_append, List.mem_singleton] at hm
        exact hm.imp id (fun e => by rw [e]; exact hpk)
      · exact outInv_thread_frame h t _ rfl rfl trivial (fun m hm => Or.inl hm) rfl rfl rfl
          (fun _ _ _ hp => Or.inl (by simpa [State.ret] using hp))
    case h_9 tok hpc =>
      split at hs
      · rename_i q hq
        injection hs with hs; subst hs
        refine outInv_thread_frame h t _ rfl rfl trivial (fun m hm => Or.inl hm) rfl rfl rfl (fun tok' r p hp => ?_)
        simp only [State.ret, List.mem_append, List.mem_singleton, Prod.mk.injEq, Ret.result.injEq] at hp
        rcases hp with hp | ⟨h1, h2, h3⟩
        · exact Or.inl hp
        · right; right
          have hq1 : q.1 = tok := by have := List.find?_some hq; simpa using this
          rw [h1, h2, ← hq1]
          exact h.replies q (List.mem_of_find?_eq_some hq)
      · cases hs
    case h_10 tok hpc =>
      rw [hpc] at hpk
      cases_step hs
      all_goals
        injection hs with hs; subst hs
      · exact outInv_thread_frame h t _ rfl rfl trivial (fun m hm => Or.inl hm) rfl rfl rfl
          (fun _ _ _ hp => Or.inl (by simpa [State.ret] using hp))
      · refine outInv_thread_frame h t _ rfl rfl hpk (fun m hm => ?_) rfl rfl rfl (fun _ _ _ hp => Or.inl hp)
        simp only [List.mem_append, List.mem_singleton] at hm
        exact hm.imp id (fun e => by rw [e]; exact hpk)
      · exact outInv_thread_frame h t _ rfl rfl trivial (fun m hm => Or.inl hm) rfl rfl rfl
          (fun _ _ _ hp => Or.inl (by simpa [State.ret] using hp))
    case h_11 tok hpc =>
      rw [hpc] at hpk
      split at hs
      · injection hs with hs; subst hs
        exact outInv_thread_frame h t _ rfl rfl hpk (fun m hm => Or.inl hm) rfl rfl rfl (fun _ _ _ hp => Or.inl hp)
      · cases hs
    case h_12 tok p hpc =>
      rw [hpc] at hpk
      split at hs
      · injection hs with hs; subst hs
        refine outInv_thread_frame h t _ rfl rfl trivial (fun m hm => Or.inl hm) rfl rfl rfl (fun tok' r p' hp => ?_)
        simp only [State.ret, List.mem_append, List.mem_singleton, Prod.mk.injEq] at hp
        rcases hp with hp | ⟨h1, _⟩
        · exact Or.inl hp
        · right; left; rw [h1]; exact hpk
      · cases hs
    all_goals
      cases_step hs
      all_goals
        injection hs with hs; subst hs
        refine outInv_thread_frame h t _ rfl rfl trivial (fun m hm => ?_) rfl rfl rfl (fun _ _ _ hp => Or.inl hp)
        first
          | exact Or.inl hm
          | (simp only [List.mem_append, List.mem_singleton] at hm
             exact hm.imp id (fun e => by rw [e]; trivial))
  | timeout t =>
    simp only [step, timeoutStep] at hs
    cases_step hs
    all_goals first
      | (cases hs; done)
      | (injection hs with hs; subst hs
         exact outInv_thread_frame h t _ rfl rfl trivial (fun m hm => Or.inl hm) rfl rfl rfl
           (fun _ _ _ hp => Or.inl (by simpa [State.ret] using hp)))
  | take =>
    simp only [step, takeStep] at hs
    split at hs
    case h_2 => cases hs
    rename_i m ms hw hm
    have hmk := h.msgs m (by rw [hm]; simp)
    split at hs
    all_goals
      injection hs with hs; subst hs
      exact outInv_worker_frame h rfl rfl (fun m' hm' => by rw [hm]; exact List.mem_cons_of_mem _ hm') (by first | trivial | exact hmk | exact h.worker)
        rfl rfl rfl
  | timer =>
    simp only [step, timerStep] at hs
    split at hs
    · injection hs with hs; subst hs
      exact outInv_worker_frame h rfl rfl (fun _ hm => hm) (by exact trivial) rfl rfl rfl
    · cases hs
  | work ok =>
    have hwk := h.worker
    simp only [step, workStep] at hs
    split at hs
    case h_1 => cases hs
    case h_2 => injection hs with hs; subst hs; exact outInv_worker_frame h rfl rfl (fun _ hm => hm) (by exact trivial) rfl rfl rfl
    case h_3 k hw =>
      rw [hw] at hwk
      injection hs with hs; subst hs
      exact outInv_worker_frame h rfl rfl (fun _ hm => hm) (by exact ⟨hwk, rfl⟩) rfl rfl rfl
    case h_4 j hw =>
      rw [hw] at hwk
      split at hs
      · injection hs with hs; subst hs
        exact outInv_worker_frame h rfl rfl (fun _ hm => hm) (by exact hwk) rfl rfl rfl
      · injection hs with hs; subst hs
        refine outInv_worker_frame h rfl rfl (fun _ hm => hm) ?_ rfl rfl rfl
        show WorkerOk s.isFlush j.next
        unfold Job.next
        split
        · trivial
        · exact hwk
        · exact hwk
    case h_5 j buf hw =>
      rw [hw] at hwk
      cases_step hs
      all_goals
        injection hs with hs; subst hs
        exact outInv_worker_frame h rfl rfl (fun _ hm => hm) (by exact hwk) rfl rfl rfl
    case h_6 j buf hw =>
      rw [hw] at hwk
      split at hs
      · injection hs with hs; subst hs
        exact outInv_worker_frame h rfl rfl (fun _ hm => hm) (by exact ⟨hwk.1, (lastResult_none _).symm⟩) rfl rfl rfl
      · injection hs with hs; subst hs
        exact outInv_worker_frame h rfl rfl (fun _ hm => hm) (by exact ⟨hwk.1, (lastResult_snoc _ _).symm⟩) rfl rfl rfl
    case h_7 j n hw =>
      rw [hw] at hwk
      injection hs with hs; subst hs
      exact outInv_worker_frame h rfl rfl (fun _ hm => hm) (by exact hwk) rfl rfl rfl
    case h_8 j hw =>
      rw [hw] at hwk
      injection hs with hs; subst hs
      exact outInv_worker_frame h rfl rfl (fun _ hm => hm) (by exact hwk) rfl rfl rfl
    case h_9 j hw =>
      rw [hw] at hwk
      have hgo : ∀ (w : Worker X) (tok : Nat), Sdk.Bsp.Cont.tok j.k = some tok → WorkerOk s.isFlush w →
          OutInv { s with replies := s.replies ++ [(tok, j.r, j.p)], served := s.served ++ [(j.k, j.r, j.tries)], worker := w } := by
        intro w tok htok hw'
        have hex : ∀ tok r, Explained s tok r → Explained { s with
            replies := s.replies ++ [(tok, j.r, j.p)], served := s.served ++ [(j.k, j.r, j.tries)], worker := w } tok r := by
          intro tok r ⟨k, tries, h1, h2, h3, h4⟩
          exact ⟨k, tries, List.mem_append_left _ h1, h2, h3, h4⟩
        refine ⟨h.threads, h.msgs, hw', ?_, ?_⟩
        · intro q hq
          rcases List.mem_append.1 hq with hq | hq
          · obtain ⟨k, tries, h1, h2, h3, h4⟩ := h.replies q hq
            exact ⟨k, tries, List.mem_append_left _ h1, h2, h3, h4⟩
          · rw [List.mem_singleton.1 hq]
            exact ⟨j.k, j.tries, by simp, htok, hwk.1, hwk.2⟩
        · intro tok' r p hp hf
          obtain ⟨k, tries, h1, h2, h3, h4⟩ := h.returned tok' r p hp hf
          exact ⟨k, tries, List.mem_append_left _ h1, h2, h3, h4⟩
      split at hs
      · cases hs
      · rename_i tok hk
        injection hs with hs; subst hs
        exact hgo .idle tok (by rw [hk]; rfl) trivial
      · rename_i tok hk
        injection hs with hs; subst hs
        exact hgo .exiting tok (by rw [hk]; rfl) trivial
    case h_10 => injection hs with hs; subst hs; exact outInv_worker_frame h rfl rfl (fun _ hm => hm) (by exact trivial) rfl rfl rfl
    case h_11 => cases hs
  | setResource r =>
    injection hs with hs; subst hs
    unfold setResourceStep; split
    · refine ⟨h.threads, fun m hm => ?_, h.worker, h.replies, h.returned⟩
      rcases List.mem_append.1 hm with hm | hm
      · exact h.msgs m hm
      · rw [List.mem_singleton.1 hm]; trivial
    · exact h

theorem outInv_reachable {cfg : Cfg} (hcap : cfg.maxQueue < 2 ^ 64) {s : State X} (h : Reachable cfg s) : OutInv s := by
  induction h with
  | init => exact ⟨fun _ => trivial, by simp [State.init], trivial, by simp [State.init], by simp [State.init]⟩
  | step h hs ih => exact outInv_step hcap ih (flushInv_reachable hcap h) hs

/-- **C66 (exact)** In every history, a `force_flush` that got an answer reports the result of the last round of the work done for it:
failure exactly if the last round exported a batch and the exporter failed. -/
theorem flush_reports_last_round (cfg : Cfg) (hcap : cfg.maxQueue < 2 ^ 64) (s : State X) (h : Reachable cfg s) (tok p : Nat) (r : Res)
    (hf : s.isFlush tok = true) (hr : (tok, Ret.result r, p) ∈ s.returned) :
    ∃ tries, (Cont.flush tok, r, tries) ∈ s.served ∧ (r = .failed ↔ tries.getLast? = some (some .failed)) := by
  obtain ⟨k, tries, h1, h2, h3, h4⟩ := (outInv_reachable hcap h).returned tok r p hr hf
  cases k with
  | loop => cases h2
  | flush tok' =>
    simp only [Sdk.Bsp.Cont.tok, Option.some.injEq] at h2
    subst h2
    refine ⟨tries, h1, ?_⟩
    rw [h4]
    unfold lastResult
    cases tries.getLast? with
    | none => simp
    | some o => cases o <;> simp
  | shut tok' =>
    simp only [Sdk.Bsp.Cont.tok, Option.some.injEq] at h2
    subst h2
    have : s.isFlush tok' = false := h3
    rw [hf] at this; cases this

/-- A flush whose only batch fails. -/
example : ∃ s : State Nat, Reachable ⟨10, 10⟩ s ∧ s.isFlush 0 = true ∧ (0, Ret.result .failed, 0) ∈ s.returned := by
  have h : (runAll ⟨10, 10⟩ (State.init : State Nat) ([.call 0 (.emit 1), .thread 0, .thread 0, .call 2 .forceFlush, .thread 2, .take,
      .work true, .work true, .work true, .work true, .work false, .work true, .work true, .work true, .thread 2])).map
      (fun s => (s.isFlush 0, s.returned)) = some (true, [(0, Ret.result .failed, 0)]) := by rfl
  obtain ⟨s, hs, he⟩ := Option.map_eq_some_iff.1 h
  simp only [Prod.mk.injEq] at he
  exact ⟨s, reachable_runAll .init _ hs, he.1, by simp [he.2]⟩

end Otel.Logs.Blp
