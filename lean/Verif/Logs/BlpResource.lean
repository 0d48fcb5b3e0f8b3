import Verif.Logs.BlpProps
import Verif.Sdk.BspResource
/-!
# C110: batches of the batch log processor and the provider's resource

The provider hands its resource to the processor by a message; the worker passes it to the exporter when it reads the message.
-/

namespace Otel.Logs.Blp

open Otel.Sdk.Bsp (Cfg Res Ret Cont set msgCap)

variable {X : Type}

/-- `s'` comes after `s` in a history all of whose steps are allowed by `ok`. -/
inductive After (cfg : Cfg) (ok : State X → Action X → Prop) (s : State X) : State X → Prop
  | refl : After cfg ok s s
  | step {s1 s2 a} : After cfg ok s s1 → ok s1 a → step cfg s1 a = some s2 → After cfg ok s s2

/-- The processor belongs to one provider: its resource is not set again. -/
def OneProvider (_ : State X) (a : Action X) : Prop := ∀ r, a ≠ .setResource r

/-- In addition, the worker's wait for a message ends by its timer only if there is no message (the standard library looks for one last). -/
def TimerIfEmpty (s : State X) (a : Action X) : Prop := (∀ r, a ≠ .setResource r) ∧ (a = .timer → s.msgs = [])

theorem After.weaken {cfg : Cfg} {s s' : State X} (h : After cfg TimerIfEmpty s s') : After cfg OneProvider s s' := by
  induction h with
  | refl => exact .refl
  | step _ ha hs ih => exact .step ih ha.1 hs

theorem After.reachable {cfg : Cfg} {ok : State X → Action X → Prop} {s s' : State X} (h : After cfg ok s s') (hr : Reachable cfg s) : Reachable cfg s' := by
  induction h with
  | refl => exact hr
  | step _ _ hs ih => exact .step ih hs

/-- The message is not a resource. -/
def Msg.plain : Msg → Prop
  | .setResource _ => False
  | _ => True

/-- What a step does to the fields this file is about. -/
inductive Kind (s s' : State X) : Action X → Prop
  | app {a} (hw : s'.worker = s.worker) (hr : s'.resource = s.resource) (hl : s'.labels = s.labels) (hm : s'.msgs = s.msgs ∨ ∃ m : Msg, m.plain ∧ s'.msgs = s.msgs ++ [m])
      (ha : a ≠ .take) : Kind s s' a
  | take (m : Msg) (hi : s.worker = .idle) (hm : s.msgs = m :: s'.msgs) (hl : s'.labels = s.labels) (hp : m.plain → s'.resource = s.resource)
      (hr : ∀ r, m = .setResource r → s'.resource = some r ∧ s'.worker = .idle) : Kind s s' .take
  | timer (hi : s.worker = .idle) (hw : s'.worker = .load .loop) (hr : s'.resource = s.resource) (hl : s'.labels = s.labels) (hm : s'.msgs = s.msgs) : Kind s s' .timer
  | work {ok} (hi : s.worker ≠ .idle) (hr : s'.resource = s.resource) (hm : s'.msgs = s.msgs)
      (hl : s'.labels = s.labels ∨
        s'.labels = s.labels ++ [s.resource] ∧ ∃ j b, s.worker = .export j b) : Kind s s' (.work ok)

theorem step_kind {cfg : Cfg} {s s' : State X} {a : Action X} (ha : ∀ r, a ≠ .setResource r) (hs : step cfg s a = some s') : Kind s s' a := by
  cases a with
  | call t c =>
    simp only [step, callStep] at hs
    cases_step hs
    all_goals first | (cases hs; done) | (injection hs with hs; subst hs; exact .app rfl rfl rfl (.inl rfl) (by simp))
  | thread t =>
    simp only [step, threadStep] at hs
    cases_step hs
    all_goals first
      | (cases hs; done)
      | (injection hs with hs; subst hs; exact .app rfl rfl rfl (.inl rfl) (by simp))
      | (injection hs with hs; subst hs; exact .app rfl rfl rfl (.inr ⟨.exportLog, trivial, rfl⟩) (by simp))
      | (injection hs with hs; subst hs; exact .app rfl rfl rfl (.inr ⟨.forceFlush _, trivial, rfl⟩) (by simp))
      | (injection hs with hs; subst hs; exact .app rfl rfl rfl (.inr ⟨.shutdown _, trivial, rfl⟩) (by simp))
  | timeout t =>
    simp only [step, timeoutStep] at hs
    cases_step hs
    all_goals first | (cases hs; done) | (injection hs with hs; subst hs; exact .app rfl rfl rfl (.inl rfl) (by simp))
  | take =>
    simp only [step, takeStep] at hs
    split at hs
    · rename_i m ms hw hm
      split at hs
      all_goals (injection hs with hs; subst hs)
      · exact .take _ hw hm rfl (fun _ => rfl) (fun r h => by cases h)
      · exact .take _ hw hm rfl (fun _ => rfl) (fun r h => by cases h)
      · exact .take _ hw hm rfl (fun _ => rfl) (fun r h => by cases h)
      · exact .take _ hw hm rfl (fun h => h.elim) (fun r h => by cases h; exact ⟨rfl, hw⟩)
    · cases hs
  | timer =>
    simp only [step, timerStep] at hs
    split at hs
    · rename_i hw; injection hs with hs; subst hs; exact .timer hw rfl rfl rfl rfl
    · cases hs
  | work ok =>
    simp only [step, workStep] at hs
    split at hs
    case h_6 j b hw =>
      split at hs
      · injection hs with hs; subst hs; exact .work (by rw [hw]; simp) rfl rfl (.inl rfl)
      · injection hs with hs; subst hs; exact .work (by rw [hw]; simp) rfl rfl (.inr ⟨rfl, _, _, hw⟩)
    all_goals cases_step hs
    all_goals first
      | (cases hs; done)
      | (injection hs with hs; subst hs; exact .work (by simp_all) rfl rfl (.inl rfl))
  | setResource r => exact (ha r rfl).elim

/-- C110: every batch handed to the exporter has its label. -/
theorem labels_length (cfg : Cfg) (s : State X) (h : Reachable cfg s) : s.labels.length = s.exported.length := by
  induction h with
  | init => rfl
  | @step s s' a _ hs ih =>
    cases a with
    | setResource r =>
      injection hs with hs; subst hs
      unfold setResourceStep; split <;> exact ih
    | call t c => simp only [step, callStep] at hs; cases_step hs; all_goals first | (cases hs; done) | (injection hs with hs; subst hs; exact ih)
    | thread t => simp only [step, threadStep] at hs; cases_step hs; all_goals first | (cases hs; done) | (injection hs with hs; subst hs; exact ih)
    | timeout t => simp only [step, timeoutStep] at hs; cases_step hs; all_goals first | (cases hs; done) | (injection hs with hs; subst hs; exact ih)
    | take => simp only [step, takeStep] at hs; cases_step hs; all_goals first | (cases hs; done) | (injection hs with hs; subst hs; exact ih)
    | timer => simp only [step, timerStep] at hs; cases_step hs; all_goals first | (cases hs; done) | (injection hs with hs; subst hs; exact ih)
    | work ok =>
      simp only [step, workStep] at hs; cases_step hs
      all_goals first | (cases hs; done) | (injection hs with hs; subst hs; exact ih) | (injection hs with hs; subst hs; simp [ih])

/-- The exporter has resource `r` and no other is underway. -/
def Handled (r : Nat) (s : State X) : Prop := s.resource = some r ∧ ∀ m ∈ s.msgs, m.plain

theorem handled_step {cfg : Cfg} {r : Nat} {s s' : State X} {a : Action X} (h : Handled r s) (ha : OneProvider s a) (hs : step cfg s a = some s') :
    Handled r s' ∧ (s'.labels = s.labels ∨ s'.labels = s.labels ++ [some r]) := by
  cases step_kind ha hs with
  | app hw hr hl hm _ =>
    refine ⟨⟨hr.trans h.1, fun m hm' => ?_⟩, .inl hl⟩
    rcases hm with e | ⟨m0, h0, e⟩
    · exact h.2 m (e ▸ hm')
    · rw [e, List.mem_append, List.mem_singleton] at hm'
      rcases hm' with hm' | rfl
      · exact h.2 m hm'
      · exact h0
  | take m hi hm hl hp hr =>
    exact ⟨⟨(hp (h.2 m (by rw [hm]; simp))).trans h.1, fun m' hm' => h.2 m' (by rw [hm]; simp [hm'])⟩, .inl hl⟩
  | timer hi hw hr hl hm => exact ⟨⟨hr.trans h.1, fun m hm' => h.2 m (hm ▸ hm')⟩, .inl hl⟩
  | work hi hr hm hl =>
    refine ⟨⟨hr.trans h.1, fun m hm' => h.2 m (hm ▸ hm')⟩, ?_⟩
    rcases hl with hl | hl
    · exact .inl hl
    · exact .inr (by rw [hl.1, h.1])

theorem handled_after {cfg : Cfg} {r : Nat} {s s' : State X} (h : Handled r s) (ha : After cfg OneProvider s s') :
    Handled r s' ∧ ∃ l, s'.labels = s.labels ++ l ∧ ∀ x ∈ l, x = some r := by
  induction ha with
  | refl => exact ⟨h, [], by simp⟩
  | step _ ok hs ih =>
    obtain ⟨hh, l, hl, hx⟩ := ih
    obtain ⟨h1, h2 | h2⟩ := handled_step hh ok hs
    · exact ⟨h1, l, h2.trans hl, hx⟩
    · refine ⟨h1, l ++ [some r], by rw [h2, hl, List.append_assoc], fun x hx' => ?_⟩
      rcases List.mem_append.1 hx' with hx' | hx'
      · exact hx x hx'
      · exact List.mem_singleton.1 hx'

/-- **C110** From the moment the worker has read the provider's resource, every batch it exports carries it. -/
theorem labelled_once_handled (cfg : Cfg) (s s' : State X) (r : Nat) (hr : s.resource = some r) (hm : ∀ r', Msg.setResource r' ∉ s.msgs) (h : After cfg OneProvider s s') :
    ∃ l, s'.labels = s.labels ++ l ∧ ∀ x ∈ l, x = some r := by
  refine (handled_after ⟨hr, fun m hm' => ?_⟩ h).2
  cases m with
  | setResource r' => exact (hm r' hm').elim
  | _ => trivial

/-- The worker has received the message of this call. -/
def Served (s : State X) (tok : Nat) : Prop :=
  (∃ r p, (tok, Ret.result r, p) ∈ s.returned) ∨ (∃ t r, s.threads t = .shutJoin tok r) ∨ (∃ p ∈ s.replies, p.1 = tok) ∨ s.worker.tok = some tok

theorem served_bound {cfg : Cfg} (hcap : cfg.maxQueue < 2 ^ 64) {s : State X} (h : Reachable cfg s) {tok : Nat} (hs : Served s tok) : tok < s.nextTok := by
  have hf := flushInv_reachable hcap h
  rcases hs with ⟨r, p, hs⟩ | ⟨t, r, hs⟩ | ⟨p, hp, rfl⟩ | hs
  · exact (hf.returned tok r p hs).1
  · exact hf.threads t tok (by rw [hs]; rfl)
  · exact (hf.replies p hp).1
  · exact hf.wtok tok hs

theorem next_serving (j : Job) : (j.next : Worker X).tok = j.k.tok := by
  unfold Job.next
  cases h : j.k <;> simp [Worker.tok, Otel.Sdk.Bsp.Cont.tok, h]

theorem served_step {cfg : Cfg} {s s' : State X} {a : Action X} (hs : step cfg s a = some s') {tok : Nat} (h : Served s' tok) :
    Served s tok ∨ ∃ m ms, s.worker = .idle ∧ s.msgs = m :: ms ∧ a = .take ∧ m.tok = some tok := by
  have frame : ∀ {s1 : State X}, Served s1 tok → ∀ (t : Nat) (pc : Pc X), s1.returned = s.returned → s1.replies = s.replies → s1.worker = s.worker → s1.threads = set s.threads t pc →
      (∀ tok r, pc ≠ .shutJoin tok r) → Served s tok := by
    intro s1 h t pc e1 e2 e3 e4 hpc
    rcases h with h | ⟨u, r, h⟩ | h | h
    · exact .inl (e1 ▸ h)
    · rw [e4] at h
      rcases Otel.Sdk.Bsp.set_cases h with h | h
      · exact .inr (.inl ⟨u, r, h⟩)
      · exact (hpc _ _ h).elim
    · exact .inr (.inr (.inl (e2 ▸ h)))
    · exact .inr (.inr (.inr (e3 ▸ h)))
  have ret : ∀ {s1 : State X}, Served s1 tok → ∀ (t tk : Nat) (x : Ret) (p : Nat), s1.returned = s.returned ++ [(tk, x, p)] → s1.replies = s.replies → s1.worker = s.worker → s1.threads = set s.threads t .idle →
      (∀ r, x = .result r → Served s tk) → Served s tok := by
    intro s1 h t tk x p e1 e2 e3 e4 hx
    rcases h with ⟨r, p', h⟩ | ⟨u, r, h⟩ | h | h
    · rw [e1, List.mem_append, List.mem_singleton] at h
      rcases h with h | h
      · exact .inl ⟨r, p', h⟩
      · cases h; exact hx r rfl
    · rw [e4] at h
      rcases Otel.Sdk.Bsp.set_cases h with h | h
      · exact .inr (.inl ⟨u, r, h⟩)
      · cases h
    · exact .inr (.inr (.inl (e2 ▸ h)))
    · exact .inr (.inr (.inr (e3 ▸ h)))
  have worker : ∀ {s1 : State X}, Served s1 tok → s1.returned = s.returned → s1.threads = s.threads → s1.replies = s.replies → (s1.worker.tok = some tok → s.worker.tok = some tok) →
      Served s tok := by
    intro s1 h e1 e2 e3 e4
    rcases h with h | h | h | h
    · exact .inl (e1 ▸ h)
    · exact .inr (.inl (e2 ▸ h))
    · exact .inr (.inr (.inl (e3 ▸ h)))
    · exact .inr (.inr (.inr (e4 h)))
  have reply : ∀ {s1 : State X}, Served s1 tok → ∀ (tk : Nat) (r : Res × Nat), s1.returned = s.returned → s1.threads = s.threads → s1.replies = s.replies ++ [(tk, r)] → s1.worker.tok = none →
      s.worker.tok = some tk → Served s tok := by
    intro s1 h tk r e1 e2 e3 e4 e5
    rcases h with h | h | ⟨p, hp, h⟩ | h
    · exact .inl (e1 ▸ h)
    · exact .inr (.inl (e2 ▸ h))
    · rw [e3, List.mem_append, List.mem_singleton] at hp
      rcases hp with hp | rfl
      · exact .inr (.inr (.inl ⟨p, hp, h⟩))
      · exact .inr (.inr (.inr (h ▸ e5)))
    · rw [e4] at h; cases h
  cases a with
  | call t c =>
    left
    simp only [step, callStep] at hs
    cases_step hs
    all_goals first | (cases hs; done) | (injection hs with hs; subst hs; exact frame h t _ rfl rfl rfl rfl (by simp))
  | thread t =>
    left
    simp only [step, threadStep] at hs
    split at hs
    case h_9 tk hpc =>
      split at hs
      · rename_i p hp
        injection hs with hs; subst hs
        refine ret h t tk _ _ rfl rfl rfl rfl (fun r _ => .inr (.inr (.inl ⟨p, List.mem_of_find?_eq_some hp, ?_⟩)))
        simpa using List.find?_some hp
      · cases hs
    case h_11 tk hpc =>
      split at hs
      · rename_i p hp
        injection hs with hs; subst hs
        have hp1 : p.1 = tk := by simpa using List.find?_some hp
        rcases h with h | ⟨u, r, h⟩ | h | h
        · exact .inl h
        · rcases Otel.Sdk.Bsp.set_cases h with h | h
          · exact .inr (.inl ⟨u, r, h⟩)
          · cases h; exact .inr (.inr (.inl ⟨p, List.mem_of_find?_eq_some hp, hp1⟩))
        · exact .inr (.inr (.inl h))
        · exact .inr (.inr (.inr h))
      · cases hs
    case h_12 tk r hpc =>
      split at hs
      · injection hs with hs; subst hs
        exact ret h t tk _ _ rfl rfl rfl rfl (fun _ _ => .inr (.inl ⟨t, r, hpc⟩))
      · cases hs
    all_goals cases_step hs
    all_goals first
      | (cases hs; done)
      | (injection hs with hs; subst hs; exact frame h t _ rfl rfl rfl rfl (by simp))
      | (injection hs with hs; subst hs; exact ret h t _ _ _ rfl rfl rfl rfl (by simp))
  | timeout t =>
    left
    simp only [step, timeoutStep] at hs
    cases_step hs
    all_goals first | (cases hs; done) | (injection hs with hs; subst hs; exact ret h t _ _ _ rfl rfl rfl rfl (by simp))
  | take =>
    simp only [step, takeStep] at hs
    split at hs
    · rename_i m ms hw hm
      split at hs
      all_goals (injection hs with hs; subst hs)
      · exact .inl (worker h rfl rfl rfl (by simp [Worker.tok]))
      · rename_i tk
        by_cases e : tk = tok
        · subst e; exact .inr ⟨_, _, hw, hm, rfl, rfl⟩
        · exact .inl (worker h rfl rfl rfl (by simp [Worker.tok, Otel.Sdk.Bsp.Cont.tok, e]))
      · rename_i tk
        by_cases e : tk = tok
        · subst e; exact .inr ⟨_, _, hw, hm, rfl, rfl⟩
        · exact .inl (worker h rfl rfl rfl (by simp [Worker.tok, Otel.Sdk.Bsp.Cont.tok, e]))
      · exact .inl (worker h rfl rfl rfl id)
    · cases hs
  | timer =>
    left
    simp only [step, timerStep] at hs
    split at hs
    · injection hs with hs; subst hs; exact worker h rfl rfl rfl (by simp [Worker.tok, Otel.Sdk.Bsp.Cont.tok])
    · cases hs
  | work ok =>
    left
    simp only [step, workStep] at hs
    cases_step hs
    all_goals first
      | (cases hs; done)
      | (rename_i hw _; injection hs with hs; subst hs; exact worker h rfl rfl rfl (fun e => by rw [hw]; rw [next_serving] at e; exact e))
      | (injection hs with hs; subst hs; exact worker h rfl rfl rfl (by simp_all [Worker.tok, Otel.Sdk.Bsp.Cont.tok]))
      | (injection hs with hs; subst hs; exact reply h _ _ rfl rfl rfl rfl (by simp_all [Worker.tok, Otel.Sdk.Bsp.Cont.tok]))
  | setResource r =>
    left
    injection hs with hs; subst hs
    revert h
    unfold setResourceStep; split
    · intro h; exact worker h rfl rfl rfl id
    · exact id

/-- The provider's resource is still in the channel, and the worker has not seen anything sent after it. -/
def Waiting (r n : Nat) (s : State X) : Prop :=
  ∃ pre post, s.msgs = pre ++ .setResource r :: post ∧ (∀ m ∈ post, m.plain) ∧ (∀ m ∈ pre, ∀ tok, m.tok = some tok → tok < n) ∧ ∀ tok, Served s tok → tok < n

theorem waiting_step {cfg : Cfg} {r n : Nat} {s s' : State X} {a : Action X} (h : Waiting r n s) (ha : OneProvider s a) (hs : step cfg s a = some s') :
    Waiting r n s' ∨ Handled r s' := by
  obtain ⟨pre, post, hm, hp, hb, hv⟩ := h
  have served : ∀ tok, Served s' tok → a ≠ .take → tok < n := by
    intro tok ht hn
    rcases served_step hs ht with h | ⟨_, _, _, _, h, _⟩
    · exact hv tok h
    · exact (hn h).elim
  cases step_kind ha hs with
  | app hw hr hl he hn =>
    left
    rcases he with e | ⟨m0, h0, e⟩
    · exact ⟨pre, post, e.trans hm, hp, hb, fun tok ht => served tok ht hn⟩
    · refine ⟨pre, post ++ [m0], by rw [e, hm]; simp, fun m hm' => ?_, hb, fun tok ht => served tok ht hn⟩
      rcases List.mem_append.1 hm' with h | h
      · exact hp m h
      · rw [List.mem_singleton.1 h]; exact h0
  | take m hi he hl hp' hr =>
    rw [hm] at he
    cases pre with
    | nil =>
      right
      simp only [List.nil_append, List.cons.injEq] at he
      exact ⟨(hr r he.1.symm).1, fun m' hm' => hp m' (he.2 ▸ hm')⟩
    | cons m1 pre =>
      left
      simp only [List.cons_append, List.cons.injEq] at he
      refine ⟨pre, post, he.2.symm, hp, fun m' hm' => hb m' (by simp [hm']), fun tok ht => ?_⟩
      rcases served_step hs ht with h | ⟨m2, ms, _, e, _, h⟩
      · exact hv tok h
      · rw [hm] at e
        simp only [List.cons_append, List.cons.injEq] at e
        exact hb m1 (by simp) tok (e.1 ▸ h)
  | timer hi hw hr hl he => exact .inl ⟨pre, post, he.trans hm, hp, hb, fun tok ht => served tok ht (by simp)⟩
  | work hi hr he hl => exact .inl ⟨pre, post, he.trans hm, hp, hb, fun tok ht => served tok ht (by simp)⟩

theorem waiting_after {cfg : Cfg} {r n : Nat} {s s' : State X} (h : Waiting r n s) (ha : After cfg OneProvider s s') : Waiting r n s' ∨ Handled r s' := by
  induction ha with
  | refl => exact .inl h
  | step _ ok hs ih =>
    rcases ih with ih | ih
    · exact waiting_step ih ok hs
    · exact .inr (handled_step ih ok hs).1

theorem waiting_start {cfg : Cfg} (hcap : cfg.maxQueue < 2 ^ 64) {s : State X} (h : Reachable cfg s) (hc : s.worker.alive = true ∧ s.msgs.length < msgCap) (r : Nat) : Waiting r s.nextTok (setResourceStep s r) := by
  unfold setResourceStep
  rw [if_pos hc]
  exact ⟨s.msgs, [], rfl, by simp, fun m hm tok ht => (flushInv_reachable hcap h).msgs m hm tok ht, fun tok ht => served_bound hcap h ht⟩

/-- **C110** Once a flush or shutdown called after the provider was built has been answered, every batch exported later carries the provider's resource. -/
theorem labelled_after_flush (cfg : Cfg) (hcap : cfg.maxQueue < 2 ^ 64) (s s1 s2 : State X) (r tok p : Nat) (x : Res) (h : Reachable cfg s) (hc : s.worker.alive = true ∧ s.msgs.length < msgCap)
    (h1 : After cfg OneProvider (setResourceStep s r) s1) (ht : s.nextTok ≤ tok) (hx : (tok, Ret.result x, p) ∈ s1.returned) (h2 : After cfg OneProvider s1 s2) :
    ∃ l, s2.labels = s1.labels ++ l ∧ ∀ y ∈ l, y = some r := by
  rcases waiting_after (waiting_start hcap h hc r) h1 with hw | hw
  · obtain ⟨_, _, _, _, _, hv⟩ := hw
    exact absurd (hv tok (.inl ⟨x, p, hx⟩)) (by omega)
  · exact (handled_after hw h2).2

/-- **C110** The batch that such a flush or shutdown exports carries it. -/
theorem flush_batch_labelled (cfg : Cfg) (hcap : cfg.maxQueue < 2 ^ 64) (s s1 s2 : State X) (r tok : Nat) (b : List X) (j : Job) (ok : Bool) (h : Reachable cfg s) (hc : s.worker.alive = true ∧ s.msgs.length < msgCap)
    (h1 : After cfg OneProvider (setResourceStep s r) s1) (ht : s.nextTok ≤ tok) (hw : s1.worker = .export j b) (hk : j.k.tok = some tok) (hb : b ≠ [])
    (hs : step cfg s1 (.work ok) = some s2) : s2.exported = s1.exported ++ [b] ∧ s2.labels = s1.labels ++ [some r] := by
  rcases waiting_after (waiting_start hcap h hc r) h1 with hv | hv
  · obtain ⟨_, _, _, _, _, hv⟩ := hv
    exact absurd (hv tok (.inr (.inr (.inr (by rw [hw]; exact hk))))) (by omega)
  · simp only [step, workStep, hw] at hs
    rw [if_neg (by simpa using hb)] at hs
    injection hs with hs; subst hs
    exact ⟨rfl, by rw [← hv.1]⟩

/-- The message is the first one. If `idle`, the worker was waiting and has not left since. -/
def Between (r : Nat) (l0 : List (Option Nat)) (idle : Bool) (s : State X) : Prop :=
  (∃ post, s.msgs = .setResource r :: post ∧ ∀ m ∈ post, m.plain) ∧ (idle = true → s.labels = l0 ∧ s.worker = .idle)

theorem between_step {cfg : Cfg} {r : Nat} {l0 : List (Option Nat)} {idle : Bool} {s s' : State X} {a : Action X} (h : Between r l0 idle s) (ha : TimerIfEmpty s a)
    (hs : step cfg s a = some s') : Between r l0 idle s' ∨ (Handled r s' ∧ s'.labels = s.labels) := by
  obtain ⟨⟨post, hm, hp⟩, hl0⟩ := h
  cases step_kind ha.1 hs with
  | app hw hr hl he hn =>
    left
    refine ⟨?_, by rw [hl, hw]; exact hl0⟩
    rcases he with e | ⟨m0, h0, e⟩
    · exact ⟨post, e.trans hm, hp⟩
    · refine ⟨post ++ [m0], by rw [e, hm]; simp, fun m hm' => ?_⟩
      rcases List.mem_append.1 hm' with h | h
      · exact hp m h
      · rw [List.mem_singleton.1 h]; exact h0
  | take m hi he hl hp' hr =>
    right
    rw [hm] at he
    simp only [List.cons.injEq] at he
    exact ⟨⟨(hr r he.1.symm).1, fun m' hm' => hp m' (he.2 ▸ hm')⟩, hl⟩
  | timer hi hw hr hl he =>
    have := ha.2 rfl
    rw [hm] at this
    cases this
  | work hi hr he hl =>
    left
    exact ⟨⟨post, he.trans hm, hp⟩, fun e => (hi (hl0 e).2).elim⟩

theorem between_after {cfg : Cfg} {r : Nat} {l0 : List (Option Nat)} {idle : Bool} {s s' : State X} (h : Between r l0 idle s) (ha : After cfg TimerIfEmpty s s') :
    Between r l0 idle s' ∨ (Handled r s' ∧ (idle = true → ∃ l, s'.labels = l0 ++ l ∧ ∀ y ∈ l, y = some r)) := by
  induction ha with
  | refl => exact .inl h
  | @step s1 s2 a _ ok hs ih =>
    rcases ih with ih | ⟨ih, h2⟩
    · rcases between_step ih ok hs with h | ⟨h, e⟩
      · exact .inl h
      · exact .inr ⟨h, fun hi => ⟨[], by simp [e, (ih.2 hi).1], by simp⟩⟩
    · right
      obtain ⟨h3, h4 | h4⟩ := handled_step ih ok.1 hs
      · exact ⟨h3, fun hi => by rw [h4]; exact h2 hi⟩
      · refine ⟨h3, fun hi => ?_⟩
        obtain ⟨l, hl, hy⟩ := h2 hi
        refine ⟨l ++ [some r], by rw [h4, hl, List.append_assoc], fun y hy' => ?_⟩
        rcases List.mem_append.1 hy' with hy' | hy'
        · exact hy y hy'
        · exact List.mem_singleton.1 hy'

/-- **C110 (partial)** If the provider is built when the processor has no message waiting and the worker is waiting for one, every batch carries the provider's resource.
Full statement: whatever the worker is doing. What is missing is false: see `log_batch_unlabelled_violated`. -/
theorem all_labelled_partial (cfg : Cfg) (s s' : State X) (r : Nat) (hm : s.msgs = []) (hw : s.worker = .idle) (h : After cfg TimerIfEmpty (setResourceStep s r) s') :
    ∃ l, s'.labels = s.labels ++ l ∧ ∀ y ∈ l, y = some r := by
  have hs0 : setResourceStep s r = { s with msgs := [.setResource r] } := by
    unfold setResourceStep
    rw [if_pos (by simp [hm, msgCap, hw, Worker.alive])]
    simp [hm]
  have hb : Between r s.labels true (setResourceStep s r) := by
    rw [hs0]; exact ⟨⟨[], rfl, by simp⟩, fun _ => ⟨rfl, hw⟩⟩
  rcases between_after hb h with h1 | h1
  · exact ⟨[], by simp [(h1.2 rfl).1], by simp⟩
  · exact h1.2 rfl

/-- **C110** The batches that lack it were exported in the one round of exports the worker was in when the provider was built: from its next wait on, every batch carries the
provider's resource. -/
theorem labelled_after_round (cfg : Cfg) (s s1 s2 : State X) (r : Nat) (hm : s.msgs = []) (ha : s.worker.alive = true)
    (h1 : After cfg TimerIfEmpty (setResourceStep s r) s1) (hw : s1.worker = .idle) (h2 : After cfg TimerIfEmpty s1 s2) :
    ∃ l, s2.labels = s1.labels ++ l ∧ ∀ y ∈ l, y = some r := by
  have hs0 : setResourceStep s r = { s with msgs := [.setResource r] } := by
    unfold setResourceStep
    rw [if_pos (by simp [hm, msgCap, ha])]
    simp [hm]
  have hb : Between r s.labels false (setResourceStep s r) := by
    rw [hs0]; exact ⟨⟨[], rfl, by simp⟩, by simp⟩
  rcases between_after hb h1 with h | ⟨h, _⟩
  · have hb' : Between r s1.labels true s1 := ⟨h.1, fun _ => ⟨rfl, hw⟩⟩
    rcases between_after hb' h2 with h' | h'
    · exact ⟨[], by simp [(h'.2 rfl).1], by simp⟩
    · exact h'.2 rfl
  · exact (handled_after h h2.weaken).2

/-- The worker's timer has just expired when the provider is built; a record is emitted at once. -/
def lateResource : List (Action Nat) := [.timer, .setResource 7] ++ emitQuiet 1 42 ++ [.work true, .work true, .work true, .work true, .work true]

/-- **C110 (violated)** A record emitted after the provider was built, and so after its resource was handed to the processor, is exported without it. -/
theorem log_batch_unlabelled_violated : ∃ s : State Nat, Reachable ⟨10, 10⟩ s ∧ runAll ⟨10, 10⟩ State.init lateResource = some s ∧ s.exported = [[42]] ∧ s.labels = [none] := by
  have h : (runAll ⟨10, 10⟩ State.init lateResource).map (fun s => (s.exported, s.labels)) = some ([[42]], [none]) := rfl
  obtain ⟨s, hs, he⟩ := Option.map_eq_some_iff.1 h
  simp only [Prod.mk.injEq] at he
  exact ⟨s, reachable_runAll .init _ hs, hs, he.1, he.2⟩

/-- An action that is neither a timer nor `set_resource`. -/
def Action.ordinary : Action X → Bool
  | .timer | .setResource _ => false
  | _ => true

theorem after_runAll {cfg : Cfg} (as : List (Action X)) (ha : as.all Action.ordinary = true) {s s' : State X} (h : runAll cfg s as = some s') :
    After cfg TimerIfEmpty s s' := by
  have key : ∀ {s0 : State X}, After cfg TimerIfEmpty s0 s → After cfg TimerIfEmpty s0 s' := by
    intro s0 h0
    induction as generalizing s with
    | nil => simp [runAll] at h; exact h ▸ h0
    | cons a as ih =>
      simp only [List.all_cons, Bool.and_eq_true] at ha
      simp only [runAll] at h
      split at h
      · rename_i s1 hs1
        refine ih ha.2 h (.step h0 ⟨fun r e => ?_, fun e => ?_⟩ hs1) <;> (subst e; simp [Action.ordinary] at ha)
      · cases h
  exact key .refl

/-- The hypotheses of `labelled_after_flush`, `labelled_once_handled` and `all_labelled_partial` hold in a case: the provider is built, a record is emitted, a flush is answered,
and another record is exported by the next one. -/
example : ∃ s1 s2 : State Nat, (State.init : State Nat).worker = .idle ∧ (State.init : State Nat).msgs = [] ∧ After ⟨10, 10⟩ TimerIfEmpty (setResourceStep State.init 7) s1 ∧
    (0, Ret.result .ok, 0) ∈ s1.returned ∧ After ⟨10, 10⟩ TimerIfEmpty s1 s2 ∧ s1.labels = [some 7] ∧ s2.labels = [some 7, some 7] ∧ s1.resource = some 7 ∧
    (∀ r, Msg.setResource r ∉ s1.msgs) := by
  have h : (runAll ⟨10, 10⟩ (setResourceStep State.init 7) (emitQuiet 1 42 ++ [.call 2 .forceFlush, .thread 2, .take, .take] ++ List.replicate 8 (.work true) ++
      [.thread 2])).map (fun s => (s.returned, s.labels, s.resource, s.msgs)) = some ([(0, Ret.result .ok, 0)], [some 7], some 7, []) := rfl
  obtain ⟨s1, hs, he⟩ := Option.map_eq_some_iff.1 h
  have h2 : ((runAll ⟨10, 10⟩ (setResourceStep State.init 7) (emitQuiet 1 42 ++ [.call 2 .forceFlush, .thread 2, .take, .take] ++ List.replicate 8 (.work true) ++
      [.thread 2])).bind (fun s => runAll ⟨10, 10⟩ s (emitQuiet 1 43 ++ [.call 2 .forceFlush, .thread 2, .take] ++ List.replicate 5 (.work true)))).map
      (fun s => s.labels) = some [some 7, some 7] := rfl
  rw [hs] at h2
  obtain ⟨s2, hs2, he2⟩ := Option.map_eq_some_iff.1 h2
  simp only [Prod.mk.injEq] at he
  refine ⟨s1, s2, rfl, rfl, after_runAll _ rfl hs, ?_, after_runAll _ rfl hs2, he.2.1, he2, he.2.2.1, ?_⟩
  · rw [he.1]; simp
  · rw [he.2.2.2]; simp

/-- The hypotheses of `flush_batch_labelled` hold in a case. -/
example : ∃ (s1 s2 : State Nat) (j : Job), After ⟨10, 10⟩ OneProvider (setResourceStep State.init 7) s1 ∧ s1.worker = .export j [42] ∧ j.k = .flush 0 ∧
    step ⟨10, 10⟩ s1 (.work true) = some s2 := by
  have h : (runAll ⟨10, 10⟩ (setResourceStep State.init 7) (emitQuiet 1 42 ++ [.call 2 .forceFlush, .thread 2, .take, .take] ++ List.replicate 4 (.work true))).map
      (fun s => (s.worker, (step ⟨10, 10⟩ s (.work true)).isSome)) = some (.export ⟨1, 0, .ok, .flush 0, 0, 0, []⟩ [42], true) := rfl
  obtain ⟨s1, hs, he⟩ := Option.map_eq_some_iff.1 h
  simp only [Prod.mk.injEq] at he
  obtain ⟨s2, h2⟩ := Option.isSome_iff_exists.1 he.2
  exact ⟨s1, s2, _, (after_runAll _ rfl hs).weaken, he.1, rfl, h2⟩

/-- The hypotheses of `labelled_after_round` hold in a case with two batches, of which the first lacks the resource. -/
example : ∃ s s1 s2 : State Nat, Reachable ⟨10, 10⟩ s ∧ s.msgs = [] ∧ s.worker.alive = true ∧ After ⟨10, 10⟩ TimerIfEmpty (setResourceStep s 7) s1 ∧
    s1.worker = .idle ∧ s1.labels = [none] ∧ After ⟨10, 10⟩ TimerIfEmpty s1 s2 ∧ s2.labels = [none, some 7] := by
  have h : (runAll ⟨10, 10⟩ (State.init : State Nat) [.timer]).map (fun s => (s.msgs, s.worker.alive)) = some ([], true) := rfl
  obtain ⟨s, hs, he⟩ := Option.map_eq_some_iff.1 h
  have h1 : ((runAll ⟨10, 10⟩ (State.init : State Nat) [.timer]).bind (fun s => runAll ⟨10, 10⟩ (setResourceStep s 7) (emitQuiet 1 42 ++ List.replicate 7 (.work true)))).map
      (fun s => (s.worker, s.labels)) = some (.idle, [none]) := rfl
  have h2 : (((runAll ⟨10, 10⟩ (State.init : State Nat) [.timer]).bind (fun s => runAll ⟨10, 10⟩ (setResourceStep s 7) (emitQuiet 1 42 ++ List.replicate 7 (.work true)))).bind
      (fun s => runAll ⟨10, 10⟩ s (.take :: emitQuiet 1 43 ++ [.call 2 .forceFlush, .thread 2, .take] ++ List.replicate 5 (.work true)))).map (fun s => s.labels) =
      some [none, some 7] := rfl
  rw [hs] at h1 h2
  obtain ⟨s1, hs1, he1⟩ := Option.map_eq_some_iff.1 h1
  simp only [Option.bind_some] at hs1 h2
  rw [hs1] at h2
  obtain ⟨s2, hs2, he2⟩ := Option.map_eq_some_iff.1 h2
  simp only [Prod.mk.injEq] at he he1
  exact ⟨s, s1, s2, reachable_runAll .init _ hs, he.1, he.2, after_runAll _ rfl hs1, he1.1, he1.2, after_runAll _ rfl hs2, he2⟩

end Otel.Logs.Blp
