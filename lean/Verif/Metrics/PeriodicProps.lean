import Verif.Metrics.Periodic
/-! # C48: the periodic reader -/

namespace Otel.Metrics.Periodic

macro "cases_step " h:ident : tactic =>
  `(tactic| repeat' (first | split at $h:ident | dsimp only at $h:ident))

theorem reachable_runAll {temp : Temp} {s s' : State} (h : Reachable temp s) (as : List Action) (hr : runAll temp s as = some s') :
    Reachable temp s' := by
  induction as generalizing s with
  | nil => simp only [runAll, Option.some.injEq] at hr; rw [← hr]; exact h
  | cons a as ih =>
    simp only [runAll] at hr
    split at hr
    · rename_i s1 hs; exact ih (.step h hs) hr
    · cases hr

/-- An application thread touches neither the worker nor the exporter. -/
theorem threadStep_frame {s s' : State} {t : Nat} (hs : threadStep s t = some s') :
    s'.worker = s.worker ∧ s'.log = s.log := by
  simp only [threadStep] at hs
  split at hs
  · cases hs
  · split at hs <;> (injection hs with hs; subst hs; exact ⟨rfl, rfl⟩)
  · rw [Option.map_eq_some_iff] at hs; obtain ⟨r, _, rfl⟩ := hs; exact ⟨rfl, rfl⟩
  · split at hs <;> (injection hs with hs; subst hs; exact ⟨rfl, rfl⟩)
  · rw [Option.map_eq_some_iff] at hs; obtain ⟨r, _, rfl⟩ := hs; exact ⟨rfl, rfl⟩

/-! ## The exporter's life -/

/-- The worker has shut the exporter down. -/
def Worker.closed : Worker → Bool
  | .reply (.shut _) _ => true
  | .exiting => true
  | .done => true
  | _ => false

theorem afterExport_open (k : Cont) (ok : Bool) : (afterExport k ok).closed = false := by cases k <;> rfl

theorem closed_inv {temp : Temp} {s : State} (h : Reachable temp s) :
    (s.worker.closed = false → Ev.shutdown ∉ s.log) ∧
    (s.worker.closed = true → ∃ pre, s.log = pre ++ [.shutdown] ∧ Ev.shutdown ∉ pre) := by
  induction h with
  | init => exact ⟨by simp [State.init], by simp [State.init, Worker.closed]⟩
  | @step s s' a _ hs ih =>
    cases a with
    | record => simp only [step, Option.some.injEq] at hs; subst hs; exact ih
    | flush t =>
      simp only [step, callStep] at hs
      cases_step hs
      all_goals first | (cases hs; done) | (injection hs with hs; subst hs; exact ih)
    | shutdown t =>
      simp only [step, callStep] at hs
      cases_step hs
      all_goals first | (cases hs; done) | (injection hs with hs; subst hs; exact ih)
    | thread t =>
      obtain ⟨h1, h2⟩ := threadStep_frame hs
      rw [h1, h2]; exact ih
    | timeout t =>
      simp only [step, timeoutStep] at hs
      cases_step hs
      all_goals first | (cases hs; done) | (injection hs with hs; subst hs; exact ih)
    | take =>
      simp only [step, takeStep] at hs
      split at hs
      all_goals first
        | (cases hs; done)
        | (rename_i hw _
           rw [hw] at ih
           injection hs with hs; subst hs
           exact ⟨fun _ => ih.1 rfl, by simp [Worker.closed]⟩)
    | timer =>
      simp only [step, timerStep] at hs
      split at hs
      all_goals first
        | (cases hs; done)
        | (rename_i hw _
           rw [hw] at ih
           injection hs with hs; subst hs
           exact ⟨fun _ => ih.1 rfl, by simp [Worker.closed]⟩)
    | callbackFlush =>
      simp only [step, callbackFlushStep] at hs
      split at hs
      · rename_i hw
        rw [hw] at ih
        injection hs with hs; subst hs
        exact ⟨fun _ => ih.1 rfl, by simp [Worker.closed]⟩
      · cases hs
    | work ok =>
      simp only [step, workStep] at hs
      split at hs
      · cases hs
      · rename_i k hw
        rw [hw] at ih
        have h0 := ih.1 rfl
        cases_step hs
        all_goals
          injection hs with hs; subst hs
          refine ⟨fun _ => h0, fun hc => ?_⟩
          first
            | (rw [show ∀ b, (afterExport k b).closed = false from afterExport_open k] at hc; cases hc; done)
            | (simp [Worker.closed] at hc)
      · rename_i tok k hw
        rw [hw] at ih
        have h0 := ih.1 rfl
        split at hs
        · injection hs with hs; subst hs
          exact ⟨fun _ => h0, fun hc => by simp [Worker.closed] at hc⟩
        · cases hs
      · rename_i lo hi k hw
        rw [hw] at ih
        have h0 := ih.1 rfl
        injection hs with hs; subst hs
        refine ⟨fun _ => by simp [h0], fun hc => ?_⟩
        rw [show (afterExport k ok).closed = false from afterExport_open k ok] at hc; cases hc
      · rename_i tok r hw
        rw [hw] at ih
        have h0 := ih.1 rfl
        injection hs with hs; subst hs
        exact ⟨fun hc => by simp [Worker.closed] at hc, fun _ => ⟨_, rfl, h0⟩⟩
      · rename_i k r hw
        rw [hw] at ih
        split at hs
        · cases hs
        · injection hs with hs; subst hs
          exact ⟨fun _ => ih.1 rfl, fun hc => by simp [Worker.closed] at hc⟩
        · injection hs with hs; subst hs
          exact ⟨fun hc => by simp [Worker.closed] at hc, fun _ => ih.2 rfl⟩
      · rename_i hw
        rw [hw] at ih
        injection hs with hs; subst hs
        exact ⟨fun hc => by simp [Worker.closed] at hc, fun _ => ih.2 rfl⟩
      · cases hs

/-- **C48 (exporter)** In every history the exporter is shut down at most once, and nothing is exported after that. -/
theorem exporter_shutdown_last (temp : Temp) (s : State) (h : Reachable temp s) (pre post : List Ev)
    (hl : s.log = pre ++ Ev.shutdown :: post) : post = [] ∧ Ev.shutdown ∉ pre := by
  have hc := closed_inv h
  cases hw : s.worker.closed with
  | false => exact absurd (by rw [hl]; simp) (hc.1 hw)
  | true =>
    obtain ⟨p, hp, hn⟩ := hc.2 hw
    rw [hl] at hp
    have key : ∀ (pre p post : List Ev), pre ++ Ev.shutdown :: post = p ++ [Ev.shutdown] → Ev.shutdown ∉ p → post = [] ∧ pre = p := by
      intro pre
      induction pre with
      | nil =>
        intro p post he hn
        cases p with
        | nil => simpa using he
        | cons x p => simp only [List.nil_append, List.cons_append, List.cons.injEq] at he; exact absurd (by simp [he.1]) hn
      | cons y pre ih =>
        intro p post he hn
        cases p with
        | nil => simp at he
        | cons x p =>
          simp only [List.cons_append, List.cons.injEq] at he
          obtain ⟨h1, h2⟩ := ih p post he.2 (fun hm => hn (List.mem_cons_of_mem _ hm))
          exact ⟨h1, by rw [he.1, h2]⟩
    obtain ⟨h1, h2⟩ := key pre p post hp hn
    exact ⟨h1, by rw [h2]; exact hn⟩

end Otel.Metrics.Periodic
