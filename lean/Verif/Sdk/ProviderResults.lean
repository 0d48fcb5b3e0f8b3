import Verif.Sdk.ProviderProps
/-! # C29, C35, C49: the results of flushes and shutdowns of a provider -/

namespace Otel.Sdk.Prov

variable {X : Type}

/-- What a flush or shutdown call of a provider with `n` processors may report: success if each of the `n` processors was asked and
succeeded, failure if each was asked and some failed, and `AlreadyShutdown` if none was asked. -/
def HonestCall (n : Nat) (answers : List Bool) : Ret → Prop
  | .ok => answers.length = n ∧ ∀ a ∈ answers, a = true
  | .failed => answers.length = n ∧ ∃ a ∈ answers, a = false
  | .alreadyShutdown => answers = []

/-- A thread inside a loop has asked `i` processors and remembers whether all succeeded. -/
def LoopHonest (n : Nat) (answers : List Bool) : Pc X → Prop
  | .flush i acc => answers.length = i ∧ i ≤ n ∧ (acc = true ↔ ∀ a ∈ answers, a = true)
  | .shut i acc => answers.length = i ∧ i ≤ n ∧ (acc = true ↔ ∀ a ∈ answers, a = true)
  | .flush0 => answers = []
  | .shut0 => answers = []
  | _ => True

structure ResInv (n : Nat) (s : State X) : Prop where
  loops : ∀ t, LoopHonest n (s.answers t) (s.threads t)
  calls : ∀ c ∈ s.calls, HonestCall n c.1 c.2

theorem honest_ofBool {n : Nat} {as : List Bool} {acc : Bool} (h1 : as.length = n) (h2 : acc = true ↔ ∀ a ∈ as, a = true) :
    HonestCall n as (Ret.ofBool acc) := by
  cases acc with
  | true => exact ⟨h1, h2.1 rfl⟩
  | false =>
    refine ⟨h1, ?_⟩
    have hn : ¬ ∀ a ∈ as, a = true := fun h => by simpa using h2.2 h
    simpa using hn

theorem resInv_upd {n : Nat} {s s' : State X} (h : ResInv n s) (t : Nat) (pc : Pc X) (as : List Bool)
    (ht : ∀ u, s'.threads u = if u = t then pc else s.threads u) (ha : ∀ u, u ≠ t → s'.answers u = s.answers u)
    (hat : s'.answers t = as) (hp : LoopHonest n as pc) (hc : ∀ c ∈ s'.calls, c ∈ s.calls ∨ HonestCall n c.1 c.2) : ResInv n s' := by
  refine ⟨fun u => ?_, fun c hcm => (hc c hcm).elim (h.calls c) id⟩
  rw [ht u]
  by_cases hu : u = t
  · rw [if_pos hu, hu, hat]; exact hp
  · rw [if_neg hu, ha u hu]; exact h.loops u

theorem all_snoc {as : List Bool} {acc ok : Bool} (h : acc = true ↔ ∀ a ∈ as, a = true) :
    (acc && ok) = true ↔ ∀ a ∈ as ++ [ok], a = true := by
  simp only [Bool.and_eq_true, h, List.mem_append, List.mem_singleton]
  constructor
  · rintro ⟨h1, h2⟩ a (ha | ha)
    · exact h1 a ha
    · rw [ha]; exact h2
  · intro h1
    exact ⟨fun a ha => h1 a (Or.inl ha), h1 ok (Or.inr rfl)⟩

theorem resInv_thread {n : Nat} {s s' : State X} {t : Nat} {ok : Bool} (h : ResInv n s) (hs : threadStep n s t ok = some s') :
    ResInv n s' := by
  have hl := h.loops t
  unfold threadStep at hs
  split at hs
  case h_1 => cases hs
  all_goals
    rename_i hpc
    rw [hpc] at hl
    split at hs
    all_goals
      injection hs with hs; subst hs
  case h_4.isTrue =>
    exact resInv_upd h t .idle _ (fun u => rfl) (fun u _ => rfl) rfl trivial
      (fun c hc => by simp only [State.answer, List.mem_append, List.mem_singleton] at hc; exact hc.imp id (fun e => by rw [e]; exact hl))
  case h_4.isFalse =>
    exact resInv_upd h t (.flush 0 true) _ (fun u => rfl) (fun u _ => rfl) rfl
      (by simp only [LoopHonest] at hl; rw [show (s.goto t (.flush 0 true)).answers t = s.answers t from rfl, hl]; simp [LoopHonest]) (fun c hc => Or.inl hc)
  case h_5.isTrue i acc hi =>
    refine resInv_upd h t (.flush (i + 1) (acc && ok)) (s.answers t ++ [ok]) (fun u => rfl) (fun u hu => by simp [upd, hu]) (by simp [upd])
      ⟨by simp [hl.1], hi, all_snoc hl.2.2⟩ (fun c hc => Or.inl hc)
  case h_5.isFalse i acc hi =>
    exact resInv_upd h t .idle _ (fun u => rfl) (fun u _ => rfl) rfl trivial
      (fun c hc => by
        simp only [State.answer, List.mem_append, List.mem_singleton] at hc
        refine hc.imp id (fun e => ?_)
        rw [e]; exact honest_ofBool (as := s.answers t) (by have := hl.1; have := hl.2.1; omega) hl.2.2)
  case h_6.isTrue =>
    exact resInv_upd h t .idle _ (fun u => rfl) (fun u _ => rfl) rfl trivial
      (fun c hc => by simp only [State.answer, List.mem_append, List.mem_singleton] at hc; exact hc.imp id (fun e => by rw [e]; exact hl))
  case h_6.isFalse =>
    refine resInv_upd h t (.shut 0 true) (s.answers t) (fun u => rfl) (fun u _ => rfl) rfl ?_ (fun c hc => Or.inl hc)
    simp only [LoopHonest] at hl
    rw [hl]; simp [LoopHonest]
  case h_7.isTrue i acc hi =>
    refine resInv_upd h t (.shut (i + 1) (acc && ok)) (s.answers t ++ [ok]) (fun u => rfl) (fun u hu => by simp [upd, hu]) (by simp [upd])
      ⟨by simp [hl.1], hi, all_snoc hl.2.2⟩ (fun c hc => Or.inl hc)
  case h_7.isFalse i acc hi =>
    exact resInv_upd h t .idle _ (fun u => rfl) (fun u _ => rfl) rfl trivial
      (fun c hc => by
        simp only [State.answer, List.mem_append, List.mem_singleton] at hc
        refine hc.imp id (fun e => ?_)
        rw [e]; exact honest_ofBool (as := s.answers t) (by have := hl.1; have := hl.2.1; omega) hl.2.2)
  all_goals
    exact resInv_upd h t _ _ (fun u => rfl) (fun u _ => rfl) rfl trivial (fun c hc => Or.inl hc)

theorem resInv_begin {n : Nat} {s s' : State X} {t : Nat} {pc : Pc X} (h : ResInv n s) (hpc : LoopHonest n [] pc)
    (hs : begin_ s t pc = some s') : ResInv n s' := by
  simp only [begin_] at hs
  split at hs
  · split at hs
    · injection hs with hs; subst hs
      exact resInv_upd h t pc [] (fun u => rfl) (fun u hu => by simp [State.enter, upd, hu]) (by simp [State.enter, upd]) hpc
        (fun c hc => Or.inl hc)
    · cases hs
  · cases hs

theorem resInv_reachable {k : Kind} {n : Nat} {s : State X} (h : Reachable k n s) : ResInv n s := by
  induction h with
  | init => exact ⟨fun t => trivial, by simp [State.init]⟩
  | @step s s' a _ hs ih =>
    cases a with
    | clone =>
      simp only [step] at hs
      split at hs
      · injection hs with hs; subst hs; exact ⟨ih.loops, ih.calls⟩
      · cases hs
    | dropHandle t =>
      simp only [step] at hs
      split at hs
      · injection hs with hs; subst hs; exact ⟨ih.loops, ih.calls⟩
      · split at hs
        · split at hs
          · injection hs with hs; subst hs
            exact resInv_upd ih t .drop0 [] (fun u => rfl) (fun u hu => by simp [State.enter, upd, hu]) (by simp [State.enter, upd]) trivial
              (fun c hc => Or.inl hc)
          · cases hs
        · cases hs
    | obtain_ =>
      simp only [step] at hs
      split at hs
      · injection hs with hs; subst hs; exact ⟨ih.loops, ih.calls⟩
      · cases hs
    | item t x =>
      simp only [step] at hs
      split at hs
      · exact resInv_begin ih (by exact trivial) hs
      · exact resInv_begin ih (by exact trivial) hs
      · cases hs
    | flush t =>
      simp only [step] at hs
      split at hs
      · exact resInv_begin ih (by exact rfl) hs
      · exact resInv_begin ih (by exact ⟨rfl, Nat.zero_le _, by simp⟩) hs
    | shutdown t =>
      simp only [step] at hs
      exact resInv_begin ih (by exact rfl) hs
    | thread t ok => exact resInv_thread ih hs

/-- **C29/C35/C49 (results)** In every history of a tracer, logger or meter provider with `n` processors (readers), every finished
`force_flush` and `shutdown` call reported success only if it asked all `n` and all succeeded, failure only if it asked all `n` and one
or more failed, and `AlreadyShutdown` only if it asked none. -/
theorem results_honest (k : Kind) (n : Nat) (s : State X) (h : Reachable k n s) (answers : List Bool) (r : Ret)
    (hc : (answers, r) ∈ s.calls) :
    HonestCall n answers r :=
  (resInv_reachable h).calls _ hc

/-- **C49 (late flush)** A meter provider answers a `force_flush` made after shutdown with `AlreadyShutdown` and tells its readers
nothing. -/
theorem late_meter_flush (n : Nat) (s s1 s2 : State X) (t : Nat) (ok : Bool) (hsd : s.isShutdown = true)
    (hc : step .meter n s (.flush t) = some s1) (hs : step .meter n s1 (.thread t ok) = some s2) :
    s2.calls = s.calls ++ [([], .alreadyShutdown)] ∧ s2.log = s.log := by
  simp only [step, begin_] at hc
  split at hc
  · split at hc
    · injection hc with hc; subst hc
      simp only [step, threadStep, State.enter, upd, if_true, hsd] at hs
      injection hs with hs; subst hs
      exact ⟨by simp [State.answer, upd, State.leave], rfl⟩
    · cases hc
  · cases hc

/-- A flush of two processors of which the first fails. -/
example : ∃ s : State Nat, Reachable .tracer 2 s ∧ ([false, true], Ret.failed) ∈ s.calls := by
  have h : (runAll .tracer 2 (State.init : State Nat) [.flush 1, .thread 1 false, .thread 1 true, .thread 1 true]).map (fun s => s.calls)
      = some [([false, true], Ret.failed)] := by rfl
  obtain ⟨s, hs, he⟩ := Option.map_eq_some_iff.1 h
  exact ⟨s, reachable_runAll .init _ hs, by simp [he]⟩

end Otel.Sdk.Prov
