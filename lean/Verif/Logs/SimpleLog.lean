/-!
# The simple log processor (`opentelemetry-sdk/src/logs/simple_log_processor.rs`), C68

A transition system: any number of threads, each inside one call. The exporter's mutex makes each export and the exporter's shutdown
one step. A poisoned mutex is not modelled.
-/

namespace Otel.Logs.Simple

/-- Where a thread is. -/
inductive Pc (X : Type) where
  | idle
  /-- `emit`: load `is_shutdown` (81) -/
  | emit0 (x : X)
  /-- lock and export (89-96) -/
  | emit1 (x : X)
  /-- `shutdown`: store (120-121) -/
  | shut0
  /-- lock and `exporter.shutdown` (122-123) -/
  | shut1
deriving DecidableEq, Repr

/-- What the exporter is asked to do. -/
inductive Ev (X : Type) where
  | exported (batch : List X)
  | shutdown
deriving DecidableEq, Repr

/-- The state; ghosts: `log` the exporter's history, `emitted` the records of completed or running emits with whether the call was
made after the flag was set, `ignored` those dropped, `late` per thread. simple_log_processor.rs:62-65 -/
structure State (X : Type) where
  isShutdown : Bool
  threads : Nat → Pc X
  log : List (Ev X)
  ignored : List X
  late : Nat → Bool
  called : List X

/-- `new`. 69-74 -/
def State.init {X : Type} : State X := ⟨false, fun _ => .idle, [], [], fun _ => false, []⟩

/-- Function update. -/
def upd {Y : Type} (f : Nat → Y) (i : Nat) (y : Y) : Nat → Y := fun j => if j = i then y else f j

variable {X : Type}

/-- Scheduler choices. -/
inductive Action (X : Type) where
  | emit (t : Nat) (x : X)
  | shutdown (t : Nat)
  | thread (t : Nat)

/-- One step. `emit`: 78-112, `shutdown`: 118-129 -/
def step (s : State X) : Action X → Option (State X)
  | .emit t x => match s.threads t with
    | .idle => some { s with threads := upd s.threads t (.emit0 x), late := upd s.late t s.isShutdown, called := s.called ++ [x] }
    | _ => none
  | .shutdown t => match s.threads t with
    | .idle => some { s with threads := upd s.threads t .shut0 }
    | _ => none
  | .thread t => match s.threads t with
    | .idle => none
    | .emit0 x =>
      if s.isShutdown then some { s with threads := upd s.threads t .idle, ignored := s.ignored ++ [x] }
      else some { s with threads := upd s.threads t (.emit1 x) }
    | .emit1 x => some { s with threads := upd s.threads t .idle, log := s.log ++ [.exported [x]] }
    | .shut0 => some { s with threads := upd s.threads t .shut1, isShutdown := true }
    | .shut1 => some { s with threads := upd s.threads t .idle, log := s.log ++ [.shutdown] }

/-- Reachable states. -/
inductive Reachable : State X → Prop
  | init : Reachable State.init
  | step {s s' a} : Reachable s → step s a = some s' → Reachable s'

/-- Later states. -/
inductive Later (s : State X) : State X → Prop
  | refl : Later s s
  | step {s1 s2 a} : Later s s1 → step s1 a = some s2 → Later s s2

/-- The batches exported. -/
def State.batches (s : State X) : List (List X) := s.log.filterMap fun e => match e with | .exported b => some b | .shutdown => none

/-- The records held by threads inside `emit`. -/
def Pc.held : Pc X → List X
  | .emit0 x => [x]
  | .emit1 x => [x]
  | _ => []

/-- A thread whose call began after the flag was set never reaches the export. -/
theorem late_never {s : State X} (h : Reachable s) :
    ∀ t, s.late t = true → s.isShutdown = true ∧ ∀ x, s.threads t ≠ .emit1 x := by
  induction h with
  | init => intro t ht; cases ht
  | @step s s' a _ hs ih =>
    intro t ht
    cases a with
    | emit t' x =>
      simp only [step] at hs
      split at hs
      · injection hs with hs; subst hs
        simp only [upd] at ht ⊢
        by_cases he : t = t'
        · simp only [he, if_true] at ht ⊢
          exact ⟨ht, by simp⟩
        · simp only [he, if_false] at ht ⊢
          exact ih t ht
      · cases hs
    | shutdown t' =>
      simp only [step] at hs
      split at hs
      · injection hs with hs; subst hs
        refine ⟨(ih t ht).1, ?_⟩
        intro x
        simp only [upd]
        split
        · simp
        · exact (ih t ht).2 x
      · cases hs
    | thread t' =>
      simp only [step] at hs
      split at hs
      · cases hs
      · rename_i x hpc
        split at hs
        · injection hs with hs; subst hs
          refine ⟨(ih t ht).1, ?_⟩
          intro y
          simp only [upd]
          split
          · simp
          · exact (ih t ht).2 y
        · rename_i hsd
          injection hs with hs; subst hs
          exact absurd (ih t ht).1 (by simpa using hsd)
      · injection hs with hs; subst hs
        refine ⟨(ih t ht).1, ?_⟩
        intro y
        simp only [upd]
        split
        · simp
        · exact (ih t ht).2 y
      · injection hs with hs; subst hs
        refine ⟨rfl, ?_⟩
        intro y
        simp only [upd]
        split
        · simp
        · exact (ih t ht).2 y
      · injection hs with hs; subst hs
        refine ⟨(ih t ht).1, ?_⟩
        intro y
        simp only [upd]
        split
        · simp
        · exact (ih t ht).2 y

/-- **C68 (partial)** An emit made after a shutdown call has set the flag exports nothing: the step in which such a call ends leaves the exporter's
history as it was. -/
theorem late_emit_exports_nothing (s s' : State X) (h : Reachable s) (t : Nat) (hl : s.late t = true) (x : X)
    (hpc : s.threads t = .emit0 x) (hs : step s (.thread t) = some s') : s'.log = s.log ∧ s'.threads t = .idle := by
  have := (late_never h t hl).1
  simp only [step, hpc, this, if_true] at hs
  injection hs with hs; subst hs
  exact ⟨rfl, by simp [upd]⟩

/-- Every exported batch is one record, and every exported or ignored record was given to `emit`: nothing is invented or repeated.
`count` counts occurrences; `live` are the threads inside a call. -/
theorem exports_accounted [DecidableEq X] {s : State X} (h : Reachable s) :
    (∀ b ∈ s.batches, b.length = 1) ∧
    ∃ live : List Nat, live.Nodup ∧ (∀ t, (s.threads t).held ≠ [] → t ∈ live) ∧
      ∀ x, s.called.count x = s.batches.flatten.count x + s.ignored.count x + (live.flatMap fun t => (s.threads t).held).count x := by
  have upd_held : ∀ (f : Nat → Pc X) (t : Nat) (pc : Pc X) (live : List Nat), t ∉ live →
      (live.flatMap fun t' => (upd f t pc t').held) = live.flatMap fun t' => (f t').held := by
    intro f t pc live hn
    induction live with
    | nil => rfl
    | cons a live ih =>
      simp only [List.mem_cons, not_or] at hn
      rw [List.flatMap_cons, List.flatMap_cons, ih hn.2]
      simp only [upd]
      rw [if_neg (Ne.symm hn.1)]
  induction h with
  | init => exact ⟨by simp [State.init, State.batches], [], List.nodup_nil, by simp [State.init, Pc.held], by simp [State.init, State.batches]⟩
  | @step s s' a _ hs ih =>
    obtain ⟨h1, live, h2, h3, h4⟩ := ih
    -- a change of the program counter of one thread
    have live_of : ∀ (t : Nat) (pc : Pc X),
        ∃ live' : List Nat, live'.Nodup ∧ (∀ t', (upd s.threads t pc t').held ≠ [] → t' ∈ live') ∧ ∀ x,
          ((live'.flatMap fun t' => (upd s.threads t pc t').held).count x + (s.threads t).held.count x
            = (live.flatMap fun t' => (s.threads t').held).count x + pc.held.count x) := by
      intro t pc
      refine ⟨t :: live.erase t, List.nodup_cons.2 ⟨?_, h2.erase t⟩, ?_, ?_⟩
      · intro hm; exact (h2.mem_erase_iff.1 hm).1 rfl
      · intro t' ht'
        by_cases he : t' = t
        · simp [he]
        · simp only [upd, if_neg he] at ht'
          simp only [List.mem_cons, h2.mem_erase_iff]
          exact Or.inr ⟨he, h3 t' ht'⟩
      · intro x
        rw [List.flatMap_cons, upd_held _ _ _ _ (fun hm => (h2.mem_erase_iff.1 hm).1 rfl)]
        simp only [upd, if_true, List.count_append]
        have : (live.flatMap fun t' => (s.threads t').held).count x
            = ((live.erase t).flatMap fun t' => (s.threads t').held).count x + (s.threads t).held.count x := by
          by_cases hm : t ∈ live
          · have hp : live.Perm (t :: live.erase t) := List.perm_cons_erase hm
            have := (hp.flatMap_right (fun t' => (s.threads t').held)).count_eq x
            rw [this, List.flatMap_cons, List.count_append]; omega
          · have : (s.threads t).held = [] := Decidable.byContradiction fun hne => hm (h3 t hne)
            rw [List.erase_of_not_mem hm, this]; simp
        omega
    cases a with
    | emit t x =>
      simp only [step] at hs
      split at hs
      · rename_i hpc
        injection hs with hs; subst hs
        obtain ⟨live', g1, g2, g3⟩ := live_of t (.emit0 x)
        refine ⟨h1, live', g1, g2, ?_⟩
        intro y
        have := g3 y; have := h4 y
        rw [hpc] at *
        simp only [Pc.held, State.batches, List.count_append, List.count_nil] at *
        omega
      · cases hs
    | shutdown t =>
      simp only [step] at hs
      split at hs
      · rename_i hpc
        injection hs with hs; subst hs
        obtain ⟨live', g1, g2, g3⟩ := live_of t .shut0
        refine ⟨h1, live', g1, g2, ?_⟩
        intro y
        have := g3 y; have := h4 y
        rw [hpc] at *
        simp only [Pc.held, State.batches, List.count_append, List.count_nil] at *
        omega
      · cases hs
    | thread t =>
      simp only [step] at hs
      split at hs
      · cases hs
      · rename_i x hpc
        split at hs
        · injection hs with hs; subst hs
          obtain ⟨live', g1, g2, g3⟩ := live_of t .idle
          refine ⟨h1, live', g1, g2, ?_⟩
          intro y
          have := g3 y; have := h4 y
          rw [hpc] at *
          simp only [Pc.held, State.batches, List.count_append, List.count_nil] at *
          omega
        · injection hs with hs; subst hs
          obtain ⟨live', g1, g2, g3⟩ := live_of t (.emit1 x)
          refine ⟨h1, live', g1, g2, ?_⟩
          intro y
          have := g3 y; have := h4 y
          rw [hpc] at *
          simp only [Pc.held, State.batches] at *
          omega
      · rename_i x hpc
        injection hs with hs; subst hs
        obtain ⟨live', g1, g2, g3⟩ := live_of t .idle
        refine ⟨?_, live', g1, g2, ?_⟩
        · intro b hb
          simp only [State.batches, List.filterMap_append, List.mem_append] at hb
          rcases hb with hb | hb
          · exact h1 b hb
          · simp at hb; subst hb; rfl
        · intro y
          have := g3 y; have := h4 y
          rw [hpc] at *
          simp only [Pc.held, State.batches, List.filterMap_append, List.filterMap_cons, List.filterMap_nil, List.flatten_append,
            List.flatten_cons, List.flatten_nil, List.append_nil, List.count_append, List.count_nil] at *
          omega
      · rename_i hpc
        injection hs with hs; subst hs
        obtain ⟨live', g1, g2, g3⟩ := live_of t .shut1
        refine ⟨h1, live', g1, g2, ?_⟩
        intro y
        have := g3 y; have := h4 y
        rw [hpc] at *
        simp only [Pc.held, State.batches, List.count_nil] at *
        omega
      · rename_i hpc
        injection hs with hs; subst hs
        obtain ⟨live', g1, g2, g3⟩ := live_of t .idle
        refine ⟨?_, live', g1, g2, ?_⟩
        · intro b hb
          simp only [State.batches, List.filterMap_append, List.mem_append] at hb
          rcases hb with hb | hb
          · exact h1 b hb
          · simp at hb
        · intro y
          have := g3 y; have := h4 y
          rw [hpc] at *
          simp only [Pc.held, State.batches, List.filterMap_append, List.filterMap_cons, List.filterMap_nil, List.append_nil,
            List.count_nil] at *
          omega

/-- **C68 (once)** When no call is running, every record given to `emit` was exported exactly as often as it was given, or ignored
because of shutdown; each export carries one record. -/
theorem simple_log_exactly_once [DecidableEq X] (s : State X) (h : Reachable s) (hq : ∀ t, s.threads t = .idle) :
    (∀ b ∈ s.batches, b.length = 1) ∧ ∀ x, s.called.count x = s.batches.flatten.count x + s.ignored.count x := by
  obtain ⟨h1, live, _, _, h4⟩ := exports_accounted h
  refine ⟨h1, fun x => ?_⟩
  have : (live.flatMap fun t => (s.threads t).held) = [] := by
    simp [List.flatMap_eq_nil_iff, hq, Pc.held]
  rw [h4 x, this]; simp

/-- A concrete schedule. -/
def runAll (s : State X) : List (Action X) → Option (State X)
  | [] => some s
  | a :: as => match step s a with
    | some s' => runAll s' as
    | none => none

theorem reachable_runAll {s s' : State X} (h : Reachable s) (as : List (Action X)) (hr : runAll s as = some s') : Reachable s' := by
  induction as generalizing s with
  | nil => simp [runAll] at hr; subst hr; exact h
  | cons a as ih =>
    simp only [runAll] at hr
    split at hr
    · rename_i s1 hs1; exact ih (.step h hs1) hr
    · cases hr

/-- **C68 (violated)** An export can reach the exporter after its shutdown: an emit checks the flag, another thread shuts down, the
emit goes on. -/
theorem export_after_shutdown_violated : ∃ s : State Nat, Reachable s ∧ s.log = [.shutdown, .exported [1]] := by
  have h : (runAll State.init [.emit 0 1, .thread 0, .shutdown 1, .thread 1, .thread 1, .thread 0]).map (fun s : State Nat => s.log)
      = some [.shutdown, .exported [1]] := by rfl
  obtain ⟨s, hs, he⟩ := Option.map_eq_some_iff.1 h
  exact ⟨s, reachable_runAll .init _ hs, he⟩

/-- The premises are met. -/
example : ∃ s : State Nat, Reachable s ∧ s.late 0 = true ∧ s.threads 0 = .emit0 1 := by
  have h : (runAll State.init [.shutdown 1, .thread 1, .thread 1, .emit 0 1]).map (fun s : State Nat => (s.late 0, s.threads 0))
      = some (true, .emit0 1) := by rfl
  obtain ⟨s, hs, he⟩ := Option.map_eq_some_iff.1 h
  simp only [Prod.mk.injEq] at he
  exact ⟨s, reachable_runAll .init _ hs, he⟩

end Otel.Logs.Simple
