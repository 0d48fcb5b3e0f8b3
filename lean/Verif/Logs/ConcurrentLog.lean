/-!
# The simple concurrent log processor (`opentelemetry-sdk/src/logs/concurrent_log_processor.rs`), C116

A transition system: any number of threads, each inside one call. There is no lock and no flag: `emit` calls the exporter on the caller's
thread, so an export has a beginning and an end and other threads can act in between. `futures_executor::block_on` is the time between the
two. What the exporter answers is only logged (31-36) and is not modelled.
-/

namespace Otel.Logs.Conc

/-- Where a thread is. -/
inductive Pc (X : Type) where
  | idle
  /-- inside `block_on(exporter.export(..))` (30) -/
  | exporting (x : X)
  /-- inside `exporter.shutdown()` (46-48) -/
  | shutting
deriving DecidableEq, Repr

/-- What the exporter sees, with the thread it sees it on. -/
inductive Ev (X : Type) where
  | began (t : Nat) (batch : List X)
  | ended (t : Nat) (batch : List X)
  | shutBegan (t : Nat)
  | shutEnded (t : Nat)
deriving DecidableEq, Repr

/-- The thread of an event. -/
def Ev.thread {X : Type} : Ev X → Nat
  | .began t _ | .ended t _ | .shutBegan t | .shutEnded t => t

/-- A call made on the processor. -/
inductive Call (X : Type) where
  | emit (x : X)
  | flush
  | shutdown
deriving DecidableEq, Repr

/-- The state: the threads and, as ghosts, the exporter's history and the calls of each thread that have returned.
concurrent_log_processor.rs:15-18 -/
structure State (X : Type) where
  threads : Nat → Pc X
  log : List (Ev X)
  returned : Nat → List (Call X)

variable {X : Type}

/-- `new`. 22-24 -/
def State.init : State X := ⟨fun _ => .idle, [], fun _ => []⟩

/-- Function update. -/
def upd {Y : Type} (f : Nat → Y) (i : Nat) (y : Y) : Nat → Y := fun j => if j = i then y else f j

/-- Scheduler choices: a thread makes a call, or the exporter lets a thread go on. -/
inductive Action (X : Type) where
  | call (t : Nat) (c : Call X)
  | go (t : Nat)

/-- One step. `emit`: 28-37, `force_flush`: 39-44, `shutdown`: 46-48 -/
def step (s : State X) : Action X → Option (State X)
  | .call t c => match s.threads t, c with
    | .idle, .emit x => some { s with threads := upd s.threads t (.exporting x), log := s.log ++ [.began t [x]] }
    | .idle, .flush => some { s with returned := upd s.returned t (s.returned t ++ [.flush]) }
    | .idle, .shutdown => some { s with threads := upd s.threads t .shutting, log := s.log ++ [.shutBegan t] }
    | _, _ => none
  | .go t => match s.threads t with
    | .idle => none
    | .exporting x => some { s with threads := upd s.threads t .idle, log := s.log ++ [.ended t [x]],
                                    returned := upd s.returned t (s.returned t ++ [.emit x]) }
    | .shutting => some { s with threads := upd s.threads t .idle, log := s.log ++ [.shutEnded t],
                                 returned := upd s.returned t (s.returned t ++ [.shutdown]) }

/-- Reachable states. -/
inductive Reachable : State X → Prop
  | init : Reachable State.init
  | step {s s' a} : Reachable s → step s a = some s' → Reachable s'

/-- A schedule. -/
def runAll (s : State X) : List (Action X) → Option (State X)
  | [] => some s
  | a :: as => match step s a with
    | some s' => runAll s' as
    | none => none

theorem reachable_runAll {s s' : State X} (h : Reachable s) (as : List (Action X)) (hr : runAll s as = some s') : Reachable s' := by
  induction as generalizing s with
  | nil => simp [runAll] at hr; subst hr; exact h
  | cons a as ih =>
    simp only [runAll] at hr
    split at hr
    · rename_i s1 hs1; exact ih (.step h hs1) hr
    · cases hr

/-! ## Specification -/

/-- What the exporter should see because of a call that returned, on the thread that made it. -/
def seen (t : Nat) : Call X → List (Ev X)
  | .emit x => [.began t [x], .ended t [x]]
  | .flush => []
  | .shutdown => [.shutBegan t, .shutEnded t]

/-- What it should see because of the call that is running. -/
def seenRunning (t : Nat) : Pc X → List (Ev X)
  | .idle => []
  | .exporting x => [.began t [x]]
  | .shutting => [.shutBegan t]

/-- The exporter's history on one thread. -/
def onThread (t : Nat) (log : List (Ev X)) : List (Ev X) := log.filter fun e => e.thread = t

/-! ## Results -/

theorem onThread_append (t : Nat) (l : List (Ev X)) (e : Ev X) :
    onThread t (l ++ [e]) = onThread t l ++ if e.thread = t then [e] else [] := by
  unfold onThread
  rw [List.filter_append]
  by_cases h : e.thread = t <;> simp [h]

/-- **C116** However the threads interleave, what the exporter sees on a thread is exactly one export of one record per `emit` that returned, in
call order, begun and ended inside the call, then the beginning of the call that is running; a flush shows it nothing. -/
theorem exporter_sees_calls {s : State X} (h : Reachable s) (t : Nat) :
    onThread t s.log = (s.returned t).flatMap (seen t) ++ seenRunning t (s.threads t) := by
  induction h with
  | init => rfl
  | @step s s' a _ hs ih =>
    cases a with
    | call t' c =>
      simp only [step] at hs
      split at hs
      · rename_i x hpc
        injection hs with hs; subst hs
        simp only [onThread_append, ih, Ev.thread, upd]
        by_cases he : t' = t
        · subst he; simp [hpc, seenRunning]
        · simp [he, Ne.symm he]
      · rename_i hpc
        injection hs with hs; subst hs
        simp only [ih, upd]
        by_cases he : t = t'
        · subst he; simp [seen]
        · simp [he]
      · rename_i hpc
        injection hs with hs; subst hs
        simp only [onThread_append, ih, Ev.thread, upd]
        by_cases he : t' = t
        · subst he; simp [hpc, seenRunning]
        · simp [he, Ne.symm he]
      · cases hs
    | go t' =>
      simp only [step] at hs
      split at hs
      · cases hs
      · rename_i x hpc
        injection hs with hs; subst hs
        simp only [onThread_append, ih, Ev.thread, upd]
        by_cases he : t' = t
        · subst he; simp [hpc, seenRunning, seen]
        · simp [he, Ne.symm he]
      · rename_i hpc
        injection hs with hs; subst hs
        simp only [onThread_append, ih, Ev.thread, upd]
        by_cases he : t' = t
        · subst he; simp [hpc, seenRunning, seen]
        · simp [he, Ne.symm he]

/-- **C116** A record whose `emit` returned has been exported: nothing is left for a flush or a shutdown to do. -/
theorem returned_is_exported {s : State X} (h : Reachable s) (t : Nat) (x : X) (hx : .emit x ∈ s.returned t) :
    .ended t [x] ∈ s.log := by
  have h1 : Ev.ended t [x] ∈ onThread t s.log := by
    rw [exporter_sees_calls h t]
    exact List.mem_append_left _ (List.mem_flatMap.2 ⟨_, hx, by simp [seen]⟩)
  exact (List.mem_filter.1 h1).1

/-- **C116** Nothing is exported that was not given to `emit`. -/
theorem exported_was_emitted {s : State X} (h : Reachable s) (t : Nat) (b : List X) (hb : .ended t b ∈ s.log) :
    ∃ x, b = [x] ∧ .emit x ∈ s.returned t := by
  have h1 : Ev.ended t b ∈ onThread t s.log := List.mem_filter.2 ⟨hb, by simp [Ev.thread]⟩
  rw [exporter_sees_calls h t] at h1
  rcases List.mem_append.1 h1 with h1 | h1
  · obtain ⟨c, hc, hm⟩ := List.mem_flatMap.1 h1
    cases c with
    | emit x =>
      refine ⟨x, ?_, hc⟩
      simpa [seen] using hm
    | flush => simp [seen] at hm
    | shutdown => simp [seen] at hm
  · cases hp : s.threads t <;> rw [hp] at h1 <;> simp [seenRunning] at h1

/-- **C116, false as it stands** "After shutdown returns the log processor should stop processing any logs": an `emit` made after a shutdown that
returned calls the exporter's `export` all the same, on a single thread. -/
theorem concurrent_emit_after_shutdown_violated : ∃ s : State Nat, Reachable s
    ∧ s.returned 0 = [.shutdown, .emit 1] ∧ s.log = [.shutBegan 0, .shutEnded 0, .began 0 [1], .ended 0 [1]] := by
  have h : (runAll State.init [.call 0 .shutdown, .go 0, .call 0 (.emit 1), .go 0]).map (fun s : State Nat => (s.returned 0, s.log))
      = some ([.shutdown, .emit 1], [.shutBegan 0, .shutEnded 0, .began 0 [1], .ended 0 [1]]) := by rfl
  obtain ⟨s, hs, he⟩ := Option.map_eq_some_iff.1 h
  simp only [Prod.mk.injEq] at he
  exact ⟨s, reachable_runAll .init _ hs, he⟩

/-- **C116** As documented, exports can overlap: two threads are inside `export` at once; so can an export and the exporter's shutdown. -/
theorem exports_overlap : ∃ s : State Nat, Reachable s
    ∧ s.log = [.began 0 [1], .began 1 [2], .shutBegan 2, .shutEnded 2, .ended 1 [2], .ended 0 [1]] := by
  have h : (runAll State.init [.call 0 (.emit 1), .call 1 (.emit 2), .call 2 .shutdown, .go 2, .go 1, .go 0]).map (fun s : State Nat => s.log)
      = some [.began 0 [1], .began 1 [2], .shutBegan 2, .shutEnded 2, .ended 1 [2], .ended 0 [1]] := by rfl
  obtain ⟨s, hs, he⟩ := Option.map_eq_some_iff.1 h
  exact ⟨s, reachable_runAll .init _ hs, he⟩

/-- The premises are met. -/
example : ∃ s : State Nat, Reachable s ∧ .emit 1 ∈ s.returned 3 ∧ .ended 3 [1] ∈ s.log := by
  have h : (runAll State.init [.call 3 .flush, .call 3 (.emit 1), .go 3]).map (fun s : State Nat => (s.returned 3, s.log))
      = some ([.flush, .emit 1], [.began 3 [1], .ended 3 [1]]) := by rfl
  obtain ⟨s, hs, he⟩ := Option.map_eq_some_iff.1 h
  simp only [Prod.mk.injEq] at he
  exact ⟨s, reachable_runAll .init _ hs, by rw [he.1]; simp, by rw [he.2]; simp⟩

end Otel.Logs.Conc
