/-!
# Atomic addition of floats (`opentelemetry-sdk/src/metrics/internal/mod.rs`, `F64AtomicTracker`) (C39)

The cell holds the bits of a float. Bits are of a type `B`, floats of a type `F` with an addition `add` about which nothing is
assumed (float addition is neither associative nor, for NaN payloads, commutative); all that is used is that converting a float to
bits and back gives the same float. Any number of threads run `add` while a collector swaps the cell with zero; loads and
compare-exchanges interleave arbitrarily (all are on one atomic, so `Relaxed` gives one modification order).
-/

namespace Otel.Metrics.AtomicFloat

/-- `f64`, `to_bits`, `from_bits`, `+`, `0.0`. -/
structure Repr (F B : Type) where
  toBits : F → B
  fromBits : B → F
  roundTrip : ∀ x, fromBits (toBits x) = x
  add : F → F → F
  zero : F

/-- A thread in `add`: not in a call, or in the loop with `current_value_as_u64`. mod.rs:447-470 -/
inductive Pc (F B : Type) where
  | idle
  | called (x : F)
  | loop (x : F) (current : B)

/-- The cell and the threads. Ghost: `epoch`, the additions since the last reset in the order in which they took effect, with their
thread; `taken`, for each reset the value returned and the additions in it; `returned`, the calls that returned. -/
structure State (F B : Type) where
  cell : B
  pc : Nat → Pc F B
  epoch : List (Nat × F)
  taken : List (F × List (Nat × F))
  returned : List (Nat × F)

variable {F B : Type}

/-- `F64AtomicTracker::new(0.0)`. mod.rs:444-451 -/
def State.init (R : Repr F B) : State F B := ⟨R.toBits R.zero, fun _ => .idle, [], [], []⟩

/-- What can happen. -/
inductive Action (F : Type) where
  | call (t : Nat) (x : F)
  | thread (t : Nat)
  | reset

/-- Write one thread's position. -/
def setPc (pc : Nat → Pc F B) (t : Nat) (v : Pc F B) : Nat → Pc F B := fun u => if u = t then v else pc u

/-- One step: the load, one compare-exchange (on failure the current value is returned), or `get_and_reset_value`.
mod.rs:459-480, 487-491 -/
def step [DecidableEq B] (R : Repr F B) (s : State F B) : Action F → Option (State F B)
  | .call t x => match s.pc t with
    | .idle => some { s with pc := setPc s.pc t (.called x) }
    | _ => none
  | .thread t => match s.pc t with
    | .idle => none
    | .called x => some { s with pc := setPc s.pc t (.loop x s.cell) }
    | .loop x current =>
      if s.cell = current then some { s with
        cell := R.toBits (R.add (R.fromBits current) x), epoch := s.epoch ++ [(t, x)], returned := s.returned ++ [(t, x)]
        pc := setPc s.pc t .idle }
      else some { s with pc := setPc s.pc t (.loop x s.cell) }
  | .reset => some { s with cell := R.toBits R.zero, taken := s.taken ++ [(R.fromBits s.cell, s.epoch)], epoch := [] }

/-- The states that some schedule leads to. -/
inductive Reachable [DecidableEq B] (R : Repr F B) : State F B → Prop
  | init : Reachable R (State.init R)
  | step {s s'} (h : Reachable R s) (a : Action F) (hs : step R s a = some s') : Reachable R s'

/-- The value after some additions to zero. -/
def total (R : Repr F B) (l : List (Nat × F)) : F := (l.map Prod.snd).foldl R.add R.zero

/-- **C39.** In every interleaving: the cell is the sum, in some order of taking effect, of the additions since the last reset; each
reset returned the sum of the additions of its period; and the additions of all periods are exactly the calls that returned, each
once. -/
theorem additions_never_lost [DecidableEq B] {R : Repr F B} {s : State F B} (h : Reachable R s) :
    R.fromBits s.cell = total R s.epoch
      ∧ (∀ p ∈ s.taken, p.1 = total R p.2)
      ∧ s.returned = s.taken.flatMap Prod.snd ++ s.epoch := by
  induction h with
  | init => exact ⟨R.roundTrip _, by simp [State.init], rfl⟩
  | step _ a hs ih =>
    obtain ⟨h1, h2, h3⟩ := ih
    cases a with
    | call t x =>
      simp only [step] at hs
      split at hs
      · injection hs with hs; subst hs; exact ⟨h1, h2, h3⟩
      · cases hs
    | thread t =>
      simp only [step] at hs
      split at hs
      · cases hs
      · injection hs with hs; subst hs; exact ⟨h1, h2, h3⟩
      · split at hs
        · rename_i hcell
          injection hs with hs; subst hs
          refine ⟨?_, h2, ?_⟩
          · rw [R.roundTrip]
            simp only [total, List.map_append, List.foldl_append, List.map_cons, List.map_nil, List.foldl_cons, List.foldl_nil]
            rw [← hcell, h1]; rfl
          · simp [h3]
        · injection hs with hs; subst hs; exact ⟨h1, h2, h3⟩
    | reset =>
      injection hs with hs; subst hs
      refine ⟨R.roundTrip _, ?_, ?_⟩
      · intro p hp
        rcases List.mem_append.1 hp with hp | hp
        · exact h2 p hp
        · simp only [List.mem_singleton] at hp; subst hp; exact h1
      · simp [h3]

/-- Steps of one thread only. -/
def runThread [DecidableEq B] (R : Repr F B) (t : Nat) : Nat → State F B → Option (State F B)
  | 0, s => some s
  | n + 1, s => match step R s (.thread t) with
    | some s' => runThread R t n s'
    | none => none

/-- **C39.** A thread in `add` that is not disturbed returns after at most two steps of its loop, whatever happened before. -/
theorem add_completes [DecidableEq B] (R : Repr F B) (s : State F B) (t : Nat) (x : F) (current : B) (h : s.pc t = .loop x current) :
    ∃ n ≤ 2, ∃ s', runThread R t n s = some s' ∧ s'.pc t = .idle ∧ s'.returned = s.returned ++ [(t, x)] := by
  by_cases hc : s.cell = current
  · exact ⟨1, by omega, _, by simp only [runThread, step, h, hc, if_true]; rfl, by simp [setPc], rfl⟩
  · refine ⟨2, by omega, { s with
        cell := R.toBits (R.add (R.fromBits s.cell) x), epoch := s.epoch ++ [(t, x)], returned := s.returned ++ [(t, x)]
        pc := setPc (setPc s.pc t (.loop x s.cell)) t .idle }, ?_, by simp [setPc], rfl⟩
    simp only [runThread, step, h, hc, if_false, setPc, if_true]

/-- **C39.** A call of `add` that is not disturbed adds its value and returns. -/
theorem add_call_completes [DecidableEq B] (R : Repr F B) (s : State F B) (t : Nat) (x : F) (h : s.pc t = .idle) :
    ∃ s1 s', step R s (.call t x) = some s1 ∧ runThread R t 2 s1 = some s' ∧ s'.pc t = .idle ∧ s'.returned = s.returned ++ [(t, x)]
      ∧ s'.cell = R.toBits (R.add (R.fromBits s.cell) x) ∧ s'.epoch = s.epoch ++ [(t, x)] := by
  refine ⟨{ s with pc := setPc s.pc t (.called x) }, { s with
      cell := R.toBits (R.add (R.fromBits s.cell) x), epoch := s.epoch ++ [(t, x)], returned := s.returned ++ [(t, x)]
      pc := setPc (setPc (setPc s.pc t (.called x)) t (.loop x s.cell)) t .idle }, by simp only [step, h], ?_, by simp [setPc], rfl, rfl, rfl⟩
  simp only [runThread, step, setPc, if_true]

/-- A representation: integers as their own bits. -/
def natRepr : Repr Nat Nat := ⟨id, id, fun _ => rfl, (· + ·), 0⟩

/-- Run a schedule. -/
def runAll [DecidableEq B] (R : Repr F B) (s : State F B) : List (Action F) → Option (State F B)
  | [] => some s
  | a :: as => match step R s a with
    | some s' => runAll R s' as
    | none => none

theorem reachable_runAll [DecidableEq B] {R : Repr F B} {s : State F B} (h : Reachable R s) (as : List (Action F)) {s' : State F B}
    (hr : runAll R s as = some s') : Reachable R s' := by
  induction as generalizing s with
  | nil => injection hr with hr; exact hr ▸ h
  | cons a as ih =>
    simp only [runAll] at hr
    split at hr
    · rename_i s1 h1; exact ih (h.step a h1) hr
    · cases hr

/-- Two threads load 0, the second fails once; a reset in between makes the cell 0 again (the ABA case). -/
example : ∃ s : State Nat Nat, Reachable natRepr s ∧ s.cell = 2 ∧ s.taken = [(3, [(0, 3)])] ∧ s.returned = [(0, 3), (1, 2)] := by
  have h : (runAll natRepr (State.init natRepr)
      [.call 0 3, .call 1 2, .thread 0, .thread 1, .thread 0, .reset, .thread 1]).map (fun s => (s.cell, s.taken, s.returned))
      = some (2, [(3, [(0, 3)])], [(0, 3), (1, 2)]) := by rfl
  obtain ⟨s, hs, he⟩ := Option.map_eq_some_iff.1 h
  simp only [Prod.mk.injEq] at he
  exact ⟨s, reachable_runAll .init _ hs, he⟩

end Otel.Metrics.AtomicFloat
