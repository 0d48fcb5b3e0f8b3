import Verif.Context.Stack
/-!
# Specification of the current context, in terms of the history only

An attachment is alive from its attach until its guard is dropped. The current context is the newest live attachment.
Nothing here mentions positions or the stack.
-/

namespace Otel.Ctx.Spec

open Otel.Ctx (Op)

variable {α : Type}

/-- Live attachments, oldest first, tagged with their serial number, and the number of attaches so far. -/
structure State (α : Type) where
  live : List (Nat × α)
  count : Nat

def init : State α := { live := [], count := 0 }

/-- `accepted k` says whether the `k`-th attach takes effect. -/
def step (accepted : Nat → Bool) (s : State α) : Op α → State α
  | .attach cx =>
    { live := if accepted s.count then s.live ++ [(s.count, cx)] else s.live
      count := s.count + 1 }
  | .drop k => { s with live := s.live.filter (fun e => e.1 != k) }

def run (accepted : Nat → Bool) (ops : List (Op α)) : State α := ops.foldl (step accepted) init

/-- The newest live attachment, or the base context. -/
def State.current (s : State α) (base : α) : α :=
  match s.live.getLast? with
  | some e => e.2
  | none => base

/-- Number of attach operations in a history. -/
def attaches (ops : List (Op α)) : Nat :=
  (ops.filter (fun o => match o with | .attach _ => true | .drop _ => false)).length

/-- The places of the live attachments, oldest first, by serial number. -/
structure Places where
  live : List (Nat × Nat)
  count : Nat

/-- The place of the newest live attachment, 0 if there is none. -/
def Places.height (s : Places) : Nat := match s.live.getLast? with
  | some e => e.2
  | none => 0

/-- Each attach takes the place after the newest live attachment. -/
def Places.step (s : Places) : Op α → Places
  | .attach _ => ⟨s.live ++ [(s.count, s.height + 1)], s.count + 1⟩
  | .drop k => { s with live := s.live.filter fun e => e.1 != k }

/-- The places after a history. -/
def places (ops : List (Op α)) : Places := ops.foldl Places.step ⟨[], 0⟩

end Otel.Ctx.Spec
