/-!
# Model of the thread-local context stack

Models `opentelemetry/src/context.rs`. The context type is a parameter `α`: the stack never looks inside a context.
Simplifications: the thread local and its `RefCell` are the explicit state that is passed around (re-entrancy is
modelled in `Verif.Context.Reentrancy`); warnings written to the log are omitted.
-/

namespace Otel.Ctx

/-- `ContextStack::MAX_POS = u16::MAX`. `/repo/opentelemetry/src/context.rs:520` -/
def maxPos : Nat := 65535

/-- `struct ContextStack`: the current context, and the stack of the other attached contexts (oldest first), where
`none` marks one whose guard was dropped out of order. `/repo/opentelemetry/src/context.rs:505-516` -/
structure Stack (α : Type) where
  cur : α
  stack : List (Option α)
deriving Repr, DecidableEq

variable {α : Type}

/-- `ContextStack::default`: the given context (an empty one in the code) and no others.
`/repo/opentelemetry/src/context.rs:598-607` -/
def Stack.init (base : α) : Stack α := { cur := base, stack := [] }

/-- `ContextStack::push`: returns the new stack and the position put in the guard.
`/repo/opentelemetry/src/context.rs:524-543` -/
def Stack.push (s : Stack α) (cx : α) : Stack α × Nat :=
  let nextId := s.stack.length + 1
  if nextId < maxPos then
    ({ cur := cx, stack := s.stack ++ [some s.cur] }, nextId % 65536)
  else
    (s, maxPos)

/-- The loop `while let Some(None) = self.stack.last() { self.stack.pop(); }`.
`/repo/opentelemetry/src/context.rs:566-568` -/
def shrink (l : List (Option α)) : List (Option α) :=
  (l.reverse.dropWhile (fun o => o.isNone)).reverse

/-- `ContextStack::pop_id`; `len as u16` is the remainder modulo 2^16. `/repo/opentelemetry/src/context.rs:546-590` -/
def Stack.popId (s : Stack α) (pos : Nat) : Stack α :=
  if pos = 0 ∨ pos = maxPos then s
  else
    let len := s.stack.length % 65536
    if pos = len then
      let st := shrink s.stack
      match st.getLast? with
      | some (some next) => { cur := next, stack := st.dropLast }
      | _ => { s with stack := st.dropLast }
    else if pos ≥ len then s
    else { s with stack := s.stack.set pos none }

/-- `ContextGuard::drop`. `/repo/opentelemetry/src/context.rs:463-470` -/
def Stack.dropGuard (s : Stack α) (pos : Nat) : Stack α :=
  if pos > 0 ∧ pos < maxPos then s.popId pos else s

/-- What user code on one thread can do: attach a context, or drop the guard returned by the `k`-th `attach`
(counting from 0). -/
inductive Op (α : Type) where
  | attach (cx : α)
  | drop (k : Nat)
deriving Repr, DecidableEq

/-- The stack together with the guards handed out: entry `k` is the position held by the guard of the `k`-th attach,
`none` once that guard is dropped. A guard is an owned value, so it is dropped at most once: a second `drop k`, or one of
a guard that does not exist, cannot be written in Rust and is a no-op here.
`/repo/opentelemetry/src/context.rs:326-333` (attach), `456-470` (guard) -/
structure Sys (α : Type) where
  st : Stack α
  guards : List (Option Nat)

/-- Start of a thread. -/
def Sys.init (base : α) : Sys α := { st := Stack.init base, guards := [] }

/-- One operation of user code: `Context::attach` or dropping a `ContextGuard`.
`/repo/opentelemetry/src/context.rs:326-333`, `463-470` -/
def Sys.step (s : Sys α) : Op α → Sys α
  | .attach cx =>
    let (st, pos) := s.st.push cx
    { st := st, guards := s.guards ++ [some pos] }
  | .drop k =>
    match s.guards[k]? with
    | some (some pos) => { st := s.st.dropGuard pos, guards := s.guards.set k none }
    | _ => s

/-- A whole history on one thread. -/
def Sys.run (s : Sys α) (ops : List (Op α)) : Sys α := ops.foldl Sys.step s

/-- `Context::current` / `map_current`. `/repo/opentelemetry/src/context.rs:133-147`, `593-595` -/
def Sys.current (s : Sys α) : α := s.st.cur

end Otel.Ctx
