/-!
# Tracer, logger and meter providers as a transition system (C29, C35, C49)

The three providers share one scheme: a flag, a list of processors (for metrics: pipelines, each with one reader), handles that are
clones of one `Arc`, and a destructor that shuts down if nobody did. Sources, all in opentelemetry-sdk/src:
trace/provider.rs:106-281, trace/span.rs:201-247; logs/logger_provider.rs:54-166, logs/logger.rs:31-53;
metrics/meter_provider.rs:36-247, metrics/pipeline.rs:668-700.

Every load, exchange and every call of a processor is one step. A call borrows a handle for as long as it runs (`active`), so the
last handle cannot be dropped meanwhile: that is Rust's borrow rule. Spans and tracers hold a handle of the tracer provider,
loggers one of the logger provider; meters hold only the pipelines.
-/

namespace Otel.Sdk.Prov

/-- Which provider. -/
inductive Kind where
  | tracer
  | logger
  | meter
deriving DecidableEq, Repr

/-- What a processor (reader) can be told. -/
inductive Ev (X : Type) where
  | item (x : X)
  | flush
  | shutdown
deriving DecidableEq, Repr

/-- The result of a `shutdown` or `force_flush` call. -/
inductive Ret where
  | ok
  | failed
  | alreadyShutdown
deriving DecidableEq, Repr

/-- Where a thread is. -/
inductive Pc (X : Type) where
  | idle
  /-- a span ends: load of the flag. trace/span.rs:207-211 -/
  | end0 (x : X)
  /-- the loop over the processors: span.rs:220-237, logger.rs:50-52 -/
  | deliver (x : X) (i : Nat)
  /-- `force_flush` of the meter provider loads the flag. meter_provider.rs:127-136 -/
  | flush0
  /-- the loop of `force_flush`. provider.rs:226-237, logger_provider.rs:85-96, pipeline.rs:668-681 -/
  | flush (i : Nat) (ok : Bool)
  /-- `shutdown`: exchange of the flag. provider.rs:242-248, logger_provider.rs:103-108, meter_provider.rs:138-148 -/
  | shut0
  /-- the loop of `shutdown`. provider.rs:115-130, logger_provider.rs:136-151, pipeline.rs:684-700 -/
  | shut (i : Nat) (ok : Bool)
  /-- the destructor loads the flag. provider.rs:133-144, logger_provider.rs:154-169, meter_provider.rs:158-186 -/
  | drop0
  /-- the destructor's loop. -/
  | dropLoop (i : Nat)
deriving DecidableEq, Repr

/-- The state. -/
structure State (X : Type) where
  isShutdown : Bool
  handles : Nat
  /-- threads with a call in progress -/
  active : List Nat
  threads : Nat → Pc X
  /-- calls of processors, oldest first -/
  log : List (Nat × Ev X)
  /-- results of `shutdown` calls, oldest first -/
  returned : List Ret
  /-- for each handed-out tracer / logger / meter: is it a no-op? oldest first -/
  obtained : List Bool
  /-- the thread's current call was made after the flag was set -/
  late : Nat → Bool
  /-- ghost: which thread runs a shutdown loop -/
  runner : Option Nat
  /-- ghost: how many processors have been shut down -/
  progress : Nat
  /-- ghost: a shutdown loop has ended -/
  finished : Bool
  /-- ghost: the destructor has run -/
  dropped : Bool
  /-- ghost: the answers of the processors to the thread's current `force_flush` or `shutdown` call -/
  answers : Nat → List Bool
  /-- ghost: each finished `force_flush` or `shutdown` call with the answers it got and the result it returned, oldest first -/
  calls : List (List Bool × Ret)

/-- A new provider with one handle. provider.rs:440-456, logger_provider.rs:253-271, meter_provider.rs:305-326 -/
def State.init {X : Type} : State X where
  isShutdown := false
  handles := 1
  active := []
  threads := fun _ => .idle
  log := []
  returned := []
  obtained := []
  late := fun _ => false
  runner := none
  progress := 0
  finished := false
  dropped := false
  answers := fun _ => []
  calls := []

/-- Scheduler choices. -/
inductive Action (X : Type) where
  /-- a handle is cloned -/
  | clone
  /-- thread `t` drops a handle -/
  | dropHandle (t : Nat)
  /-- `tracer` / `logger` / `meter` is called -/
  | obtain_
  /-- thread `t` ends span `x` / emits record `x` -/
  | item (t : Nat) (x : X)
  | flush (t : Nat)
  | shutdown (t : Nat)
  /-- thread `t` takes its next step; `ok` is the answer of a processor that is flushed or shut down -/
  | thread (t : Nat) (ok : Bool)

variable {X : Type}

/-- Function update. -/
def upd {Y : Type} (f : Nat → Y) (i : Nat) (y : Y) : Nat → Y := fun j => if j = i then y else f j

/-- A call begins. -/
def State.enter (s : State X) (t : Nat) (pc : Pc X) : State X :=
  { s with
    threads := upd s.threads t pc, active := t :: s.active, late := upd s.late t s.isShutdown, answers := upd s.answers t [] }

/-- A call returns. -/
def State.leave (s : State X) (t : Nat) : State X := { s with threads := upd s.threads t .idle, active := s.active.filter (· != t) }

/-- The call goes on. -/
def State.goto (s : State X) (t : Nat) (pc : Pc X) : State X := { s with threads := upd s.threads t pc }

/-- A `force_flush` or `shutdown` call returns `r`. -/
def State.answer (s : State X) (t : Nat) (r : Ret) : State X := { s.leave t with calls := s.calls ++ [(s.answers t, r)] }

/-- The conjunction of the processors' results. provider.rs:232-236 -/
def Ret.ofBool (ok : Bool) : Ret := if ok then .ok else .failed

/-- One step of a thread; `n` is the number of processors. -/
def threadStep (n : Nat) (s : State X) (t : Nat) (ok : Bool) : Option (State X) :=
  match s.threads t with
  | .idle => none
  | .end0 x => if s.isShutdown then some (s.leave t) else some (s.goto t (.deliver x 0))
  | .deliver x i =>
    if i < n then some { s.goto t (.deliver x (i + 1)) with log := s.log ++ [(i, .item x)] } else some (s.leave t)
  | .flush0 => if s.isShutdown then some (s.answer t .alreadyShutdown) else some (s.goto t (.flush 0 true))
  | .flush i acc =>
    if i < n then
      some { s.goto t (.flush (i + 1) (acc && ok)) with
        log := s.log ++ [(i, .flush)], answers := upd s.answers t (s.answers t ++ [ok]) }
    else some (s.answer t (Ret.ofBool acc))
  | .shut0 =>
    if s.isShutdown then some { s.answer t .alreadyShutdown with returned := s.returned ++ [.alreadyShutdown] }
    else some { s.goto t (.shut 0 true) with isShutdown := true, runner := some t }
  | .shut i acc =>
    if i < n then
      some { s.goto t (.shut (i + 1) (acc && ok)) with
        log := s.log ++ [(i, .shutdown)], progress := s.progress + 1, answers := upd s.answers t (s.answers t ++ [ok]) }
    else some { s.answer t (Ret.ofBool acc) with returned := s.returned ++ [Ret.ofBool acc], runner := none, finished := true }
  | .drop0 =>
    if s.isShutdown then some { s.leave t with dropped := true }
    else some { s.goto t (.dropLoop 0) with runner := some t }
  | .dropLoop i =>
    if i < n then some { s.goto t (.dropLoop (i + 1)) with log := s.log ++ [(i, .shutdown)], progress := s.progress + 1 }
    else some { s.leave t with runner := none, finished := true, dropped := true }

/-- A thread begins a call: it must be idle and there must be a handle. -/
def begin_ (s : State X) (t : Nat) (pc : Pc X) : Option (State X) :=
  match s.threads t with
  | .idle => if 0 < s.handles then some (s.enter t pc) else none
  | _ => none

/-- The transition function. -/
def step (k : Kind) (n : Nat) (s : State X) : Action X → Option (State X)
  | .clone => if 0 < s.handles then some { s with handles := s.handles + 1 } else none
  | .dropHandle t =>
    if 1 < s.handles then some { s with handles := s.handles - 1 }
    else if s.handles = 1 ∧ s.active = [] then
      match s.threads t with
      | .idle => some { s.enter t .drop0 with handles := 0 }
      | _ => none
    else none
  | .obtain_ => if 0 < s.handles then some { s with obtained := s.obtained ++ [s.isShutdown] } else none
  | .item t x =>
    match k with
    | .tracer => begin_ s t (.end0 x)
    | .logger => begin_ s t (.deliver x 0)
    | .meter => none
  | .flush t =>
    match k with
    | .meter => begin_ s t .flush0
    | _ => begin_ s t (.flush 0 true)
  | .shutdown t => begin_ s t .shut0
  | .thread t ok => threadStep n s t ok

/-- Every state of every schedule. -/
inductive Reachable (k : Kind) (n : Nat) : State X → Prop
  | init : Reachable k n State.init
  | step {s s' : State X} {a : Action X} : Reachable k n s → step k n s a = some s' → Reachable k n s'

/-- `s'` comes after `s`. -/
inductive Later (k : Kind) (n : Nat) (s : State X) : State X → Prop
  | refl : Later k n s s
  | step {s1 s2 : State X} {a : Action X} : Later k n s s1 → step k n s1 a = some s2 → Later k n s s2

/-- Run a schedule. -/
def runAll (k : Kind) (n : Nat) (s : State X) : List (Action X) → Option (State X)
  | [] => some s
  | a :: as => match step k n s a with
    | some s1 => runAll k n s1 as
    | none => none

end Otel.Sdk.Prov
