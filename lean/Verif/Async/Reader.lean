import Verif.Async.Batch
/-!
# The periodic metric reader that runs on an async runtime

`opentelemetry-sdk/src/metrics/periodic_reader_with_async_runtime.rs`. The same transition system as for the batch processors (`Async/Batch.lean`): callers
send messages to a task, which is spawned when the reader is registered with a pipeline. Measurements are numbered in the order in which they are
recorded; a collection covers a range of them: everything so far for a cumulative exporter, everything since the last collection for a delta exporter.

Simplifications: one measurement and one collection are each one step (their inner interleaving is the subject of `Metrics/Concurrent.lean`); a collection
finds no metrics exactly if its range is empty; `collect` called by the program itself, poisoned locks, and callbacks that call back into the reader are
left out; the wait on the one-shot channel has no timeout, as in the code. Ghost fields record the history.
-/

namespace Otel.AsyncReader
open Otel.Async (Res)

/-- The exporter's temporality and the capacity of the channel: `mpsc::channel(256)` of futures holds 256 messages and one for its sender.
periodic_reader_with_async_runtime.rs:109 -/
structure Cfg where
  delta : Bool
  cap : Nat

/-- What `force_flush` or `shutdown` returns: the task's answer, `InternalFailure` as the message could not be sent (full, closed) or the task went away
with the answer channel (canceled), or `AlreadyShutdown`. A failure or timeout reported by the task for a shutdown is an `InternalFailure` with its text (311-313),
kept apart here as the result it stands for. 380-428 -/
inductive Ret where
  | result (r : Res)
  | full
  | closed
  | canceled
  | already
deriving DecidableEq, Repr

/-- `Message`; a call is known by its number, ticks are a scheduler choice. 224-229 -/
inductive Msg where
  | flush (tok : Nat)
  | shutdown (tok : Nat)
deriving DecidableEq, Repr

def Msg.tok : Msg → Nat
  | .flush t => t
  | .shutdown t => t

/-- Why the task collects. -/
inductive Cont where
  | tick
  | flush (tok : Nat)
  | shut (tok : Nat)
deriving DecidableEq, Repr

def Cont.toks : Cont → List Nat
  | .tick => []
  | .flush t => [t]
  | .shut t => [t]

/-- Where the task is. -/
inductive Worker where
  /-- not spawned: it is held, with the receiver, by the reader: 111-130, 141-147 -/
  | unspawned
  /-- waiting for a message: 327 -/
  | idle
  /-- before `collect`: 245-248 -/
  | collecting (k : Cont)
  /-- waiting for the exporter or the timeout: 262-273 -/
  | exporting (lo hi : Nat) (k : Cont)
  /-- before `exporter.shutdown()`, and the answer after it: 308-312 -/
  | stopping (tok : Nat) (r : Res)
  /-- out of the loop, before the receiver is dropped: 326-332 -/
  | ending
  | done
deriving DecidableEq, Repr

/-- The call the task is working for. -/
def Worker.serving : Worker → List Nat
  | .collecting k => k.toks
  | .exporting _ _ k => k.toks
  | .stopping t _ => [t]
  | _ => []

/-- What the exporter sees. -/
inductive Ev where
  | exported (lo hi : Nat) (r : Res)
  | shutdown (ok : Bool)
deriving DecidableEq, Repr

/-- The state. -/
structure State where
  /-- the pipeline lives: its `Weak` can be upgraded -/
  alive : Bool
  isShutdown : Bool
  queue : List Msg
  worker : Worker
  /-- shutdown calls that have their answer and are about to set `is_shutdown`: 417-427 -/
  settling : List (Nat × Res)
  returned : List (Nat × Ret)
  nextTok : Nat
  recorded : Nat
  collected : Nat
  log : List Ev
  /-- per call: how many measurements had been recorded -/
  atCall : Nat → Nat
  /-- per call: was it `shutdown`? -/
  isShut : Nat → Bool

/-- `build`. 108-150 -/
def State.init : State where
  alive := true
  isShutdown := false
  queue := []
  worker := .unspawned
  settling := []
  returned := []
  nextTok := 0
  recorded := 0
  collected := 0
  log := []
  atCall := fun _ => 0
  isShut := fun _ => false

/-- Scheduler choices. -/
inductive Action where
  | record
  /-- `register_pipeline` -/
  | register
  /-- the last owner of the pipeline goes away -/
  | dropPipeline
  | forceFlush
  | shutdown
  /-- a shutdown call with an answer sets `is_shutdown` and returns -/
  | settle
  /-- the task takes the next message -/
  | recv
  /-- the ticker fires -/
  | tick
  | collect
  /-- the export, or its timeout, ends -/
  | finish (r : Res)
  /-- `exporter.shutdown()` -/
  | stop (ok : Bool)
  /-- the task ends and drops the receiver -/
  | close
  /-- the task is dropped, or panics -/
  | die
deriving DecidableEq, Repr

/-- `force_flush` and `shutdown_with_timeout` up to the wait. 380-394, 401-415 -/
def State.call (cfg : Cfg) (s : State) (shut : Bool) : State :=
  let t := s.nextTok
  let s' := { s with
    nextTok := t + 1
    atCall := fun u => if u = t then s.recorded else s.atCall u
    isShut := fun u => if u = t then shut else s.isShut u }
  if s.isShutdown then { s' with returned := s.returned ++ [(t, .already)] }
  else if s.worker = .done then { s' with returned := s.returned ++ [(t, .closed)] }
  else if s.queue.length < cfg.cap then { s' with queue := s.queue ++ [if shut then .shutdown t else .flush t] }
  else { s' with returned := s.returned ++ [(t, .full)] }

/-- What follows `collect_and_export` with result `r`. 275-323 -/
def State.after (s : State) (k : Cont) (r : Res) : State :=
  match k with
  | .tick => { s with worker := .idle }
  | .flush t => { s with worker := .idle, returned := s.returned ++ [(t, .result r)] }
  | .shut t => { s with worker := .stopping t r }

/-- The first measurement a collection covers. -/
def State.lower (cfg : Cfg) (s : State) : Nat := if cfg.delta then s.collected else 0

/-- `collect`, and what `collect_and_export` makes of it. 356-377, 245-262 -/
def State.collect (cfg : Cfg) (s : State) (k : Cont) : State :=
  if s.isShutdown ∨ s.alive = false then s.after k .failed
  else if s.lower cfg = s.recorded then s.after k .ok
  else { s with collected := s.recorded, worker := .exporting (s.lower cfg) s.recorded k }

/-- The receiver is dropped: the callers whose message is in it wake up with an error, and a `shutdown` call returns without setting the flag.
396-398, 417-418 -/
def State.drop (s : State) : State :=
  { s with worker := .done, returned := s.returned ++ s.queue.map (fun m => (m.tok, .canceled)), queue := [] }

/-- One step. -/
def step (cfg : Cfg) (s : State) : Action → Option State
  | .record => some { s with recorded := s.recorded + 1 }
  | .register => if s.worker = .unspawned then some { s with worker := .idle } else some s
  | .dropPipeline => some { s with alive := false }
  | .forceFlush => some (s.call cfg false)
  | .shutdown => some (s.call cfg true)
  | .settle => match s.settling with
    | (t, r) :: l => some { s with settling := l, isShutdown := true, returned := s.returned ++ [(t, .result r)] }
    | [] => none
  | .recv => match s.worker, s.queue with
    | .idle, .flush t :: q => some { s with queue := q, worker := .collecting (.flush t) }
    | .idle, .shutdown t :: q => some { s with queue := q, worker := .collecting (.shut t) }
    | _, _ => none
  | .tick => match s.worker with
    | .idle => some { s with worker := .collecting .tick }
    | _ => none
  | .collect => match s.worker with
    | .collecting k => some (s.collect cfg k)
    | _ => none
  | .finish r => match s.worker with
    | .exporting lo hi k => some (({ s with log := s.log ++ [.exported lo hi r] } : State).after k r)
    | _ => none
  | .stop ok => match s.worker with
    | .stopping t r => some { s with worker := .ending, log := s.log ++ [.shutdown ok], settling := s.settling ++ [(t, r)] }
    | _ => none
  | .close => match s.worker with
    | .ending => some s.drop
    | _ => none
  | .die => match s.worker with
    | .unspawned => none
    | .done => none
    | w => some ({ s with returned := s.returned ++ w.serving.map (fun t => (t, .canceled)) } : State).drop

/-- Every state of every schedule. -/
inductive Reachable (cfg : Cfg) : State → Prop
  | init : Reachable cfg .init
  | step {s s' a} : Reachable cfg s → step cfg s a = some s' → Reachable cfg s'

/-- Run a schedule. -/
def runAll (cfg : Cfg) (s : State) : List Action → Option State
  | [] => some s
  | a :: as => match step cfg s a with
    | some s1 => runAll cfg s1 as
    | none => none

theorem reachable_runAll {cfg : Cfg} {s : State} (h : Reachable cfg s) (as : List Action) {s' : State} (hr : runAll cfg s as = some s') :
    Reachable cfg s' := by
  induction as generalizing s with
  | nil => injection hr with hr; exact hr ▸ h
  | cons a as ih =>
    simp only [runAll] at hr
    split at hr
    · rename_i s1 h1; exact ih (h.step h1) hr
    · cases hr

end Otel.AsyncReader
