import Verif.Sdk.Bsp
/-!
# The batch log processor (`opentelemetry-sdk/src/logs/batch_log_processor.rs`)

A transition system: any number of application threads, each inside one call, and the worker thread, interleaved at every atomic
operation, channel operation and exporter call. `X` is the type of log records (with their scope).

Simplifications: atomics are sequentially consistent; `dropped_logs_count` is incremented in the same step as the failing
`try_send`; a resource is named by a number; panics in the exporter and dropping the processor without shutdown are left out. Ghost fields
record the history and influence nothing. Result, message and configuration types are those of the batch span processor.
-/

namespace Otel.Logs.Blp

open Otel.Sdk.Bsp (Cfg msgCap Res Ret Cont set)

/-- `BatchMessage`. batch_log_processor.rs:58-70 -/
inductive Msg where
  | exportLog
  | forceFlush (tok : Nat)
  | shutdown (tok : Nat)
  | setResource (r : Nat)
deriving DecidableEq, Repr

/-- Where a thread is in its call: at the next operation on shared state. -/
inductive Pc (X : Type) where
  | idle
  /-- `emit`: `try_send` (157-159) -/
  | emit0 (x : X)
  /-- `current_batch_size.fetch_add` (167) -/
  | emit1 (x : X)
  /-- load `export_log_message_sent` (176) -/
  | emit2 (x : X)
  /-- `swap` (186) -/
  | emit3 (x : X)
  /-- `try_send` of the message (187) -/
  | emit4 (x : X)
  /-- reset of the flag (197) -/
  | emit5 (x : X)
  /-- `force_flush`: `try_send` (225-228) -/
  | flush0 (tok : Nat)
  /-- `recv_timeout` (230) -/
  | flushWait (tok : Nat)
  /-- `shutdown`: `try_send` (272) -/
  | shut0 (tok : Nat)
  /-- `recv_timeout` (275) -/
  | shutWait (tok : Nat)
  /-- `join` (280-282) -/
  | shutJoin (tok p : Nat)
deriving DecidableEq, Repr

/-- The local variables of `get_logs_and_export`: `target`, `total_exported_logs`, `result`. Ghosts: `base`, the number of records
exported before, `p`, the number of emits between their `try_send` and their `fetch_add` when `target` was read, and `tries`, one
entry per round of the loop: the exporter's answer, or nothing if the queue was empty and the exporter was not called. -/
structure Job where
  target : Nat
  total : Nat
  r : Res
  k : Cont
  base : Nat
  p : Nat
  tries : List (Option Res)
deriving DecidableEq, Repr

/-- Where the worker is. batch_log_processor.rs:346-486 -/
inductive Worker (X : Type) where
  /-- `recv_timeout` (400) -/
  | idle
  /-- an `ExportLog` message was received: store false (403) -/
  | reset
  /-- `target = current_batch_size.load` (371) -/
  | load (k : Cont)
  /-- the loop condition (375) -/
  | test (j : Job)
  /-- the `try_recv` loop (377-382) -/
  | drain (j : Job) (buf : List X)
  /-- `export_batch_sync` (387) -/
  | export (j : Job) (buf : List X)
  /-- `fetch_sub` (389) -/
  | sub (j : Job) (n : Nat)
  /-- `exporter.shutdown()` (440) -/
  | closing (j : Job)
  /-- the reply (430, 441) -/
  | reply (j : Job)
  /-- `break` (450): the thread ends and drops its receivers -/
  | exiting
  | done
deriving DecidableEq, Repr

/-- A call of application code. -/
inductive Call (X : Type) where
  | emit (x : X)
  | forceFlush
  | shutdown

/-- The state. Ghost fields come last. -/
structure State (X : Type) where
  queue : List X
  msgs : List Msg
  droppedLogsCount : Nat
  exportLogMessageSent : Bool
  currentBatchSize : BitVec 64
  worker : Worker X
  /-- the resource the exporter was given last -/
  resource : Option Nat
  /-- answers: token, result, ghost `p` -/
  replies : List (Nat × Res × Nat)
  threads : Nat → Pc X
  nextTok : Nat
  /-- records for which `try_send` succeeded, oldest first -/
  accepted : List X
  /-- records refused because the queue was full -/
  refused : List X
  /-- records refused because the worker had ended -/
  ignored : List X
  /-- batches handed to the exporter, oldest first -/
  exported : List (List X)
  /-- answers of the exporter to these batches -/
  answers : List Res
  /-- per batch: the resource the exporter had then -/
  labels : List (Option Nat)
  /-- per token: how many records had been accepted when the call was made -/
  atCall : Nat → Nat
  /-- returned calls: token, result, `p` -/
  returned : List (Nat × Ret × Nat)
  /-- threads between `try_send` and `fetch_add` -/
  pending : List Nat
  /-- an addition on `current_batch_size` overflowed: a debug build panics there -/
  overflowed : Bool
  /-- calls of `exporter.shutdown()` -/
  exporterShutdowns : Nat
  /-- per token: was it a `force_flush` call? -/
  isFlush : Nat → Bool
  /-- the worker's answers: for whom, the result, and the rounds of its loop -/
  served : List (Cont × Res × List (Option Res))

/-- A new processor. batch_log_processor.rs:334-341, 487-499 -/
def State.init {X : Type} : State X where
  queue := []
  msgs := []
  droppedLogsCount := 0
  exportLogMessageSent := false
  currentBatchSize := 0
  worker := .idle
  resource := none
  replies := []
  threads := fun _ => .idle
  nextTok := 0
  accepted := []
  refused := []
  ignored := []
  exported := []
  answers := []
  labels := []
  atCall := fun _ => 0
  returned := []
  pending := []
  overflowed := false
  exporterShutdowns := 0
  isFlush := fun _ => false
  served := []

/-- Scheduler choices. -/
inductive Action (X : Type) where
  | call (t : Nat) (c : Call X)
  | thread (t : Nat)
  /-- the wait of thread `t` times out, or its reply channel is gone -/
  | timeout (t : Nat)
  | take
  | timer
  /-- the worker takes its next step; `ok` is the exporter's answer if it is called -/
  | work (ok : Bool)
  /-- `set_resource`, called by the provider that takes the processor -/
  | setResource (r : Nat)

variable {X : Type}

/-- Set the program counter of a thread. -/
def State.goto (s : State X) (t : Nat) (pc : Pc X) : State X := { s with threads := set s.threads t pc }

/-- A flush or shutdown call returns. -/
def State.ret (s : State X) (t tok : Nat) (r : Ret) (p : Nat) : State X :=
  { s with threads := set s.threads t .idle, returned := s.returned ++ [(tok, r, p)] }

/-- The number of records handed to the exporter. -/
def State.exportedCount (s : State X) : Nat := s.exported.flatten.length

/-- Entry of a call. -/
def callStep (s : State X) (t : Nat) (c : Call X) : Option (State X) :=
  match s.threads t with
  | .idle =>
    match c with
    | .emit x => some (s.goto t (.emit0 x))
    | .forceFlush => some { s.goto t (.flush0 s.nextTok) with
        nextTok := s.nextTok + 1, atCall := set s.atCall s.nextTok s.accepted.length, isFlush := set s.isFlush s.nextTok true }
    | .shutdown => some { s.goto t (.shut0 s.nextTok) with
        nextTok := s.nextTok + 1, atCall := set s.atCall s.nextTok s.accepted.length, isFlush := set s.isFlush s.nextTok false }
  | _ => none

/-- The worker thread holds its receivers until it ends. -/
def Worker.alive : Worker X → Bool
  | .done => false
  | _ => true

/-- One step of an application thread. `emit`: 156-221, `force_flush`: 223-257, `shutdown`: 259-320. A `shutdown` that gets an
answer returns Ok whatever the answer is (276-284). -/
def threadStep (cfg : Cfg) (s : State X) (t : Nat) : Option (State X) :=
  match s.threads t with
  | .idle => none
  | .emit0 x =>
    if s.worker.alive = false then some { s.goto t .idle with ignored := s.ignored ++ [x] }
    else if s.queue.length < cfg.maxQueue then
      some { s.goto t (.emit1 x) with queue := s.queue ++ [x], accepted := s.accepted ++ [x], pending := t :: s.pending }
    else some { s.goto t .idle with droppedLogsCount := s.droppedLogsCount + 1, refused := s.refused ++ [x] }
  | .emit1 x =>
    let old := s.currentBatchSize
    let s := { s with
      currentBatchSize := old + 1, overflowed := s.overflowed || old == BitVec.allOnes 64, pending := s.pending.erase t }
    if cfg.maxBatch ≤ (old + 1).toNat then some (s.goto t (.emit2 x)) else some (s.goto t .idle)
  | .emit2 x => if s.exportLogMessageSent then some (s.goto t .idle) else some (s.goto t (.emit3 x))
  | .emit3 x =>
    let old := s.exportLogMessageSent
    let s := { s with exportLogMessageSent := true }
    if old then some (s.goto t .idle) else some (s.goto t (.emit4 x))
  | .emit4 x =>
    if s.worker.alive = true ∧ s.msgs.length < msgCap then some { s.goto t .idle with msgs := s.msgs ++ [.exportLog] }
    else some (s.goto t (.emit5 x))
  | .emit5 _ => some { s.goto t .idle with exportLogMessageSent := false }
  | .flush0 tok =>
    if s.worker.alive = false then some (s.ret t tok .alreadyShutdown 0)
    else if s.msgs.length < msgCap then some { s.goto t (.flushWait tok) with msgs := s.msgs ++ [.forceFlush tok] }
    else some (s.ret t tok .channelFull 0)
  | .flushWait tok =>
    match s.replies.find? (fun p => p.1 == tok) with
    | some p => some (s.ret t tok (.result p.2.1) p.2.2)
    | none => none
  | .shut0 tok =>
    if s.worker.alive = false then some (s.ret t tok .alreadyShutdown 0)
    else if s.msgs.length < msgCap then some { s.goto t (.shutWait tok) with msgs := s.msgs ++ [.shutdown tok] }
    else some (s.ret t tok .channelFull 0)
  | .shutWait tok =>
    match s.replies.find? (fun p => p.1 == tok) with
    | some p => some (s.goto t (.shutJoin tok p.2.2))
    | none => none
  | .shutJoin tok p =>
    match s.worker with
    | .done => some (s.ret t tok (.result .ok) p)
    | _ => none

/-- A wait for the worker's answer times out (or the worker has gone). 231-237, 286-301 -/
def timeoutStep (s : State X) (t : Nat) : Option (State X) :=
  match s.threads t with
  | .flushWait tok => some (s.ret t tok .timeout 0)
  | .shutWait tok => some (s.ret t tok .timeout 0)
  | _ => none

/-- The worker receives a message. 400-456 -/
def takeStep (s : State X) : Option (State X) :=
  match s.worker, s.msgs with
  | .idle, m :: ms =>
    let s := { s with msgs := ms }
    match m with
    | .exportLog => some { s with worker := .reset }
    | .forceFlush tok => some { s with worker := .load (.flush tok) }
    | .shutdown tok => some { s with worker := .load (.shut tok) }
    | .setResource r => some { s with resource := some r }
  | _, _ => none

/-- The worker's timer expires. 457-470 -/
def timerStep (s : State X) : Option (State X) :=
  match s.worker with
  | .idle => some { s with worker := .load .loop }
  | _ => none

/-- What follows `get_logs_and_export`. 404-456 -/
def Job.next (j : Job) : Worker X :=
  match j.k with
  | .loop => .idle
  | .flush _ => .reply j
  | .shut _ => .closing j

/-- One step of the worker. 360-392, 400-486, 514-544 -/
def workStep (cfg : Cfg) (s : State X) (ok : Bool) : Option (State X) :=
  match s.worker with
  | .idle => none
  | .reset => some { s with exportLogMessageSent := false, worker := .load .loop }
  | .load k => some { s with worker := .test ⟨s.currentBatchSize.toNat, 0, .ok, k, s.exportedCount, s.pending.length, []⟩ }
  | .test j =>
    if 0 < j.target ∧ j.total < j.target then some { s with worker := .drain j [] } else some { s with worker := j.next }
  | .drain j buf =>
    match s.queue with
    | [] => some { s with worker := .export j buf }
    | x :: q =>
      if (buf ++ [x]).length = cfg.maxBatch then some { s with queue := q, worker := .export j (buf ++ [x]) }
      else some { s with queue := q, worker := .drain j (buf ++ [x]) }
  | .export j buf =>
    if buf.isEmpty then some { s with worker := .sub { j with r := .ok, tries := j.tries ++ [none] } 0 }
    else some { s with
      exported := s.exported ++ [buf], answers := s.answers ++ [if ok then .ok else .failed], labels := s.labels ++ [s.resource],
      worker := .sub { j with total := j.total + buf.length, r := if ok then .ok else .failed, tries := j.tries ++ [some (if ok then .ok else .failed)] }
        buf.length }
  | .sub j n => some { s with currentBatchSize := s.currentBatchSize - BitVec.ofNat 64 n, worker := .test j }
  | .closing j => some { s with exporterShutdowns := s.exporterShutdowns + 1, worker := .reply j }
  | .reply j =>
    match j.k with
    | .loop => none
    | .flush tok => some { s with replies := s.replies ++ [(tok, j.r, j.p)], served := s.served ++ [(j.k, j.r, j.tries)], worker := .idle }
    | .shut tok => some { s with replies := s.replies ++ [(tok, j.r, j.p)], served := s.served ++ [(j.k, j.r, j.tries)], worker := .exiting }
  | .exiting => some { s with worker := .done }
  | .done => none

/-- `set_resource`: one `try_send`, whose result is ignored. 322-327 -/
def setResourceStep (s : State X) (r : Nat) : State X :=
  if s.worker.alive = true ∧ s.msgs.length < msgCap then { s with msgs := s.msgs ++ [.setResource r] } else s

/-- One step of the system. -/
def step (cfg : Cfg) (s : State X) : Action X → Option (State X)
  | .call t c => callStep s t c
  | .thread t => threadStep cfg s t
  | .timeout t => timeoutStep s t
  | .take => takeStep s
  | .timer => timerStep s
  | .work ok => workStep cfg s ok
  | .setResource r => some (setResourceStep s r)

/-- Reachable states: every schedule, of any length. -/
inductive Reachable (cfg : Cfg) : State X → Prop
  | init : Reachable cfg State.init
  | step {s s' a} : Reachable cfg s → step cfg s a = some s' → Reachable cfg s'

/-- `s'` is reached from `s` by some schedule. -/
inductive Later (cfg : Cfg) (s : State X) : State X → Prop
  | refl : Later cfg s s
  | step {s1 s2 a} : Later cfg s s1 → step cfg s1 a = some s2 → Later cfg s s2

/-- A concrete schedule, for examples. -/
def runAll (cfg : Cfg) (s : State X) : List (Action X) → Option (State X)
  | [] => some s
  | a :: as => match step cfg s a with
    | some s' => runAll cfg s' as
    | none => none

end Otel.Logs.Blp
