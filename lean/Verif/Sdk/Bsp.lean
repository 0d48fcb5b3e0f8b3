/-!
# The batch span processor (`opentelemetry-sdk/src/trace/span_processor.rs`, `BatchSpanProcessor`)

A transition system: any number of application threads, each inside one call, and the worker thread, interleaved at
every atomic operation, channel operation and exporter call. `X` is the type of finished spans.

Simplifications: atomics are sequentially consistent; the fields read only for log messages are left out except
`dropped_span_count`, whose increment is merged with the failing `try_send`; a resource is named by a number; panics in
the exporter and dropping the processor without shutdown are left out. Ghost fields record the history and influence
nothing.
-/

namespace Otel.Sdk.Bsp

/-- `BatchConfig`: the two sizes. span_processor.rs:654-677 -/
structure Cfg where
  maxBatch : Nat
  maxQueue : Nat

/-- Capacity of the message channel. span_processor.rs:310 -/
def msgCap : Nat := 64

/-- `OTelSdkResult` as the worker reports it. -/
inductive Res where
  | ok
  | failed
deriving DecidableEq, Repr

/-- What a call of `force_flush` or `shutdown` returns. -/
inductive Ret where
  | result (r : Res)
  | alreadyShutdown
  | channelFull
  | timeout
deriving DecidableEq, Repr

/-- `BatchMessage`; a flush or shutdown message carries the caller's reply channel, named by a token.
span_processor.rs:242-249 -/
inductive Msg where
  | exportSpan
  | forceFlush (tok : Nat)
  | shutdown (tok : Nat)
  | setResource (r : Nat)
deriving DecidableEq, Repr

/-- Where a thread is in its call: at the next operation on shared state. -/
inductive Pc (X : Type) where
  | idle
  /-- `on_end`: load `is_shutdown` (517) -/
  | onEnd0 (x : X)
  /-- `try_send` (525) -/
  | onEnd1 (x : X)
  /-- `current_batch_size.fetch_add` (537) -/
  | onEnd2 (x : X)
  /-- load `export_span_message_sent` (543) -/
  | onEnd3 (x : X)
  /-- `swap` (548) -/
  | onEnd4 (x : X)
  /-- `try_send` of the message (549) -/
  | onEnd5 (x : X)
  /-- reset of the flag (559) -/
  | onEnd6 (x : X)
  /-- `force_flush`: load `is_shutdown` (569) -/
  | flush0 (tok : Nat)
  /-- `try_send` (574) -/
  | flush1 (tok : Nat)
  /-- `recv_timeout` (578) -/
  | flushWait (tok : Nat)
  /-- `shutdown`: swap (584) -/
  | shut0 (tok : Nat)
  /-- `try_send` (600) -/
  | shut1 (tok : Nat)
  /-- `recv_timeout` (604) -/
  | shutWait (tok : Nat)
  /-- `join` (607) -/
  | shutJoin (tok : Nat) (r : Res)
deriving DecidableEq, Repr

/-- What the worker does after an export. -/
inductive Cont where
  | loop
  | flush (tok : Nat)
  | shut (tok : Nat)
deriving DecidableEq, Repr

/-- Where the worker is. span_processor.rs:318-418, 452-512 -/
inductive Worker (X : Type) where
  /-- `recv_timeout` (337) -/
  | idle
  /-- an `ExportSpan` message was received: store false (341) -/
  | reset
  /-- the `try_recv` loop (464-469) -/
  | drain (buf : List X) (k : Cont)
  /-- `export_batch_sync` (472) -/
  | export (buf : List X) (k : Cont)
  /-- `fetch_sub` (474) -/
  | sub (n : Nat) (r : Res) (k : Cont)
  /-- the reply (364, 376) -/
  | reply (r : Res) (k : Cont)
  /-- `break` (385): the thread ends and drops its receivers -/
  | exiting
  | done
deriving DecidableEq, Repr

/-- A call of application code. -/
inductive Call (X : Type) where
  | onEnd (x : X)
  | forceFlush
  | shutdown

/-- The state. Ghost fields come last. -/
structure State (X : Type) where
  queue : List X
  msgs : List Msg
  isShutdown : Bool
  droppedSpanCount : Nat
  exportSpanMessageSent : Bool
  currentBatchSize : BitVec 64
  worker : Worker X
  /-- the resource the exporter was given last -/
  resource : Option Nat
  replies : List (Nat × Res)
  threads : Nat → Pc X
  nextTok : Nat
  /-- spans for which `try_send` succeeded, oldest first -/
  accepted : List X
  /-- spans for which it failed -/
  refused : List X
  /-- spans not sent because the processor was shut down -/
  ignored : List X
  /-- batches handed to the exporter, oldest first -/
  exported : List (List X)
  /-- per batch: the resource the exporter had then -/
  labels : List (Option Nat)
  /-- per token: how many spans had been accepted and how many exported when the call was made -/
  atCall : Nat → Nat × Nat
  /-- returned calls with their token, newest last -/
  returned : List (Nat × Ret)
  /-- threads whose current call was made after `is_shutdown` was set -/
  late : Nat → Bool
  /-- an addition on `current_batch_size` overflowed: a debug build panics there -/
  overflowed : Bool
  /-- tokens of the `shutdown` calls that got past the swap -/
  winners : List Nat
  /-- calls of `exporter.shutdown()` -/
  exporterShutdowns : Nat

/-- A new processor. span_processor.rs:422-436 -/
def State.init {X : Type} : State X where
  queue := []
  msgs := []
  isShutdown := false
  droppedSpanCount := 0
  exportSpanMessageSent := false
  currentBatchSize := 0
  worker := .idle
  resource := none
  replies := []
  threads := fun _ => .idle
  nextTok := 0
  accepted := []
  refused := []
  ignored := []
  exported := []
  labels := []
  atCall := fun _ => (0, 0)
  returned := []
  late := fun _ => false
  overflowed := false
  winners := []
  exporterShutdowns := 0

/-- Scheduler choices. -/
inductive Action (X : Type) where
  /-- thread `t` makes a call -/
  | call (t : Nat) (c : Call X)
  /-- thread `t` takes its next step -/
  | thread (t : Nat)
  /-- the wait of thread `t` times out -/
  | timeout (t : Nat)
  /-- the worker receives a message -/
  | take
  /-- the worker's wait times out -/
  | timer
  /-- the worker takes its next step; `ok` is the exporter's answer if it is called -/
  | work (ok : Bool)
  /-- `set_resource`, called by the provider that takes the processor -/
  | setResource (r : Nat)

variable {X : Type}

/-- Function update. -/
def set {Y : Type} (f : Nat → Y) (i : Nat) (y : Y) : Nat → Y := fun j => if j = i then y else f j

/-- Set the program counter of a thread. -/
def State.goto (s : State X) (t : Nat) (pc : Pc X) : State X := { s with threads := set s.threads t pc }

/-- A flush or shutdown call returns. -/
def State.ret (s : State X) (t tok : Nat) (r : Ret) : State X :=
  { s with threads := set s.threads t .idle, returned := s.returned ++ [(tok, r)] }

/-- The number of spans handed to the exporter. -/
def State.exportedCount (s : State X) : Nat := s.exported.flatten.length

/-- Entry of a call. -/
def callStep (s : State X) (t : Nat) (c : Call X) : Option (State X) :=
  match s.threads t with
  | .idle =>
    let s := { s with late := set s.late t s.isShutdown }
    match c with
    | .onEnd x => some (s.goto t (.onEnd0 x))
    | .forceFlush => some { s.goto t (.flush0 s.nextTok) with
        nextTok := s.nextTok + 1, atCall := set s.atCall s.nextTok (s.accepted.length, s.exportedCount) }
    | .shutdown => some { s.goto t (.shut0 s.nextTok) with
        nextTok := s.nextTok + 1, atCall := set s.atCall s.nextTok (s.accepted.length, s.exportedCount) }
  | _ => none

/-- The worker thread holds its receivers until it ends. -/
def Worker.alive : Worker X → Bool
  | .done => false
  | _ => true

/-- The message channel accepts a message if it has room and its receiver, the worker, is alive. -/
def canSend (s : State X) : Bool := decide (s.msgs.length < msgCap) && s.worker.alive

/-- One step of an application thread. `on_end`: span_processor.rs:516-565, `force_flush`: 568-580, `shutdown`: 583-615 -/
def threadStep (cfg : Cfg) (s : State X) (t : Nat) : Option (State X) :=
  match s.threads t with
  | .idle => none
  | .onEnd0 x =>
    if s.isShutdown then some { s.goto t .idle with ignored := s.ignored ++ [x] } else some (s.goto t (.onEnd1 x))
  | .onEnd1 x =>
    if s.queue.length < cfg.maxQueue ∧ s.worker.alive = true then
      some { s.goto t (.onEnd2 x) with queue := s.queue ++ [x], accepted := s.accepted ++ [x] }
    else some { s.goto t (.onEnd2 x) with droppedSpanCount := s.droppedSpanCount + 1, refused := s.refused ++ [x] }
  | .onEnd2 x =>
    let old := s.currentBatchSize
    let s := { s with currentBatchSize := old + 1, overflowed := s.overflowed || old == BitVec.allOnes 64 }
    if cfg.maxBatch ≤ (old + 1).toNat then some (s.goto t (.onEnd3 x)) else some (s.goto t .idle)
  | .onEnd3 x => if s.exportSpanMessageSent then some (s.goto t .idle) else some (s.goto t (.onEnd4 x))
  | .onEnd4 x =>
    let old := s.exportSpanMessageSent
    let s := { s with exportSpanMessageSent := true }
    if old then some (s.goto t .idle) else some (s.goto t (.onEnd5 x))
  | .onEnd5 x =>
    if canSend s then some { s.goto t .idle with msgs := s.msgs ++ [.exportSpan] } else some (s.goto t (.onEnd6 x))
  | .onEnd6 _ => some { s.goto t .idle with exportSpanMessageSent := false }
  | .flush0 tok => if s.isShutdown then some (s.ret t tok .alreadyShutdown) else some (s.goto t (.flush1 tok))
  | .flush1 tok =>
    if canSend s then some { s.goto t (.flushWait tok) with msgs := s.msgs ++ [.forceFlush tok] }
    else some (s.ret t tok .channelFull)
  | .flushWait tok =>
    match s.replies.find? (fun p => p.1 == tok) with
    | some p => some (s.ret t tok (.result p.2))
    | none => none
  | .shut0 tok =>
    let old := s.isShutdown
    let s := { s with isShutdown := true }
    if old then some (s.ret t tok .alreadyShutdown) else some { s.goto t (.shut1 tok) with winners := s.winners ++ [tok] }
  | .shut1 tok =>
    if canSend s then some { s.goto t (.shutWait tok) with msgs := s.msgs ++ [.shutdown tok] }
    else some (s.ret t tok .channelFull)
  | .shutWait tok =>
    match s.replies.find? (fun p => p.1 == tok) with
    | some p => some (s.goto t (.shutJoin tok p.2))
    | none => none
  | .shutJoin tok r =>
    match s.worker with
    | .done => some (s.ret t tok (.result r))
    | _ => none

/-- A wait for the worker's answer times out (or the worker has gone). span_processor.rs:577-579, 603-605 -/
def timeoutStep (s : State X) (t : Nat) : Option (State X) :=
  match s.threads t with
  | .flushWait tok => some (s.ret t tok .timeout)
  | .shutWait tok => some (s.ret t tok .timeout)
  | _ => none

/-- The worker receives a message. span_processor.rs:337-390 -/
def takeStep (s : State X) : Option (State X) :=
  match s.worker, s.msgs with
  | .idle, m :: ms =>
    let s := { s with msgs := ms }
    match m with
    | .exportSpan => some { s with worker := .reset }
    | .forceFlush tok => some { s with worker := .drain [] (.flush tok) }
    | .shutdown tok => some { s with worker := .drain [] (.shut tok) }
    | .setResource r => some { s with resource := some r }
  | _, _ => none

/-- The worker's timer expires. span_processor.rs:391-405 -/
def timerStep (s : State X) : Option (State X) :=
  match s.worker with
  | .idle => some { s with worker := .drain [] .loop }
  | _ => none

/-- One step of the worker. span_processor.rs:338-390, 452-512 -/
def workStep (cfg : Cfg) (s : State X) (ok : Bool) : Option (State X) :=
  match s.worker with
  | .idle => none
  | .reset => some { s with exportSpanMessageSent := false, worker := .drain [] .loop }
  | .drain buf k =>
    match s.queue with
    | [] => some { s with worker := .export buf k }
    | x :: q =>
      let buf := buf ++ [x]
      if buf.length = cfg.maxBatch then some { s with queue := q, worker := .export buf k }
      else some { s with queue := q, worker := .drain buf k }
  | .export buf k =>
    if buf.isEmpty then some { s with worker := .sub 0 .ok k }
    else some { s with exported := s.exported ++ [buf], labels := s.labels ++ [s.resource], worker := .sub buf.length (if ok then .ok else .failed) k }
  | .sub n r k =>
    let s := { s with currentBatchSize := s.currentBatchSize - BitVec.ofNat 64 n }
    match k with
    | .loop => some { s with worker := .idle }
    | k => some { s with worker := .reply r k }
  | .reply r k =>
    match k with
    | .loop => none
    | .flush tok => some { s with replies := s.replies ++ [(tok, r)], worker := .idle }
    | .shut tok => some { s with replies := s.replies ++ [(tok, r)], worker := .exiting }
  | .exiting => some { s with worker := .done }
  | .done => none

/-- `set_resource`: one `try_send`, whose result is ignored. span_processor.rs:618-623 -/
def setResourceStep (s : State X) (r : Nat) : State X :=
  if canSend s then { s with msgs := s.msgs ++ [.setResource r] } else s

/-- One step of the system. -/
def step (cfg : Cfg) (s : State X) : Action X → Option (State X)
  | .call t c => callStep s t c
  | .thread t => threadStep cfg s t
  | .timeout t => timeoutStep s t
  | .take => takeStep s
  | .timer => timerStep s
  | .work ok => workStep cfg s ok
  | .setResource r => some (setResourceStep s r)

/-- Reachable states: every schedule, of any length. -/
inductive Reachable (cfg : Cfg) : State X → Prop
  | init : Reachable cfg State.init
  | step {s s' a} : Reachable cfg s → step cfg s a = some s' → Reachable cfg s'

/-- `s'` is reached from `s` by some schedule. -/
inductive Later (cfg : Cfg) (s : State X) : State X → Prop
  | refl : Later cfg s s
  | step {s1 s2 a} : Later cfg s s1 → step cfg s1 a = some s2 → Later cfg s s2

/-- A concrete schedule, for examples. -/
def runAll (cfg : Cfg) (s : State X) : List (Action X) → Option (State X)
  | [] => some s
  | a :: as => match step cfg s a with
    | some s' => runAll cfg s' as
    | none => none

end Otel.Sdk.Bsp
