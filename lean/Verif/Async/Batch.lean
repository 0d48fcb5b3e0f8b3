/-!
# The batch processors that run on an async runtime

`opentelemetry-sdk/src/trace/span_processor_with_async_runtime.rs` (spans) and `opentelemetry-sdk/src/logs/log_processor_with_async_runtime.rs` (logs),
cited below as spans and logs. One bounded channel carries items and control messages to a task that buffers and exports. A transition system: any number
of threads call the processor, each call being one `try_send`; the task runs from one `await` to the next.

Simplifications: `X` is the type of spans (log records with their scope), `R` that of resources. The channel is tokio's: `try_send` fails when it holds
`maxQueue` messages or the receiver is gone, and a receiver that is dropped drops its messages (runtime.rs:186-199, 206-224). Time is a scheduler choice:
a tick may come whenever the task waits for messages, a running export may end in success, failure or the timeout at any moment. In the span processor an
export is awaited before the future put in `export_tasks` is made (spans:196, 245), so that these futures only log or send an answer and never wait; they
run in the step that makes them, whatever `max_concurrent_exports` is. A panic of the exporter, or a runtime that drops the task, is the action `die`.
Answers to callers: the wait on the one-shot channel has no timeout.
-/

namespace Otel.Async

/-- Which of the two processors. -/
inductive Kind where
  | span
  | log
deriving DecidableEq, Repr

/-- `BatchConfig`, without the times. -/
structure Cfg where
  kind : Kind
  maxQueue : Nat
  maxBatch : Nat

/-- Outcome of an export: `export_res`, or `Timeout`. spans:315-318, logs:252-255 -/
inductive Res where
  | ok
  | failed
  | timeout
deriving DecidableEq, Repr

/-- What `force_flush` or `shutdown` returns: the task's answer, or `InternalFailure` as the message could not be sent (full, closed) or the task went
away with the answer channel (canceled). spans:123-158, logs:79-109 -/
inductive Ret where
  | result (r : Res)
  | full
  | closed
  | canceled
deriving DecidableEq, Repr

/-- `BatchMessage`; a call is known by its number. spans:174-185, logs:29-39 -/
inductive Msg (X R : Type) where
  | item (x : X)
  | flush (tok : Nat)
  | shutdown (tok : Nat)
  | setResource (r : R)
deriving DecidableEq, Repr

/-- Why the task exports: a full buffer or a tick, or for a caller. -/
inductive Cont where
  | loop
  | flush (tok : Nat)
  | shut (tok : Nat)
deriving DecidableEq, Repr

/-- Where the task is. -/
inductive Worker where
  /-- waiting for a message: spans:328, logs:140 -/
  | idle
  /-- waiting for the exporter or the timeout: spans:315, logs:252 -/
  | exporting (k : Cont)
  /-- before `exporter.shutdown()`; the log processor answers after it: spans:290, logs:191 -/
  | stopping (ans : Option (Nat × Res × Option Nat))
  /-- out of the loop, before the receiver is dropped: spans:333, logs:199 -/
  | ending
  | done
deriving DecidableEq, Repr

/-- A returned call: its number, the result, and (ghost) which export was made for it, if any. -/
structure Answer where
  tok : Nat
  ret : Ret
  own : Option Nat
deriving DecidableEq, Repr

/-- The state. The fields from `accepted` on record the history. -/
structure State (X R : Type) where
  queue : List (Msg X R)
  worker : Worker
  /-- `spans`, `logs` -/
  buf : List X
  /-- the resource last given to the exporter -/
  resource : Option R
  /-- `dropped_spans_count`, `dropped_logs_count` -/
  dropped : Nat
  /-- threads between a refused `try_send` and their `fetch_add` -/
  counting : Nat
  nextTok : Nat
  /-- items put in the channel, oldest first -/
  accepted : List X
  /-- items refused -/
  refused : List X
  /-- spans that are not sampled -/
  unsampled : List X
  /-- batches handed to the exporter, oldest first, and the resource it had -/
  exported : List (List X × Option R)
  /-- how these exports ended -/
  outcomes : List Res
  /-- items that vanished with the task -/
  lost : List X
  returned : List Answer
  /-- per call: how many items had been accepted -/
  atCall : Nat → Nat
  /-- per call: was it `shutdown`? -/
  isShutdown : Nat → Bool
  /-- calls of `exporter.shutdown()` -/
  exporterShutdowns : Nat

/-- A processor just built by a provider, which gives it its resource at once. spans:345-381, 160-165; logs:111-116, 120-213;
provider.rs (trace) `TracerProviderBuilder::build`, logger_provider.rs `LoggerProviderBuilder::build` -/
def State.init {X R : Type} (r : R) : State X R where
  queue := [.setResource r]
  worker := .idle
  buf := []
  resource := none
  dropped := 0
  counting := 0
  nextTok := 0
  accepted := []
  refused := []
  unsampled := []
  exported := []
  outcomes := []
  lost := []
  returned := []
  atCall := fun _ => 0
  isShutdown := fun _ => false
  exporterShutdowns := 0

/-- Scheduler choices. -/
inductive Action (X : Type) where
  | emit (x : X)
  /-- a thread whose item was refused counts it -/
  | count
  | forceFlush
  | shutdown
  /-- the task takes the next message -/
  | recv
  /-- the ticker fires -/
  | tick
  /-- the export, or its timeout, ends -/
  | finish (r : Res)
  /-- `exporter.shutdown()` -/
  | stop
  /-- the task ends and drops the receiver -/
  | close
  /-- the task is dropped, or panics -/
  | die
deriving DecidableEq, Repr

variable {X R : Type}

/-- The items among messages. -/
def items : List (Msg X R) → List X
  | [] => []
  | .item x :: q => x :: items q
  | _ :: q => items q

/-- The calls among messages. -/
def tokens : List (Msg X R) → List Nat
  | [] => []
  | .flush t :: q => t :: tokens q
  | .shutdown t :: q => t :: tokens q
  | _ :: q => tokens q

/-- Outcome of `try_send`: `none` is success. runtime.rs:193-198 -/
def State.refuse (cfg : Cfg) (s : State X R) : Option Ret :=
  if s.worker = .done then some .closed
  else if s.queue.length < cfg.maxQueue then none
  else some .full

/-- `on_end` (spans:105-121) and `emit` (logs:62-77). `sampled` is `span.span_context.is_sampled()`. -/
def State.emit (cfg : Cfg) (sampled : X → Bool) (s : State X R) (x : X) : State X R :=
  if cfg.kind = .span ∧ sampled x = false then { s with unsampled := s.unsampled ++ [x] }
  else match s.refuse cfg with
    | none => { s with queue := s.queue ++ [.item x], accepted := s.accepted ++ [x] }
    | some _ => { s with counting := s.counting + 1, refused := s.refused ++ [x] }

/-- `force_flush` and `shutdown` up to the wait. spans:123-158, logs:79-109 -/
def State.call (cfg : Cfg) (s : State X R) (shut : Bool) : State X R :=
  let t := s.nextTok
  let s := { s with
    nextTok := t + 1
    atCall := fun u => if u = t then s.accepted.length else s.atCall u
    isShutdown := fun u => if u = t then shut else s.isShutdown u }
  match s.refuse cfg with
  | none => { s with queue := s.queue ++ [if shut then .shutdown t else .flush t] }
  | some e => { s with returned := s.returned ++ [⟨t, e, none⟩] }

/-- What follows an export with result `r`. Spans: `flush` (spans:195-224), then `Shutdown` (288-292), which answers before the exporter is shut down.
Logs: logs:163-200, which answer after it. -/
def State.after (cfg : Cfg) (s : State X R) (k : Cont) (r : Res) (own : Option Nat) : State X R :=
  match k with
  | .loop => { s with worker := .idle }
  | .flush t => { s with worker := .idle, returned := s.returned ++ [⟨t, .result r, own⟩] }
  | .shut t =>
    match cfg.kind with
    | .span => { s with worker := .stopping none, returned := s.returned ++ [⟨t, .result r, own⟩] }
    | .log => { s with worker := .stopping (some (t, r, own)) }

/-- `export`: nothing to do for an empty buffer, else all of it is handed to the exporter. spans:301-311, logs:229-249 -/
def State.export (cfg : Cfg) (s : State X R) (k : Cont) : State X R :=
  if s.buf.isEmpty then s.after cfg k .ok none
  else { s with exported := s.exported ++ [(s.buf, s.resource)], buf := [], worker := .exporting k }

/-- `process_message`. spans:231-299, logs:140-206 -/
def State.process (cfg : Cfg) (s : State X R) : Msg X R → State X R
  | .item x =>
    let s := { s with buf := s.buf ++ [x] }
    if s.buf.length = cfg.maxBatch then s.export cfg .loop else s
  | .flush t => s.export cfg (.flush t)
  | .shutdown t => s.export cfg (.shut t)
  | .setResource r => { s with resource := some r }

/-- The task ends: its receiver is dropped, with the messages in it, so that the callers among them wake up. -/
def State.drop (s : State X R) : State X R :=
  { s with
    worker := .done
    lost := s.lost ++ s.buf ++ items s.queue
    buf := []
    returned := s.returned ++ (tokens s.queue).map fun t => ⟨t, .canceled, none⟩
    queue := [] }

/-- The call the task is working for. -/
def Worker.serving : Worker → List Nat
  | .exporting (.flush t) => [t]
  | .exporting (.shut t) => [t]
  | .stopping (some (t, _, _)) => [t]
  | _ => []

/-- One step. -/
def step (cfg : Cfg) (sampled : X → Bool) (s : State X R) : Action X → Option (State X R)
  | .emit x => some (s.emit cfg sampled x)
  | .count => if s.counting = 0 then none else some { s with counting := s.counting - 1, dropped := s.dropped + 1 }
  | .forceFlush => some (s.call cfg false)
  | .shutdown => some (s.call cfg true)
  | .recv => match s.worker, s.queue with
    | .idle, m :: q => some ({ s with queue := q }.process cfg m)
    | _, _ => none
  | .tick => match s.worker with
    | .idle => some (s.export cfg .loop)
    | _ => none
  | .finish r => match s.worker with
    | .exporting k => some ({ s with outcomes := s.outcomes ++ [r] }.after cfg k r (some s.outcomes.length))
    | _ => none
  | .stop => match s.worker with
    | .stopping none => some { s with worker := .ending, exporterShutdowns := s.exporterShutdowns + 1 }
    | .stopping (some (t, r, own)) => some { s with
        worker := .ending, exporterShutdowns := s.exporterShutdowns + 1, returned := s.returned ++ [⟨t, .result r, own⟩] }
    | _ => none
  | .close => match s.worker with
    | .ending => some s.drop
    | _ => none
  | .die => match s.worker with
    | .done => none
    | w => some ({ s with returned := s.returned ++ w.serving.map fun t => (⟨t, .canceled, none⟩ : Answer) } : State X R).drop

/-- Reachable states: every schedule, of any length. -/
inductive Reachable (cfg : Cfg) (sampled : X → Bool) (r : R) : State X R → Prop
  | init : Reachable cfg sampled r (.init r)
  | step {s s' a} : Reachable cfg sampled r s → step cfg sampled s a = some s' → Reachable cfg sampled r s'

/-- `s'` is reached from `s` by the schedule `as`. -/
def runAll (cfg : Cfg) (sampled : X → Bool) (s : State X R) : List (Action X) → Option (State X R)
  | [] => some s
  | a :: as => match step cfg sampled s a with
    | some s' => runAll cfg sampled s' as
    | none => none

end Otel.Async
