/-!
# The periodic reader (`opentelemetry-sdk/src/metrics/periodic_reader.rs`), C48

A transition system: any number of application threads, each inside one call, and the worker thread. Measurements are numbered in
the order in which they are recorded; a collection covers a range of them: everything so far for a cumulative reader, everything
since the last collection for a delta reader.

Simplifications: one measurement and one collection are each one step (their inner interleaving is the subject of
`Metrics/Concurrent.lean`); a batch is empty exactly if its range is; every call of the exporter returns; the worker was started;
panics are left out. Ghost fields record the history.
-/

namespace Otel.Metrics.Periodic

/-- The exporter's temporality. -/
inductive Temp where
  | cumulative
  | delta
deriving DecidableEq, Repr

/-- `Message`; the response channel is named by a token. periodic_reader.rs:474-478 -/
inductive Msg where
  | flush (tok : Nat)
  | shutdown (tok : Nat)
deriving DecidableEq, Repr

/-- The token of a message. -/
def Msg.tok : Msg → Nat
  | .flush tok => tok
  | .shutdown tok => tok

/-- Why the worker collects. -/
inductive Cont where
  | timer
  | flush (tok : Nat)
  | shut (tok : Nat)
deriving DecidableEq, Repr

/-- What a call returns. -/
inductive Ret where
  | ok
  | failed
  | timeout
deriving DecidableEq, Repr

/-- Where the worker is. -/
inductive Worker where
  /-- `recv_timeout` (173) -/
  | idle
  /-- `collect` (383) -/
  | collecting (k : Cont)
  /-- an observable callback called `force_flush` on this reader: the worker waits for its own answer -/
  | selfWait (tok : Nat) (k : Cont)
  /-- `exporter.export` (409) -/
  | exporting (lo hi : Nat) (k : Cont)
  /-- `exporter.shutdown` (240); `ok`: the export before it succeeded -/
  | closing (tok : Nat) (ok : Bool)
  /-- the answer (196-211, 254-269) -/
  | reply (k : Cont) (ok : Bool)
  /-- `break` (276): the thread ends, the receiver is dropped -/
  | exiting
  | done
deriving DecidableEq, Repr

/-- Where an application thread is. -/
inductive Pc where
  | idle
  /-- `force_flush`: send (427-429) -/
  | flush0 (tok : Nat)
  /-- `recv` (431) -/
  | flushWait (tok : Nat)
  /-- `shutdown`: send (446-448) -/
  | shut0 (tok : Nat)
  /-- `recv_timeout` (451) -/
  | shutWait (tok : Nat)
deriving DecidableEq, Repr

/-- What the exporter sees. -/
inductive Ev where
  | export (lo hi : Nat) (ok : Bool)
  | shutdown
deriving DecidableEq, Repr

/-- The state; ghosts last. -/
structure State where
  /-- how many measurements have been recorded -/
  recorded : Nat
  /-- delta: how many have been collected -/
  collected : Nat
  msgs : List Msg
  worker : Worker
  /-- answers sent -/
  replies : List (Nat × Bool)
  /-- tokens whose response sender was dropped without an answer -/
  lost : List Nat
  threads : Nat → Pc
  nextTok : Nat
  /-- the exporter's history, oldest first -/
  log : List Ev
  /-- per token: how many measurements had been recorded when the call was made -/
  atCall : Nat → Nat
  /-- per token: was it a `force_flush` call? -/
  isFlush : Nat → Bool
  /-- results of calls -/
  returned : List (Nat × Ret)

/-- A new reader. periodic_reader.rs:144-157 -/
def State.init : State where
  recorded := 0
  collected := 0
  msgs := []
  worker := .idle
  replies := []
  lost := []
  threads := fun _ => .idle
  nextTok := 0
  log := []
  atCall := fun _ => 0
  isFlush := fun _ => false
  returned := []

/-- Scheduler choices. -/
inductive Action where
  /-- a measurement is recorded -/
  | record
  | flush (t : Nat)
  | shutdown (t : Nat)
  | thread (t : Nat)
  /-- the wait of a `shutdown` call times out -/
  | timeout (t : Nat)
  /-- the worker receives a message -/
  | take
  /-- the worker's wait times out -/
  | timer
  /-- the worker's next step; `ok` is the answer of the pipeline or the exporter -/
  | work (ok : Bool)
  /-- an observable callback run by the worker calls `force_flush` -/
  | callbackFlush
deriving DecidableEq, Repr

/-- Function update. -/
def set {Y : Type} (f : Nat → Y) (i : Nat) (y : Y) : Nat → Y := fun j => if j = i then y else f j

/-- Set the program counter of a thread. -/
def State.goto (s : State) (t : Nat) (pc : Pc) : State := { s with threads := set s.threads t pc }

/-- A call returns. -/
def State.ret (s : State) (t tok : Nat) (r : Ret) : State := { s.goto t .idle with returned := s.returned ++ [(tok, r)] }

/-- The receiver lives as long as the worker. -/
def Worker.alive : Worker → Bool
  | .done => false
  | _ => true

/-- A call begins. -/
def callStep (s : State) (t : Nat) (isFlush : Bool) (pc : Nat → Pc) : Option State :=
  match s.threads t with
  | .idle => some { s.goto t (pc s.nextTok) with
      nextTok := s.nextTok + 1, atCall := set s.atCall s.nextTok s.recorded, isFlush := set s.isFlush s.nextTok isFlush }
  | _ => none

/-- The answer for a waiting caller: what was sent, an error if the sender is gone, nothing yet otherwise. 431-439, 451-468 -/
def answerFor (s : State) (tok : Nat) : Option Ret :=
  match s.replies.find? (fun p => p.1 == tok) with
  | some p => some (if p.2 then .ok else .failed)
  | none => if tok ∈ s.lost then some .failed else none

/-- One step of an application thread. `force_flush`: 412-440, `shutdown`: 442-470 -/
def threadStep (s : State) (t : Nat) : Option State :=
  match s.threads t with
  | .idle => none
  | .flush0 tok =>
    if s.worker.alive then some { s.goto t (.flushWait tok) with msgs := s.msgs ++ [.flush tok] } else some (s.ret t tok .failed)
  | .flushWait tok => (answerFor s tok).map (s.ret t tok)
  | .shut0 tok =>
    if s.worker.alive then some { s.goto t (.shutWait tok) with msgs := s.msgs ++ [.shutdown tok] } else some (s.ret t tok .failed)
  | .shutWait tok => (answerFor s tok).map (s.ret t tok)

/-- The wait of a `shutdown` call times out; `force_flush` waits without limit. 431, 451, 460-462 -/
def timeoutStep (s : State) (t : Nat) : Option State :=
  match s.threads t with
  | .shutWait tok => some (s.ret t tok .timeout)
  | _ => none

/-- The worker receives a message. 173-239 -/
def takeStep (s : State) : Option State :=
  match s.worker, s.msgs with
  | .idle, .flush tok :: ms => some { s with msgs := ms, worker := .collecting (.flush tok) }
  | .idle, .shutdown tok :: ms => some { s with msgs := ms, worker := .collecting (.shut tok) }
  | _, _ => none

/-- The wait times out; a message that is there is received first. 278-290 -/
def timerStep (s : State) : Option State :=
  match s.worker, s.msgs with
  | .idle, [] => some { s with worker := .collecting .timer }
  | _, _ => none

/-- What follows `collect_and_export`. 174-311 -/
def afterExport (k : Cont) (ok : Bool) : Worker :=
  match k with
  | .timer => .idle
  | .flush tok => .reply (.flush tok) ok
  | .shut tok => .closing tok ok

/-- The first measurement a collection covers. -/
def lower (temp : Temp) (s : State) : Nat :=
  match temp with
  | .cumulative => 0
  | .delta => s.collected

/-- One step of the worker. `collect_and_export`: 374-410, the loop: 171-319 -/
def workStep (temp : Temp) (s : State) (ok : Bool) : Option State :=
  match s.worker with
  | .idle => none
  | .collecting k =>
    if ok then
      if lower temp s = s.recorded then some { s with worker := afterExport k true }
      else some { s with collected := s.recorded, worker := .exporting (lower temp s) s.recorded k }
    else some { s with worker := afterExport k false }
  | .selfWait tok k =>
    match answerFor s tok with
    | some _ => some { s with worker := .collecting k }
    | none => none
  | .exporting lo hi k => some { s with log := s.log ++ [.export lo hi ok], worker := afterExport k ok }
  | .closing tok r => some { s with log := s.log ++ [.shutdown], worker := .reply (.shut tok) (r && ok) }
  | .reply k r =>
    match k with
    | .timer => none
    | .flush tok => some { s with replies := s.replies ++ [(tok, r)], worker := .idle }
    | .shut tok => some { s with replies := s.replies ++ [(tok, r)], worker := .exiting }
  | .exiting => some { s with worker := .done, lost := s.lost ++ s.msgs.map Msg.tok, msgs := [] }
  | .done => none

/-- A callback run during a collection calls `force_flush`: it sends the message and waits on the worker's own thread. 412-439 -/
def callbackFlushStep (s : State) : Option State :=
  match s.worker with
  | .collecting k => some { s with
      worker := .selfWait s.nextTok k, msgs := s.msgs ++ [.flush s.nextTok], nextTok := s.nextTok + 1,
      atCall := set s.atCall s.nextTok s.recorded, isFlush := set s.isFlush s.nextTok true }
  | _ => none

/-- One step of the system. -/
def step (temp : Temp) (s : State) : Action → Option State
  | .record => some { s with recorded := s.recorded + 1 }
  | .flush t => callStep s t true .flush0
  | .shutdown t => callStep s t false .shut0
  | .thread t => threadStep s t
  | .timeout t => timeoutStep s t
  | .take => takeStep s
  | .timer => timerStep s
  | .work ok => workStep temp s ok
  | .callbackFlush => callbackFlushStep s

/-- Every state of every schedule. -/
inductive Reachable (temp : Temp) : State → Prop
  | init : Reachable temp State.init
  | step {s s' a} : Reachable temp s → step temp s a = some s' → Reachable temp s'

/-- `s'` comes after `s`. -/
inductive Later (temp : Temp) (s : State) : State → Prop
  | refl : Later temp s s
  | step {s1 s2 a} : Later temp s s1 → step temp s1 a = some s2 → Later temp s s2

/-- Run a schedule. -/
def runAll (temp : Temp) (s : State) : List Action → Option State
  | [] => some s
  | a :: as => match step temp s a with
    | some s1 => runAll temp s1 as
    | none => none

end Otel.Metrics.Periodic
