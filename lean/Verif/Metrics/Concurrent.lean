import Verif.Metrics.ValueMapSpec
/-!
# Measurements and collections at the same time (`opentelemetry-sdk/src/metrics/internal/mod.rs`)

Any number of threads call `ValueMap::measure` while a collector calls `collect_and_reset` (delta) or `collect_readonly`
(cumulative); a reader runs one collection at a time (the pipeline's mutex).

A step is: an atomic access to the flag or to the tracker without attributes; a lookup under the read lock, after which the lock stays
taken; an update of the tracker found (atomic: `fetch_add`, the compare-exchange loop of `Metrics/AtomicFloat.lean`, or a mutex) and
the release; a section under the write lock, which can be entered only when nobody holds the read lock; reading one tracker in the
collector's loop. Steps interleave arbitrarily (sequentially consistent; the code pairs `Release` with `Acquire` on the flag).
Locks are not poisoned.
-/

namespace Otel.Metrics.Conc

variable {K V : Type} [LinearOrder K] [DecidableEq V] {A X : Type}

/-- The parameters of a store. -/
structure Cfg (K V A X : Type) [LinearOrder K] where
  srt : Sorter K V
  agg : Aggregator A X
  limit : Nat
  overflow : K × V
  delta : Bool

/-- Where a thread is in `measure`. mod.rs:103-156 -/
inductive MPc (K V X : Type) where
  | idle
  /-- called without attributes -/
  | noAttr (x : X)
  /-- updated the tracker without attributes, has not set the flag -/
  | noFlag (x : X)
  /-- called with attributes -/
  | lookup (x : X) (a : Attrs K V)
  /-- holds the read lock and has found the tracker `p` -/
  | found (x : X) (a : Attrs K V) (p : Nat)
  /-- found nothing, released the read lock -/
  | write (x : X) (a : Attrs K V)

/-- Where the collector is. mod.rs:160-213 -/
inductive CPc (K V : Type) where
  | idle
  /-- about to `swap` or `load` the flag -/
  | flag
  /-- the flag was set: about to take or read the tracker without attributes -/
  | takeNo
  /-- about to lock the map -/
  | lock
  /-- in the loop over the trackers -/
  | walk (rest : List (Attrs K V × Nat)) (seen : List Nat)

/-- Ghost: what is known about a collection. -/
structure Collection (K V A X : Type) where
  /-- the points reported -/
  points : List (Attrs K V × A)
  /-- the measurements in the point without attributes, if it was reported -/
  noVals : Option (List (Nat × X))
  /-- delta: the measurements with attributes taken out of the store -/
  period : Hist K V X
  /-- what was in the store when the collection began -/
  startHist : Hist K V X
  startNo : List (Nat × X)
  /-- and when it ended -/
  endHist : Hist K V X

/-- The store (its fields for measurements without attributes are kept apart, in `flag` and `noTracker`), the holders of the read
lock (`none` is the collector), the threads, the collector and its output vector. The rest is ghost: `hist` and `noHist`, the
measurements in the store; `applied` and `returned`, all measurements that updated a tracker and all whose call returned; the
collections. -/
structure State (K V A X : Type) where
  map : ValueMap K V A
  flag : Bool
  noTracker : A
  readers : List (Option Nat)
  pc : Nat → MPc K V X
  coll : CPc K V
  dest : List (Attrs K V × A)
  hist : Hist K V X
  noHist : List (Nat × X)
  applied : List (Nat × X × Attrs K V)
  returned : List (Nat × X × Attrs K V)
  cur : Collection K V A X
  done : List (Collection K V A X)

/-- Nothing collected yet. -/
def Collection.empty : Collection K V A X := ⟨[], none, [], [], [], []⟩

/-- `ValueMap::new`. mod.rs:80-90 -/
def State.init (cfg : Cfg K V A X) : State K V A X :=
  ⟨ValueMap.new cfg.agg, false, cfg.agg.create, [], fun _ => .idle, .idle, [], [], [], [], [], .empty, []⟩

/-- What can happen. `it` is the order of iteration of the map, used when the collector locks it. -/
inductive Action (K V X : Type) where
  | call (t : Nat) (x : X) (a : Attrs K V)
  | thread (t : Nat)
  | collect
  | collector (it : List (Attrs K V × Nat))

/-- Write one thread's position. -/
def setPc (pc : Nat → MPc K V X) (t : Nat) (v : MPc K V X) : Nat → MPc K V X := fun u => if u = t then v else pc u

/-- The tracker for some attributes, in the given or in sorted order. mod.rs:113-124 -/
def lookupTracker (srt : Sorter K V) (m : ValueMap K V A) (a : Attrs K V) : Option Nat :=
  match m.get a with
  | some p => some p
  | none => m.get (sortAndDedup srt a)

/-- A step of a thread inside `measure`. mod.rs:103-156 -/
def threadStep (cfg : Cfg K V A X) (s : State K V A X) (t : Nat) : Option (State K V A X) :=
  match s.pc t with
  | .idle => none
  | .noAttr x => some { s with
      noTracker := cfg.agg.update s.noTracker x, noHist := s.noHist ++ [(t, x)], applied := s.applied ++ [(t, x, [])]
      pc := setPc s.pc t (.noFlag x) }
  | .noFlag x => some { s with flag := true, returned := s.returned ++ [(t, x, [])], pc := setPc s.pc t .idle }
  | .lookup x a => match lookupTracker cfg.srt s.map a with
    | some p => some { s with readers := some t :: s.readers, pc := setPc s.pc t (.found x a p) }
    | none => some { s with pc := setPc s.pc t (.write x a) }
  | .found x a p => some { s with
      map := s.map.updateAt cfg.agg p x, readers := s.readers.erase (some t), hist := s.hist ++ [(x, a)]
      applied := s.applied ++ [(t, x, a)], returned := s.returned ++ [(t, x, a)], pc := setPc s.pc t .idle }
  | .write x a =>
    if s.readers = [] then some { s with
      map := s.map.measureWrite cfg.srt cfg.agg cfg.limit [cfg.overflow] x a, hist := s.hist ++ [(x, a)]
      applied := s.applied ++ [(t, x, a)], returned := s.returned ++ [(t, x, a)], pc := setPc s.pc t .idle }
    else none

/-- A step of the collector. mod.rs:160-213. The tracker of a drained entry is dropped after it was read, so resetting it is not
modelled. -/
def collectorStep (cfg : Cfg K V A X) (s : State K V A X) (it : List (Attrs K V × Nat)) : Option (State K V A X) :=
  match s.coll with
  | .idle => none
  | .flag =>
    if s.flag then some { s with flag := !cfg.delta, coll := .takeNo } else some { s with coll := .lock }
  | .takeNo => some { s with
      dest := s.dest ++ [([], s.noTracker)], noTracker := if cfg.delta then cfg.agg.create else s.noTracker
      cur := { s.cur with noVals := some s.noHist }, noHist := if cfg.delta then [] else s.noHist, coll := .lock }
  | .lock =>
    if it.isPerm s.map.trackers then
      if cfg.delta then
        if s.readers = [] then some { s with
          map := { s.map with trackers := [], count := 0 }, cur := { s.cur with period := s.hist }, hist := [], coll := .walk it [] }
        else none
      else some { s with readers := none :: s.readers, coll := .walk it [] }
    else none
  | .walk [] _ => some { s with
      readers := if cfg.delta then s.readers else s.readers.erase none
      done := s.done ++ [{ s.cur with points := s.dest, endHist := s.hist }], cur := .empty, dest := [], coll := .idle }
  | .walk (e :: rest) seen =>
    if e.2 ∈ seen then some { s with coll := .walk rest seen }
    else some { s with dest := s.dest ++ [(e.1, s.map.heap e.2)], coll := .walk rest (e.2 :: seen) }

/-- One step. -/
def step (cfg : Cfg K V A X) (s : State K V A X) : Action K V X → Option (State K V A X)
  | .call t x a => match s.pc t with
    | .idle => some { s with pc := setPc s.pc t (if a = [] then .noAttr x else .lookup x a) }
    | _ => none
  | .thread t => threadStep cfg s t
  | .collect => match s.coll with
    | .idle => some { s with coll := .flag, cur := { (Collection.empty : Collection K V A X) with startHist := s.hist, startNo := s.noHist } }
    | _ => none
  | .collector it => collectorStep cfg s it

/-- The states that some schedule leads to. -/
inductive Reachable (cfg : Cfg K V A X) : State K V A X → Prop
  | init : Reachable cfg (State.init cfg)
  | step {s s'} (h : Reachable cfg s) (a : Action K V X) (hs : step cfg s a = some s') : Reachable cfg s'

/-- Run a schedule. -/
def runAll (cfg : Cfg K V A X) (s : State K V A X) : List (Action K V X) → Option (State K V A X)
  | [] => some s
  | a :: as => match step cfg s a with
    | some s' => runAll cfg s' as
    | none => none

theorem reachable_runAll {cfg : Cfg K V A X} {s : State K V A X} (h : Reachable cfg s) (as : List (Action K V X)) {s' : State K V A X}
    (hr : runAll cfg s as = some s') : Reachable cfg s' := by
  induction as generalizing s with
  | nil => injection hr with hr; exact hr ▸ h
  | cons a as ih =>
    simp only [runAll] at hr
    split at hr
    · rename_i s1 h1; exact ih (h.step a h1) hr
    · cases hr

end Otel.Metrics.Conc
