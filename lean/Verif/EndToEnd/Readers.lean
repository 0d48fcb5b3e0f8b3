import Mathlib.Logic.Function.Basic
import Verif.EndToEnd.Flush
/-!
# Several readers (C111)

A meter provider with any number of periodic readers: a measurement is handed to one reader after the other, each with its own view, store, temporality, worker thread, exporter
and collector; `force_flush` and `shutdown` of the provider ask one reader after the other. opentelemetry-sdk/src/metrics/{instrument,pipeline,meter_provider}.rs.

Simplifications: those of `Flush.lean`; the instrument has one stream per reader (C47 tells when); the measures are called in the order of the readers.
-/

set_option linter.unusedSectionVars false

namespace Otel.EndToEnd.Readers
open Otel.Otlp Otel.Metrics
open Common (Val Scope)
open Flush (Runs All OfThread OfCaller Succeeded before)
open Periodic (Cont Ret)

/-- What a reader is made of: its store, how it reports, its exporter; `keep` is what its view leaves of the attributes
(opentelemetry-sdk/src/metrics/internal/aggregate.rs:68-81). -/
structure Way (K V A X Y : Type) [LinearOrder K] where
  cc : Conc.Cfg K V A X
  st : Style K A
  val : V → Val
  dflt : Scope K
  res : ResVal K
  ci : CounterId K
  c : Exporter.Cfg Unit (Batch K) (PRequest K (PMetric K)) Y
  t0 : Nat
  keep : Attrs K V → Attrs K V

variable {K V A X Y : Type} [LinearOrder K] [DecidableEq V]

/-- A new reader. -/
def Way.init (d : Way K V A X Y) : All K V A X Y := ⟨.init d.cc, d.t0, ⟨true, ()⟩, [], .init⟩

/-- The system of C104 with this reader alone. -/
def Way.Run (d : Way K V A X Y) (q : All K V A X Y) : Prop := Runs d.cc d.st d.val d.dflt d.res d.ci d.c d.t0 q.s q.t q.e q.log q.p

/-- What the reader does by itself, and its callers with it: the steps of C104 but for measurements. -/
inductive Moves (d : Way K V A X Y) (q : All K V A X Y) : All K V A X Y → Prop
  | caller {p'} (a : Periodic.Action) : OfCaller a → Periodic.step .cumulative q.p a = some p' → Moves d q { q with p := p' }
  | begin {s'} (k : Cont) : q.p.worker = .collecting k → Conc.step d.cc q.s .collect = some s' → Moves d q { q with s := s' }
  | refuse (k : Cont) : q.p.worker = .collecting k → q.s.coll = .idle → Moves d q { q with p := { q.p with worker := Periodic.afterExport k false } }
  | walk {s'} (k : Cont) (it : List (Attrs K V × Nat)) : q.p.worker = .collecting k → Conc.step d.cc q.s (.collector it) = some s' → s'.done = q.s.done → Moves d q { q with s := s' }
  | nothing {s'} (k : Cont) (it : List (Attrs K V × Nat)) (r : Conc.Collection K V A X) (o : Around K) : q.p.worker = .collecting k →
      Conc.step d.cc q.s (.collector it) = some s' → s'.done = q.s.done ++ [r] → o.Distinct d.ci → (timesOf d.cc.delta q.t o.now).1.1 = o.start →
      (gathered d.st d.cc.delta d.val d.dflt d.res d.ci o r.points).scopeMetrics = [] →
      Moves d q { q with s := s', t := (timesOf d.cc.delta q.t o.now).2, p := { q.p with worker := Periodic.afterExport k true } }
  | export {s'} (k : Cont) (it : List (Attrs K V × Nat)) (r : Conc.Collection K V A X) (o : Around K) (w : Exporter.World) : q.p.worker = .collecting k →
      Conc.step d.cc q.s (.collector it) = some s' → s'.done = q.s.done ++ [r] → o.Distinct d.ci → (timesOf d.cc.delta q.t o.now).1.1 = o.start →
      (gathered d.st d.cc.delta d.val d.dflt d.res d.ci o r.points).scopeMetrics ≠ [] →
      Moves d q { q with
        s := s', t := (timesOf d.cc.delta q.t o.now).2
        log := q.log ++ [⟨w, (Exporter.doExport d.c q.e (gathered d.st d.cc.delta d.val d.dflt d.res d.ci o r.points) w).1,
          (Exporter.doExport d.c q.e (gathered d.st d.cc.delta d.val d.dflt d.res d.ci o r.points) w).2⟩]
        p := { q.p with worker := Periodic.afterExport k (decide ((Exporter.doExport d.c q.e (gathered d.st d.cc.delta d.val d.dflt d.res d.ci o r.points) w).1 = .ok)) } }
  | close {p'} (tok : Nat) (ok : Bool) : q.p.worker = .closing tok ok → Periodic.step .cumulative q.p (.work (decide ((Exporter.shutdown d.c q.e).1 = .ok))) = some p' →
      Moves d q { q with e := (Exporter.shutdown d.c q.e).2, p := p' }
  | answer {p'} : (∃ k ok, q.p.worker = .reply k ok) ∨ q.p.worker = .exiting → Periodic.step .cumulative q.p (.work true) = some p' → Moves d q { q with p := p' }

/-- A call of the instrument that has not returned: what is measured, the readers it is still to be handed to, and the one that is taking it. -/
structure Frame (I K V X : Type) where
  x : X
  a : Attrs K V
  rest : List I
  inside : Option I

/-- A call of `force_flush` or `shutdown` of the provider that has not returned: the readers still to be asked, the one that has been asked and the token of the call, and
whether all have answered `Ok`. Ghost: the measurements whose calls had returned when it was called; the answers with the readers and the tokens. -/
structure Asking (I K V X : Type) where
  isFlush : Bool
  rest : List I
  waiting : Option (I × Nat)
  ok : Bool
  start : List (Nat × X × Attrs K V)
  answers : List (I × Nat × Ret)

/-- What came of such a call: ghosts as before; `asked` tells if the readers were asked. -/
structure Outcome (I K V X : Type) where
  start : List (Nat × X × Attrs K V)
  asked : Bool
  answers : List (I × Nat × Ret)
  ok : Bool

variable {I : Type} [DecidableEq I] {B Z : I → Type}

/-- The readers, the calls that have not returned with their threads, the provider's flag. Ghost: all measurements begun and those whose calls have returned; the results of
the provider's `force_flush` and `shutdown`. -/
structure Sys (I K V X : Type) (B Z : I → Type) where
  side : (i : I) → All K V (B i) X (Z i)
  frames : List (Nat × Frame I K V X)
  begun : List (Nat × X × Attrs K V)
  finished : List (Nat × X × Attrs K V)
  asking : List (Nat × Asking I K V X)
  invoked : Bool
  results : List (Outcome I K V X)

/-- Replace the state of one reader. -/
def Sys.with (g : Sys I K V X B Z) (i : I) (q : All K V (B i) X (Z i)) : Sys I K V X B Z := { g with side := Function.update g.side i q }

/-- A store after a step of a measurement. -/
def took (q : All K V A X Y) (s' : Conc.State K V A X) : All K V A X Y := { q with s := s', p := { q.p with recorded := s'.returned.length } }

/-- Every schedule. -/
inductive Reach (d : (i : I) → Way K V (B i) X (Z i)) (order : List I) : Sys I K V X B Z → Prop
  | init : Reach d order ⟨fun i => (d i).init, [], [], [], [], false, []⟩
  /-- a thread calls the instrument -/
  | call {g} (t : Nat) (x : X) (a : Attrs K V) : Reach d order g → t ∉ g.frames.map Prod.fst →
      Reach d order { g with frames := (t, ⟨x, a, order, none⟩) :: g.frames, begun := g.begun ++ [(t, x, a)] }
  /-- `for measure in &self.measures { measure.call(val, attrs) }`: the next reader. instrument.rs:294-300 -/
  | enter {g} (t : Nat) (f : Frame I K V X) (i : I) (rest : List I) (l1 l2 : List (Nat × Frame I K V X)) (s' : Conc.State K V (B i) X) : Reach d order g →
      g.frames = l1 ++ (t, f) :: l2 → f.inside = none → f.rest = i :: rest → Conc.step (d i).cc (g.side i).s (.call t f.x ((d i).keep f.a)) = some s' →
      Reach d order { g.with i (took (g.side i) s') with frames := l1 ++ (t, { f with rest := rest, inside := some i }) :: l2 }
  /-- a step inside a store -/
  | inner {g} (t : Nat) (f : Frame I K V X) (i : I) (s' : Conc.State K V (B i) X) : Reach d order g → (t, f) ∈ g.frames → f.inside = some i →
      Conc.step (d i).cc (g.side i).s (.thread t) = some s' → s'.pc t ≠ .idle → Reach d order (g.with i (took (g.side i) s'))
  /-- the last one -/
  | leave {g} (t : Nat) (f : Frame I K V X) (i : I) (l1 l2 : List (Nat × Frame I K V X)) (s' : Conc.State K V (B i) X) : Reach d order g →
      g.frames = l1 ++ (t, f) :: l2 → f.inside = some i → Conc.step (d i).cc (g.side i).s (.thread t) = some s' → s'.pc t = .idle →
      Reach d order { g.with i (took (g.side i) s') with frames := l1 ++ (t, { f with inside := none }) :: l2 }
  /-- the call returns -/
  | ret {g} (t : Nat) (f : Frame I K V X) (l1 l2 : List (Nat × Frame I K V X)) : Reach d order g → g.frames = l1 ++ (t, f) :: l2 → f.inside = none → f.rest = [] →
      Reach d order { g with frames := l1 ++ l2, finished := g.finished ++ [(t, f.x, f.a)] }
  /-- a reader does something by itself -/
  | own {g} (i : I) (q : All K V (B i) X (Z i)) : Reach d order g → Moves (d i) (g.side i) q → Reach d order (g.with i q)
  /-- a thread calls `force_flush` or `shutdown` of the provider, which has not been shut down. meter_provider.rs:127-148 -/
  | flush {g} (u : Nat) (isFlush : Bool) : Reach d order g → u ∉ g.asking.map Prod.fst → g.invoked = false →
      Reach d order { g with asking := (u, ⟨isFlush, order, none, true, g.finished, []⟩) :: g.asking, invoked := !isFlush }
  /-- or which has. meter_provider.rs:132, 144 -/
  | late {g} : Reach d order g → g.invoked = true → Reach d order { g with results := g.results ++ [⟨g.finished, false, [], false⟩] }
  /-- the next reader is asked. pipeline.rs:667-674, 683-690 -/
  | ask {g} (u : Nat) (f : Asking I K V X) (i : I) (rest : List I) (l1 l2 : List (Nat × Asking I K V X)) (p' : Periodic.State) : Reach d order g →
      g.asking = l1 ++ (u, f) :: l2 → f.waiting = none → f.rest = i :: rest →
      Periodic.step .cumulative (g.side i).p (if f.isFlush then .flush u else .shutdown u) = some p' →
      Reach d order { g.with i { g.side i with p := p' } with asking := l1 ++ (u, { f with rest := rest, waiting := some (i, (g.side i).p.nextTok) }) :: l2 }
  /-- and has answered -/
  | hear {g} (u : Nat) (f : Asking I K V X) (i : I) (tok : Nat) (r : Ret) (l1 l2 : List (Nat × Asking I K V X)) : Reach d order g → g.asking = l1 ++ (u, f) :: l2 →
      f.waiting = some (i, tok) → (tok, r) ∈ (g.side i).p.returned →
      Reach d order { g with asking := l1 ++ (u, { f with waiting := none, ok := f.ok && decide (r = .ok), answers := f.answers ++ [(i, tok, r)] }) :: l2 }
  /-- the call returns. pipeline.rs:675-679, 691-697 -/
  | result {g} (u : Nat) (f : Asking I K V X) (l1 l2 : List (Nat × Asking I K V X)) : Reach d order g → g.asking = l1 ++ (u, f) :: l2 → f.waiting = none → f.rest = [] →
      Reach d order { g with asking := l1 ++ l2, results := g.results ++ [⟨f.start, true, f.answers, f.ok⟩] }

/-! ## Specification -/

/-- What a reader is to take of a measurement. -/
def Way.entry (d : Way K V A X Y) (m : Nat × X × Attrs K V) : Nat × X × Attrs K V := (m.1, m.2.1, d.keep m.2.2)

/-! ## Lemmas -/

theorem moves_run {d : Way K V A X Y} {q q' : All K V A X Y} (h : d.Run q) (hm : Moves d q q') : d.Run q' := by
  cases hm with
  | caller a ha hs => exact .caller a h ha hs
  | begin k hk hs => exact .begin k h hk hs
  | refuse k hk hi => exact .refuse k h hk hi
  | walk k it hk hs hd => exact .walk k it h hk hs hd
  | nothing k it r o hk hs hd ho ht hn => exact .nothing k it r o h hk hs hd ho ht hn
  | «export» k it r o w hk hs hd ho ht hn => exact .export k it r o w h hk hs hd ho ht hn
  | close tok ok hk hs => exact .close tok ok h hk hs
  | answer hk hs => exact .answer h hk hs

theorem took_run {d : Way K V A X Y} {q : All K V A X Y} (h : d.Run q) {a : Conc.Action K V X} {s' : Conc.State K V A X} (ha : OfThread a) (hs : Conc.step d.cc q.s a = some s') :
    d.Run (took q s') := .measure a h ha hs

theorem with_run {d : (i : I) → Way K V (B i) X (Z i)} {g : Sys I K V X B Z} (h : ∀ j, (d j).Run (g.side j)) {i : I} {q : All K V (B i) X (Z i)} (hq : (d i).Run q) :
    ∀ j, (d j).Run ((g.with i q).side j) := by
  intro j
  by_cases e : j = i
  · subst e; simp only [Sys.with, Function.update_self]; exact hq
  · simp only [Sys.with, Function.update_of_ne e]; exact h j

/-- **C111** Every reader behaves as if it were the only one: whatever the schedule, its store, its worker, its exporter and its callers are in a state of the system of C104. -/
theorem each_reader_alone {d : (i : I) → Way K V (B i) X (Z i)} {order : List I} {g : Sys I K V X B Z} (h : Reach d order g) : ∀ i, (d i).Run (g.side i) := by
  induction h with
  | init => exact fun i => Runs.init
  | call t x a _ _ ih => exact ih
  | enter t f i rest l1 l2 s' _ _ _ _ hs ih => exact with_run ih (.measure _ (ih i) (by exact trivial) hs)
  | inner t f i s' _ _ _ hs _ ih => exact with_run ih (.measure _ (ih i) (by exact trivial) hs)
  | leave t f i l1 l2 s' _ _ _ hs _ ih => exact with_run ih (.measure _ (ih i) (by exact trivial) hs)
  | ret t f l1 l2 _ _ _ _ ih => exact ih
  | own i q _ hm ih => exact with_run ih (moves_run (ih i) hm)
  | flush u b _ _ _ ih => exact ih
  | late _ _ ih => exact ih
  | ask u f i rest l1 l2 p' _ _ _ _ hs ih =>
    refine with_run ih (.caller _ (ih i) ?_ hs)
    split <;> trivial
  | hear u f i tok r l1 l2 _ _ _ _ ih => exact ih
  | result u f l1 l2 _ _ _ _ ih => exact ih

/-- What a thread is measuring. -/
def content : Conc.MPc K V X → Option (X × Attrs K V)
  | .idle => none
  | .noAttr x => some (x, [])
  | .noFlag x => some (x, [])
  | .lookup x a => some (x, a)
  | .found x a _ => some (x, a)
  | .write x a => some (x, a)

theorem content_idle {pc : Conc.MPc K V X} (h : content pc ≠ none) : pc ≠ .idle := by rintro rfl; exact h rfl

theorem call_frame {cc : Conc.Cfg K V A X} {s s' : Conc.State K V A X} {t : Nat} {x : X} {a : Attrs K V} (hs : Conc.step cc s (.call t x a) = some s') :
    s'.returned = s.returned ∧ content (s'.pc t) = some (x, a) ∧ ∀ u, u ≠ t → s'.pc u = s.pc u := by
  simp only [Conc.step] at hs
  split at hs
  · injection hs with hs; subst hs
    refine ⟨rfl, ?_, fun u hu => by simp [Conc.setPc, hu]⟩
    by_cases e : a = []
    · subst e; simp [Conc.setPc, content]
    · simp [Conc.setPc, e, content]
  · cases hs

theorem thread_frame {cc : Conc.Cfg K V A X} {s s' : Conc.State K V A X} {t : Nat} (hs : Conc.step cc s (.thread t) = some s') :
    (∀ u, u ≠ t → s'.pc u = s.pc u) ∧ ∃ x a, content (s.pc t) = some (x, a) ∧
      ((s'.pc t ≠ .idle ∧ s'.returned = s.returned ∧ content (s'.pc t) = some (x, a)) ∨ (s'.pc t = .idle ∧ s'.returned = s.returned ++ [(t, x, a)])) := by
  simp only [Conc.step, Conc.threadStep] at hs
  split at hs
  · cases hs
  · rename_i x hp
    injection hs with hs; subst hs
    exact ⟨fun u hu => by simp [Conc.setPc, hu], x, [], by rw [hp]; rfl, .inl ⟨by simp [Conc.setPc], rfl, by simp [Conc.setPc, content]⟩⟩
  · rename_i x hp
    injection hs with hs; subst hs
    exact ⟨fun u hu => by simp [Conc.setPc, hu], x, [], by rw [hp]; rfl, .inr ⟨by simp [Conc.setPc], rfl⟩⟩
  · rename_i x a hp
    split at hs
    · injection hs with hs; subst hs
      exact ⟨fun u hu => by simp [Conc.setPc, hu], x, a, by rw [hp]; rfl, .inl ⟨by simp [Conc.setPc], rfl, by simp [Conc.setPc, content]⟩⟩
    · injection hs with hs; subst hs
      exact ⟨fun u hu => by simp [Conc.setPc, hu], x, a, by rw [hp]; rfl, .inl ⟨by simp [Conc.setPc], rfl, by simp [Conc.setPc, content]⟩⟩
  · rename_i x a p hp
    injection hs with hs; subst hs
    exact ⟨fun u hu => by simp [Conc.setPc, hu], x, a, by rw [hp]; rfl, .inr ⟨by simp [Conc.setPc], rfl⟩⟩
  · rename_i x a hp
    split at hs
    · injection hs with hs; subst hs
      exact ⟨fun u hu => by simp [Conc.setPc, hu], x, a, by rw [hp]; rfl, .inr ⟨by simp [Conc.setPc], rfl⟩⟩
    · cases hs

theorem collect_pc {cc : Conc.Cfg K V A X} {s s' : Conc.State K V A X} (hs : Conc.step cc s .collect = some s') : s'.returned = s.returned ∧ s'.pc = s.pc := by
  simp only [Conc.step] at hs
  split at hs <;> cases hs
  exact ⟨rfl, rfl⟩

theorem collector_pc {cc : Conc.Cfg K V A X} {s s' : Conc.State K V A X} {it : List (Attrs K V × Nat)} (hs : Conc.step cc s (.collector it) = some s') :
    s'.returned = s.returned ∧ s'.pc = s.pc := by
  simp only [Conc.step, Conc.collectorStep] at hs
  repeat' (first | split at hs | dsimp only at hs)
  all_goals first | (cases hs; done) | (injection hs with hs; subst hs; exact ⟨rfl, rfl⟩)

theorem moves_pc {d : Way K V A X Y} {q q' : All K V A X Y} (hm : Moves d q q') : q'.s.returned = q.s.returned ∧ q'.s.pc = q.s.pc := by
  cases hm with
  | caller a ha hs => exact ⟨rfl, rfl⟩
  | begin k hk hs => exact collect_pc hs
  | refuse k hk hi => exact ⟨rfl, rfl⟩
  | walk k it hk hs hd => exact collector_pc hs
  | nothing k it r o hk hs hd ho ht hn => exact collector_pc hs
  | «export» k it r o w hk hs hd ho ht hn => exact collector_pc hs
  | close tok ok hk hs => exact ⟨rfl, rfl⟩
  | answer hk hs => exact ⟨rfl, rfl⟩

/-- The reader has taken the measurement of this call. -/
def passed (i : I) (e : Nat × Frame I K V X) : Bool := decide (e.2.inside ≠ some i ∧ i ∉ e.2.rest)

/-- The measurement of a call. -/
def meas (e : Nat × Frame I K V X) : Nat × X × Attrs K V := (e.1, e.2.x, e.2.a)

/-- Who has taken what. -/
structure Acc (d : (i : I) → Way K V (B i) X (Z i)) (order : List I) (g : Sys I K V X B Z) : Prop where
  keys : (g.frames.map Prod.fst).Nodup
  rest : ∀ e ∈ g.frames, e.2.rest <:+ order
  inside : ∀ e ∈ g.frames, ∀ i, e.2.inside = some i → i ∈ order ∧ i ∉ e.2.rest ∧ content ((g.side i).s.pc e.1) = some (e.2.x, (d i).keep e.2.a)
  begun : g.begun.Perm (g.finished ++ g.frames.map meas)
  taken : ∀ i ∈ order, (g.side i).s.returned.Perm ((g.finished ++ (g.frames.filter (passed i)).map meas).map (d i).entry)

theorem with_same (g : Sys I K V X B Z) (i : I) (q : All K V (B i) X (Z i)) : (g.with i q).side i = q := by simp [Sys.with]

theorem with_other (g : Sys I K V X B Z) {i j : I} (q : All K V (B i) X (Z i)) (h : j ≠ i) : (g.with i q).side j = g.side j := by simp [Sys.with, h]

theorem acc_reach {d : (i : I) → Way K V (B i) X (Z i)} {order : List I} (hn : order.Nodup) {g : Sys I K V X B Z} (h : Reach d order g) : Acc d order g := by
  -- a step that changes neither the calls nor what the readers have taken
  have quiet : ∀ {g : Sys I K V X B Z} {i : I} {q : All K V (B i) X (Z i)}, Acc d order g → q.s.returned = (g.side i).s.returned → q.s.pc = (g.side i).s.pc →
      Acc d order (g.with i q) := by
    intro g i q ih h1 h2
    refine ⟨ih.keys, ih.rest, fun e he j hj => ?_, ih.begun, fun j hj => ?_⟩
    · obtain ⟨a1, a2, a3⟩ := ih.inside e he j hj
      refine ⟨a1, a2, ?_⟩
      by_cases e : j = i
      · subst e; rw [with_same, h2]; exact a3
      · rw [with_other g q e]; exact a3
    · have := ih.taken j hj
      by_cases e : j = i
      · subst e; rw [with_same, h1]; exact this
      · rw [with_other g q e]; exact this
  induction h with
  | init => exact ⟨by simp, by simp, by simp, by simp, fun i _ => by simp [Way.init, Conc.State.init]⟩
  | @call g t x a _ ht ih =>
    refine ⟨?_, fun e he => ?_, fun e he i hi => ?_, ?_, fun i hi => ?_⟩
    · rw [List.map_cons, List.nodup_cons]; exact ⟨ht, ih.keys⟩
    · rcases List.mem_cons.1 he with rfl | he
      · exact List.suffix_refl _
      · exact ih.rest e he
    · rcases List.mem_cons.1 he with rfl | he
      · cases hi
      · exact ih.inside e he i hi
    · show (g.begun ++ [(t, x, a)]).Perm (g.finished ++ (t, x, a) :: g.frames.map meas)
      exact (ih.begun.append_right _).trans (by rw [List.append_assoc]; exact List.Perm.append_left _ (List.perm_append_singleton _ _))
    · have : passed i (t, (⟨x, a, order, none⟩ : Frame I K V X)) = false := by simp [passed, hi]
      simp only [List.filter_cons, this]
      exact ih.taken i hi
  | @enter g t f i rest l1 l2 s' _ hf hin hrest hs ih =>
    obtain ⟨h1, h2, h3⟩ := call_frame hs
    have hmem : (t, f) ∈ g.frames := by rw [hf]; simp
    have hsuf := ih.rest _ hmem
    simp only [hrest] at hsuf
    have hnd := hn.sublist hsuf.sublist
    rw [List.nodup_cons] at hnd
    have hio : i ∈ order := hsuf.subset List.mem_cons_self
    have hk := ih.keys
    rw [hf] at hk
    have hother : ∀ e ∈ l1 ++ l2, e.1 ≠ t := by
      intro e he h
      rw [List.map_append, List.map_cons, List.nodup_middle, List.nodup_cons] at hk
      exact hk.1 (by rw [← List.map_append]; exact h ▸ List.mem_map.2 ⟨e, he, rfl⟩)
    have hsplit : ∀ e, e ∈ l1 ++ (t, { f with rest := rest, inside := some i }) :: l2 → e = (t, { f with rest := rest, inside := some i }) ∨ (e ∈ g.frames ∧ e.1 ≠ t) := by
      intro e he
      rw [List.mem_append, List.mem_cons] at he
      rcases he with he | he | he
      · exact .inr ⟨by rw [hf]; simp [he], hother e (by simp [he])⟩
      · exact .inl he
      · exact .inr ⟨by rw [hf]; simp [he], hother e (by simp [he])⟩
    refine ⟨by simpa using hk, fun e he => ?_, fun e he j hj => ?_, ?_, fun j hj => ?_⟩
    · rcases hsplit e he with rfl | ⟨he, _⟩
      · exact (List.suffix_cons i rest).trans hsuf
      · exact ih.rest e he
    · rcases hsplit e he with rfl | ⟨he, hne⟩
      · simp only [Option.some.injEq] at hj
        subst hj
        refine ⟨hio, hnd.1, ?_⟩
        show content (((g.with i (took (g.side i) s')).side i).s.pc t) = _
        rw [with_same]; exact h2
      · obtain ⟨a1, a2, a3⟩ := ih.inside e he j hj
        refine ⟨a1, a2, ?_⟩
        show content (((g.with i (took (g.side i) s')).side j).s.pc e.1) = _
        by_cases e' : j = i
        · subst e'; rw [with_same]; show content (s'.pc e.1) = _; rw [h3 _ hne]; exact a3
        · rw [with_other g _ e']; exact a3
    · have := ih.begun
      rw [hf] at this
      simpa [meas, Sys.with] using this
    · have ht := ih.taken j hj
      have hp : passed j (t, { f with rest := rest, inside := some i }) = passed j (t, f) := by
        simp only [passed, hin, hrest, List.mem_cons, decide_eq_decide]
        constructor
        · rintro ⟨a1, a2⟩; exact ⟨by simp, fun h => h.elim (fun h => a1 (by rw [h])) a2⟩
        · rintro ⟨_, a2⟩; exact ⟨fun h => a2 (.inl (Option.some.inj h).symm), fun h => a2 (.inr h)⟩
      have hfr : ((l1 ++ (t, { f with rest := rest, inside := some i }) :: l2).filter (passed j)).map meas = (g.frames.filter (passed j)).map meas := by
        rw [hf, List.filter_append, List.filter_append, List.filter_cons, List.filter_cons, hp]
        cases passed j (t, f) <;> simp [meas]
      show ((g.with i (took (g.side i) s')).side j).s.returned.Perm _
      rw [hfr]
      by_cases e' : j = i
      · subst e'; rw [with_same]; show s'.returned.Perm _; rw [h1]; exact ht
      · rw [with_other g _ e']; exact ht
  | @inner g t f i s' _ hmem hin hs hpc ih =>
    obtain ⟨h3, x, a, hc, h | h⟩ := thread_frame hs
    · refine ⟨ih.keys, ih.rest, fun e he j hj => ?_, ih.begun, fun j hj => ?_⟩
      · obtain ⟨a1, a2, a3⟩ := ih.inside e he j hj
        refine ⟨a1, a2, ?_⟩
        by_cases e' : j = i
        · subst e'; rw [with_same]; show content (s'.pc e.1) = _
          by_cases et : e.1 = t
          · rw [et, hc] at a3; rw [et, h.2.2]; exact a3
          · rw [h3 _ et]; exact a3
        · rw [with_other g _ e']; exact a3
      · have ht := ih.taken j hj
        by_cases e' : j = i
        · subst e'; rw [with_same]; show s'.returned.Perm _; rw [h.2.1]; exact ht
        · rw [with_other g _ e']; exact ht
    · exact (hpc h.1).elim
  | @leave g t f i l1 l2 s' _ hf hin hs hpc ih =>
    obtain ⟨h3, x, a, hc, h | h⟩ := thread_frame hs
    · exact (h.1 hpc).elim
    have hmem : (t, f) ∈ g.frames := by rw [hf]; simp
    obtain ⟨b1, b2, b3⟩ := ih.inside _ hmem i hin
    rw [hc] at b3
    simp only [Option.some.injEq, Prod.mk.injEq] at b3
    have hk := ih.keys
    rw [hf] at hk
    have hother : ∀ e ∈ l1 ++ l2, e.1 ≠ t := by
      intro e he h
      rw [List.map_append, List.map_cons, List.nodup_middle, List.nodup_cons] at hk
      exact hk.1 (by rw [← List.map_append]; exact h ▸ List.mem_map.2 ⟨e, he, rfl⟩)
    have hsplit : ∀ e, e ∈ l1 ++ (t, { f with inside := none }) :: l2 → e = (t, { f with inside := none }) ∨ (e ∈ g.frames ∧ e.1 ≠ t) := by
      intro e he
      rw [List.mem_append, List.mem_cons] at he
      rcases he with he | he | he
      · exact .inr ⟨by rw [hf]; simp [he], hother e (by simp [he])⟩
      · exact .inl he
      · exact .inr ⟨by rw [hf]; simp [he], hother e (by simp [he])⟩
    refine ⟨by simpa using hk, fun e he => ?_, fun e he j hj => ?_, ?_, fun j hj => ?_⟩
    · rcases hsplit e he with rfl | ⟨he, _⟩
      · exact ih.rest (t, f) hmem
      · exact ih.rest e he
    · rcases hsplit e he with rfl | ⟨he, hne⟩
      · cases hj
      · obtain ⟨a1, a2, a3⟩ := ih.inside e he j hj
        refine ⟨a1, a2, ?_⟩
        show content (((g.with i (took (g.side i) s')).side j).s.pc e.1) = _
        by_cases e' : j = i
        · subst e'; rw [with_same]; show content (s'.pc e.1) = _; rw [h3 _ hne]; exact a3
        · rw [with_other g _ e']; exact a3
    · have := ih.begun
      rw [hf] at this
      simpa [meas, Sys.with] using this
    · have ht := ih.taken j hj
      show ((g.with i (took (g.side i) s')).side j).s.returned.Perm _
      by_cases e' : j = i
      · subst e'
        rw [with_same]
        show s'.returned.Perm _
        rw [h.2]
        have p0 : passed j (t, f) = false := by simp [passed, hin]
        have p1 : passed j (t, { f with inside := none }) = true := by simp [passed, b2]
        rw [hf, List.filter_append, List.filter_cons, p0] at ht
        rw [List.filter_append, List.filter_cons, p1]
        simp only [Bool.false_eq_true, if_false, if_true] at ht ⊢
        refine (ht.append_right _).trans ?_
        have e1 : (t, x, a) = (d j).entry (meas (t, { f with inside := none })) := by rw [Way.entry, meas, b3.1, b3.2]
        rw [e1]
        simp only [List.map_append, List.map_cons, List.append_assoc]
        refine List.Perm.append_left _ (List.Perm.append_left _ ?_)
        exact List.perm_append_singleton _ _
      · rw [with_other g _ e']
        have hp : passed j (t, { f with inside := none }) = passed j (t, f) := by
          simp only [passed, hin, decide_eq_decide]
          constructor
          · rintro ⟨_, a2⟩; exact ⟨fun h => e' (Option.some.inj h).symm, a2⟩
          · rintro ⟨_, a2⟩; exact ⟨by simp, a2⟩
        have hfr : ((l1 ++ (t, { f with inside := none }) :: l2).filter (passed j)).map meas = (g.frames.filter (passed j)).map meas := by
          rw [hf, List.filter_append, List.filter_append, List.filter_cons, List.filter_cons, hp]
          cases passed j (t, f) <;> simp [meas]
        rw [hfr]
        exact ht
  | @ret g t f l1 l2 _ hf hin hrest ih =>
    have hk := ih.keys
    rw [hf] at hk
    rw [List.map_append, List.map_cons, List.nodup_middle, List.nodup_cons, ← List.map_append] at hk
    have hsub : ∀ e ∈ l1 ++ l2, e ∈ g.frames := by
      intro e he
      rw [hf]
      rcases List.mem_append.1 he with he | he <;> simp [he]
    refine ⟨hk.2, fun e he => ih.rest e (hsub e he), fun e he => ih.inside e (hsub e he), ?_, fun i hi => ?_⟩
    · have := ih.begun
      rw [hf] at this
      refine this.trans ?_
      simp only [List.map_append, List.map_cons, List.append_assoc]
      refine List.Perm.append_left _ ?_
      exact List.perm_middle
    · have ht := ih.taken i hi
      have p1 : passed i (t, f) = true := by simp [passed, hin, hrest]
      rw [hf, List.filter_append, List.filter_cons, p1] at ht
      simp only [if_true] at ht
      refine ht.trans ?_
      rw [List.filter_append]
      simp only [List.map_append, List.map_cons, List.append_assoc]
      refine List.Perm.append_left _ ?_
      exact List.perm_middle
  | @own g i q _ hm ih => exact quiet ih (moves_pc hm).1 (moves_pc hm).2
  | flush u b _ _ _ ih => exact ⟨ih.keys, ih.rest, ih.inside, ih.begun, ih.taken⟩
  | late _ _ ih => exact ⟨ih.keys, ih.rest, ih.inside, ih.begun, ih.taken⟩
  | @ask g u f i rest l1 l2 p' _ _ _ _ hs ih =>
    have := quiet (i := i) (q := { g.side i with p := p' }) ih rfl rfl
    exact ⟨this.keys, this.rest, this.inside, this.begun, this.taken⟩
  | hear u f i tok r l1 l2 _ _ _ _ ih => exact ⟨ih.keys, ih.rest, ih.inside, ih.begun, ih.taken⟩
  | result u f l1 l2 _ _ _ _ ih => exact ⟨ih.keys, ih.rest, ih.inside, ih.begun, ih.taken⟩

/-- **C111** Every reader takes every measurement once: at any time it has taken those of the calls that have returned, with the attributes its view keeps, and others only of
calls that have begun. When no call is underway, it has taken exactly the measurements made. -/
theorem every_reader_takes_all {d : (i : I) → Way K V (B i) X (Z i)} {order : List I} (hn : order.Nodup) {g : Sys I K V X B Z} (h : Reach d order g) {i : I} (hi : i ∈ order) :
    (g.finished.map (d i).entry).Subperm (g.side i).s.returned ∧ (g.side i).s.returned.Subperm (g.begun.map (d i).entry) ∧ (g.finished.Subperm g.begun) ∧
      (g.frames = [] → g.finished.Perm g.begun ∧ (g.side i).s.returned.Perm (g.finished.map (d i).entry)) := by
  have ha := acc_reach hn h
  have ht := ha.taken i hi
  refine ⟨?_, ?_, ?_, fun hf => ?_⟩
  · rw [List.map_append] at ht
    exact (List.sublist_append_left _ _).subperm.trans ht.symm.subperm
  · refine ht.subperm.trans ?_
    refine List.Subperm.trans ?_ (ha.begun.symm.map _).subperm
    refine List.Sublist.subperm (List.Sublist.map _ (List.Sublist.append (List.Sublist.refl _) (List.Sublist.map _ List.filter_sublist)))
  · exact (List.sublist_append_left _ _).subperm.trans ha.begun.symm.subperm
  · have hb := ha.begun
    rw [hf] at ht hb
    simp only [List.filter_nil, List.map_nil, List.append_nil] at ht hb
    exact ⟨hb.symm, ht⟩

/-! ### The provider's `force_flush` -/

/-- A reader goes on: nothing of what its callers know is lost. -/
structure Grow (q q' : All K V A X Y) : Prop where
  measured : q.s.returned <+: q'.s.returned
  toks : q.p.nextTok ≤ q'.p.nextTok
  cuts : ∀ tok, tok < q.p.nextTok → q'.p.atCall tok = q.p.atCall tok
  answers : ∀ e ∈ q.p.returned, e ∈ q'.p.returned

theorem Grow.refl (q : All K V A X Y) : Grow q q := ⟨List.prefix_refl _, Nat.le_refl _, fun _ _ => rfl, fun _ h => h⟩

theorem caller_grow {p p' : Periodic.State} {a : Periodic.Action} (ha : OfCaller a) (hs : Periodic.step .cumulative p a = some p') :
    p.nextTok ≤ p'.nextTok ∧ (∀ tok, tok < p.nextTok → p'.atCall tok = p.atCall tok) ∧ ∀ e ∈ p.returned, e ∈ p'.returned := by
  have hcall : ∀ (t : Nat) (b : Bool) (pc : Nat → Periodic.Pc), Periodic.callStep p t b pc = some p' →
      p.nextTok ≤ p'.nextTok ∧ (∀ tok, tok < p.nextTok → p'.atCall tok = p.atCall tok) ∧ ∀ e ∈ p.returned, e ∈ p'.returned := by
    intro t b pc hs
    unfold Periodic.callStep at hs
    split at hs
    · injection hs with hs; subst hs
      exact ⟨Nat.le_succ _, fun tok h => by simp only [Periodic.set, if_neg (Nat.ne_of_lt h)], fun e h => h⟩
    · cases hs
  have hret : ∀ (t tok : Nat) (r : Ret), p.nextTok ≤ (p.ret t tok r).nextTok ∧ (∀ tok', tok' < p.nextTok → (p.ret t tok r).atCall tok' = p.atCall tok') ∧
      ∀ e ∈ p.returned, e ∈ (p.ret t tok r).returned := fun t tok r => ⟨Nat.le_refl _, fun _ _ => rfl, fun e h => List.mem_append_left _ h⟩
  cases a with
  | flush t => exact hcall t true _ hs
  | shutdown t => exact hcall t false _ hs
  | thread t =>
    simp only [Periodic.step, Periodic.threadStep] at hs
    split at hs
    · cases hs
    · split at hs <;> (injection hs with hs; subst hs)
      · exact ⟨Nat.le_refl _, fun _ _ => rfl, fun e h => h⟩
      · exact hret _ _ _
    · obtain ⟨r, _, rfl⟩ := Option.map_eq_some_iff.1 hs; exact hret _ _ _
    · split at hs <;> (injection hs with hs; subst hs)
      · exact ⟨Nat.le_refl _, fun _ _ => rfl, fun e h => h⟩
      · exact hret _ _ _
    · obtain ⟨r, _, rfl⟩ := Option.map_eq_some_iff.1 hs; exact hret _ _ _
  | timeout t =>
    simp only [Periodic.step, Periodic.timeoutStep] at hs
    split at hs
    · injection hs with hs; subst hs; exact hret _ _ _
    · cases hs
  | take =>
    simp only [Periodic.step, Periodic.takeStep] at hs
    split at hs <;> cases hs <;> exact ⟨Nat.le_refl _, fun _ _ => rfl, fun e h => h⟩
  | timer =>
    simp only [Periodic.step, Periodic.timerStep] at hs
    split at hs <;> cases hs; exact ⟨Nat.le_refl _, fun _ _ => rfl, fun e h => h⟩
  | record => exact ha.elim
  | work ok => exact ha.elim
  | callbackFlush => exact ha.elim

theorem moves_grow {d : Way K V A X Y} {q q' : All K V A X Y} (hm : Moves d q q') : Grow q q' := by
  cases hm with
  | caller a ha hs => exact ⟨List.prefix_refl _, (caller_grow ha hs).1, (caller_grow ha hs).2.1, (caller_grow ha hs).2.2⟩
  | begin k hk hs => exact ⟨by rw [(collect_pc hs).1], Nat.le_refl _, fun _ _ => rfl, fun _ h => h⟩
  | refuse k hk hi => exact ⟨List.prefix_refl _, Nat.le_refl _, fun _ _ => rfl, fun _ h => h⟩
  | walk k it hk hs hd => exact ⟨by rw [(collector_pc hs).1], Nat.le_refl _, fun _ _ => rfl, fun _ h => h⟩
  | nothing k it r o hk hs hd ho ht hn => exact ⟨by rw [(collector_pc hs).1], Nat.le_refl _, fun _ _ => rfl, fun _ h => h⟩
  | «export» k it r o w hk hs hd ho ht hn => exact ⟨by rw [(collector_pc hs).1], Nat.le_refl _, fun _ _ => rfl, fun _ h => h⟩
  | close tok ok hk hs =>
    simp only [Periodic.step, Periodic.workStep, hk] at hs
    injection hs with hs; subst hs
    exact ⟨List.prefix_refl _, Nat.le_refl _, fun _ _ => rfl, fun _ h => h⟩
  | answer hk hs =>
    rcases hk with ⟨k, ok, hk⟩ | hk
    · cases k <;> simp only [Periodic.step, Periodic.workStep, hk] at hs <;> cases hs <;> exact ⟨List.prefix_refl _, Nat.le_refl _, fun _ _ => rfl, fun _ h => h⟩
    · simp only [Periodic.step, Periodic.workStep, hk] at hs
      injection hs with hs; subst hs
      exact ⟨List.prefix_refl _, Nat.le_refl _, fun _ _ => rfl, fun _ h => h⟩

theorem took_grow {cc : Conc.Cfg K V A X} {q : All K V A X Y} {a : Conc.Action K V X} {s' : Conc.State K V A X} (hs : Conc.step cc q.s a = some s') : Grow q (took q s') :=
  ⟨Conc.returned_grows hs, Nat.le_refl _, fun _ _ => rfl, fun _ h => h⟩

/-- The counts of a reader. -/
theorem counts {d : Way K V A X Y} {q : All K V A X Y} (h : d.Run q) :
    q.p.recorded = q.s.returned.length ∧ (∀ tok, q.p.atCall tok ≤ q.s.returned.length) ∧ ∀ tok r, (tok, r) ∈ q.p.returned → tok < q.p.nextTok := by
  have hf := Flush.follows_runs (T := fun _ _ => True) (D := fun _ _ _ => True) (fun _ _ _ _ _ _ => trivial) (fun _ _ _ _ _ _ _ _ _ => trivial) (fun _ _ _ _ _ _ _ _ => trivial)
    (fun _ _ _ _ _ _ _ _ _ _ _ _ => trivial) (fun _ _ _ _ _ _ _ _ _ _ _ _ _ _ _ _ => trivial) h
  exact ⟨hf.recorded, hf.cuts, fun tok r hm => (hf.returned tok r hm).1⟩

/-- The reader was asked after these measurements. -/
def After (d : Way K V A X Y) (start : List (Nat × X × Attrs K V)) (q : All K V A X Y) (tok : Nat) : Prop :=
  tok < q.p.nextTok ∧ (start.map d.entry).Subperm (before q.s q.p tok)

theorem After.grow {d : Way K V A X Y} {start : List (Nat × X × Attrs K V)} {q q' : All K V A X Y} {tok : Nat} (hr : d.Run q) (h : After d start q tok) (hg : Grow q q') :
    After d start q' tok := by
  refine ⟨Nat.lt_of_lt_of_le h.1 hg.toks, ?_⟩
  have : before q'.s q'.p tok = before q.s q.p tok := by
    rw [before, hg.cuts tok h.1]
    exact Flush.before_mono ((counts hr).2.1 tok) hg.measured
  rw [this]
  exact h.2

/-- These are answers to calls made after these measurements. -/
def Heard (d : (i : I) → Way K V (B i) X (Z i)) (start : List (Nat × X × Attrs K V)) (side : (i : I) → All K V (B i) X (Z i)) (l : List (I × Nat × Ret)) : Prop :=
  ∀ i tok r, (i, tok, r) ∈ l → (tok, r) ∈ (side i).p.returned ∧ After (d i) start (side i) tok

theorem Heard.grow {d : (i : I) → Way K V (B i) X (Z i)} {start : List (Nat × X × Attrs K V)} {side side' : (i : I) → All K V (B i) X (Z i)} {l : List (I × Nat × Ret)}
    (hr : ∀ i, (d i).Run (side i)) (h : Heard d start side l) (hg : ∀ i, Grow (side i) (side' i)) : Heard d start side' l :=
  fun i tok r hm => ⟨(hg i).answers _ (h i tok r hm).1, (h i tok r hm).2.grow (hr i) (hg i)⟩

/-- One of the provider's calls. -/
structure One (d : (i : I) → Way K V (B i) X (Z i)) (order : List I) (side : (i : I) → All K V (B i) X (Z i)) (finished : List (Nat × X × Attrs K V)) (f : Asking I K V X) : Prop where
  start : f.start <+: finished
  rest : f.rest <:+ order
  waiting : ∀ i tok, f.waiting = some (i, tok) → After (d i) f.start (side i) tok
  heard : Heard d f.start side f.answers
  done : ∀ i ∈ order, i ∉ f.rest → (∀ tok, f.waiting ≠ some (i, tok)) → ∃ tok r, (i, tok, r) ∈ f.answers
  ok : f.ok = f.answers.all fun e => decide (e.2.2 = .ok)

/-- What is known of an outcome. -/
structure Known (d : (i : I) → Way K V (B i) X (Z i)) (order : List I) (side : (i : I) → All K V (B i) X (Z i)) (finished : List (Nat × X × Attrs K V)) (r : Outcome I K V X) : Prop where
  start : r.start <+: finished
  heard : Heard d r.start side r.answers
  all : r.asked = true → ∀ i ∈ order, ∃ tok a, (i, tok, a) ∈ r.answers
  ok : r.ok = (r.asked && r.answers.all fun e => decide (e.2.2 = .ok))

/-- All of them. -/
structure Asks (d : (i : I) → Way K V (B i) X (Z i)) (order : List I) (g : Sys I K V X B Z) : Prop where
  asking : ∀ e ∈ g.asking, One d order g.side g.finished e.2
  results : ∀ r ∈ g.results, Known d order g.side g.finished r

theorem with_grow {g : Sys I K V X B Z} {i : I} {q : All K V (B i) X (Z i)} (h : Grow (g.side i) q) : ∀ j, Grow (g.side j) ((g.with i q).side j) := by
  intro j
  by_cases e : j = i
  · subst e; rw [with_same]; exact h
  · rw [with_other g q e]; exact Grow.refl _

theorem One.grow {d : (i : I) → Way K V (B i) X (Z i)} {order : List I} {side side' : (i : I) → All K V (B i) X (Z i)} {fin fin' : List (Nat × X × Attrs K V)} {f : Asking I K V X}
    (hr : ∀ i, (d i).Run (side i)) (h : One d order side fin f) (hg : ∀ i, Grow (side i) (side' i)) (hf : fin <+: fin') : One d order side' fin' f :=
  ⟨h.start.trans hf, h.rest, fun i tok hw => (h.waiting i tok hw).grow (hr i) (hg i), h.heard.grow hr hg, h.done, h.ok⟩

theorem Asks.grow {d : (i : I) → Way K V (B i) X (Z i)} {order : List I} {g g' : Sys I K V X B Z} (hr : ∀ i, (d i).Run (g.side i)) (h : Asks d order g)
    (hg : ∀ i, Grow (g.side i) (g'.side i)) (hf : g.finished <+: g'.finished) (ha : g'.asking = g.asking) (hres : g'.results = g.results) : Asks d order g' :=
  ⟨fun e he => (h.asking e (ha ▸ he)).grow hr hg hf, fun r hs =>
    ⟨(h.results r (hres ▸ hs)).start.trans hf, (h.results r (hres ▸ hs)).heard.grow hr hg, (h.results r (hres ▸ hs)).all, (h.results r (hres ▸ hs)).ok⟩⟩

theorem asks_reach {d : (i : I) → Way K V (B i) X (Z i)} {order : List I} (hn : order.Nodup) {g : Sys I K V X B Z} (h : Reach d order g) : Asks d order g := by
  induction h with
  | init => exact ⟨by simp, by simp⟩
  | call t x a h0 _ ih => exact ih.grow (each_reader_alone h0) (fun i => Grow.refl _) (List.prefix_refl _) rfl rfl
  | enter t f i rest l1 l2 s' h0 _ _ _ hs ih => exact ih.grow (each_reader_alone h0) (with_grow (took_grow hs)) (List.prefix_refl _) rfl rfl
  | inner t f i s' h0 _ _ hs _ ih => exact ih.grow (each_reader_alone h0) (with_grow (took_grow hs)) (List.prefix_refl _) rfl rfl
  | leave t f i l1 l2 s' h0 _ _ hs _ ih => exact ih.grow (each_reader_alone h0) (with_grow (took_grow hs)) (List.prefix_refl _) rfl rfl
  | ret t f l1 l2 h0 _ _ _ ih => exact ih.grow (each_reader_alone h0) (fun i => Grow.refl _) (List.prefix_append _ _) rfl rfl
  | own i q h0 hm ih => exact ih.grow (each_reader_alone h0) (with_grow (moves_grow hm)) (List.prefix_refl _) rfl rfl
  | @flush g u b h0 _ _ ih =>
    refine ⟨fun e he => ?_, ih.results⟩
    rcases List.mem_cons.1 he with rfl | he
    · exact ⟨List.prefix_refl _, List.suffix_refl _, fun i tok hw => (by cases hw), fun i tok r hm => (by cases hm), fun i hi h1 _ => absurd hi h1, rfl⟩
    · exact ih.asking e he
  | @late g h0 _ ih =>
    refine ⟨ih.asking, fun r hs => ?_⟩
    rcases List.mem_append.1 hs with hs | hs
    · exact ih.results r hs
    · rw [List.mem_singleton] at hs
      subst hs
      exact ⟨List.prefix_refl _, fun i tok r hm => (by cases hm), fun h => (by cases h), rfl⟩
  | @ask g u f i rest l1 l2 p' h0 hf hw hrest hs ih =>
    have hrun := each_reader_alone h0
    have hgr : Grow (g.side i) { g.side i with p := p' } := by
      have := caller_grow (a := if f.isFlush then .flush u else .shutdown u) (by split <;> trivial) hs
      exact ⟨List.prefix_refl _, this.1, this.2.1, this.2.2⟩
    have h1 := ih.grow (g' := g.with i { g.side i with p := p' }) hrun (with_grow hgr) (List.prefix_refl _) rfl rfl
    have hmem : (u, f) ∈ g.asking := by rw [hf]; simp
    refine ⟨fun e he => ?_, h1.results⟩
    rw [List.mem_append, List.mem_cons] at he
    rcases he with he | rfl | he
    · exact h1.asking e (by show e ∈ g.asking; rw [hf]; simp [he])
    · have ho := h1.asking (u, f) hmem
      have hsuf := ho.rest
      simp only [hrest] at hsuf
      refine ⟨ho.start, (List.suffix_cons i rest).trans hsuf, fun j tok hj => ?_, ho.heard, fun j hj hnr hnw => ?_, ho.ok⟩
      · simp only [Option.some.injEq, Prod.mk.injEq] at hj
        obtain ⟨rfl, rfl⟩ := hj
        show After (d i) f.start ((g.with i { g.side i with p := p' }).side i) _
        rw [with_same]
        have key : p'.nextTok = (g.side i).p.nextTok + 1 ∧ p'.atCall (g.side i).p.nextTok = (g.side i).p.recorded := by
          have hcall : ∀ (b : Bool) (pc : Nat → Periodic.Pc), Periodic.callStep (g.side i).p u b pc = some p' →
              p'.nextTok = (g.side i).p.nextTok + 1 ∧ p'.atCall (g.side i).p.nextTok = (g.side i).p.recorded := by
            intro b pc hs
            unfold Periodic.callStep at hs
            split at hs
            · injection hs with hs; subst hs
              exact ⟨rfl, by simp [Periodic.set]⟩
            · cases hs
          split at hs
          · exact hcall _ _ hs
          · exact hcall _ _ hs
        refine ⟨by show _ < p'.nextTok; omega, ?_⟩
        show (f.start.map (d i).entry).Subperm ((g.side i).s.returned.take (p'.atCall (g.side i).p.nextTok))
        rw [key.2, (counts (hrun i)).1, List.take_length]
        exact (List.Sublist.map _ ho.start.sublist).subperm.trans (every_reader_takes_all hn h0 (hsuf.subset List.mem_cons_self)).1
      · have hne : j ≠ i := fun e => hnw (g.side i).p.nextTok (by rw [e])
        refine ho.done j hj ?_ (fun tok => by rw [hw]; simp)
        show j ∉ f.rest
        rw [hrest, List.mem_cons]
        exact fun e => e.elim hne hnr
    · exact h1.asking e (by show e ∈ g.asking; rw [hf]; simp [he])
  | @hear g u f i tok r l1 l2 h0 hf hw hr ih =>
    refine ⟨fun e he => ?_, ih.results⟩
    rw [List.mem_append, List.mem_cons] at he
    have hmem : (u, f) ∈ g.asking := by rw [hf]; simp
    rcases he with he | rfl | he
    · exact ih.asking e (by rw [hf]; simp [he])
    · have ho := ih.asking (u, f) hmem
      refine ⟨ho.start, ho.rest, fun j tok hj => (by cases hj), fun j tok' r' hm => ?_, fun j hj hnr _ => ?_, ?_⟩
      · rcases List.mem_append.1 hm with hm | hm
        · exact ho.heard j tok' r' hm
        · simp only [List.mem_singleton, Prod.mk.injEq] at hm
          obtain ⟨rfl, rfl, rfl⟩ := hm
          exact ⟨hr, ho.waiting j tok' hw⟩
      · by_cases e : j = i
        · subst e
          exact ⟨tok, r, by simp⟩
        · obtain ⟨tok', r', hm⟩ := ho.done j hj hnr fun tok' h' => by
            rw [hw] at h'
            simp only [Option.some.injEq, Prod.mk.injEq] at h'
            exact e h'.1.symm
          exact ⟨tok', r', List.mem_append_left _ hm⟩
      · have := ho.ok
        simp only at this
        simp [this]
    · exact ih.asking e (by rw [hf]; simp [he])
  | @result g u f l1 l2 h0 hf hw hrest ih =>
    have hmem : (u, f) ∈ g.asking := by rw [hf]; simp
    refine ⟨fun e he => ih.asking e (by rw [hf]; rcases List.mem_append.1 he with he | he <;> simp [he]), fun r hs => ?_⟩
    rcases List.mem_append.1 hs with hs | hs
    · exact ih.results r hs
    · rw [List.mem_singleton] at hs
      subst hs
      have ho := ih.asking (u, f) hmem
      refine ⟨ho.start, ho.heard, fun _ i hi => ho.done i hi (by show i ∉ f.rest; rw [hrest]; simp) fun tok => by rw [hw]; simp, ?_⟩
      have := ho.ok
      simpa using this

/-- **C111** `force_flush` and `shutdown` of the provider ask every reader, also after one that fails, and each after all the measurements whose calls had returned when the
provider was called; they return `Ok` exactly if all readers answer `Ok`. If the readers are not asked, the result is an error. -/
theorem provider_asks_all {d : (i : I) → Way K V (B i) X (Z i)} {order : List I} (hn : order.Nodup) {g : Sys I K V X B Z} (h : Reach d order g) {r : Outcome I K V X} (hr : r ∈ g.results) :
    r.start <+: g.finished ∧ (r.asked = true → ∀ i ∈ order, ∃ tok a, (i, tok, a) ∈ r.answers) ∧ (r.ok = true ↔ r.asked = true ∧ ∀ i tok a, (i, tok, a) ∈ r.answers → a = .ok) ∧
      ∀ i tok a, (i, tok, a) ∈ r.answers → (tok, a) ∈ (g.side i).p.returned ∧ (r.start.map (d i).entry).Subperm (before (g.side i).s (g.side i).p tok) := by
  have hk := (asks_reach hn h).results r hr
  refine ⟨hk.start, hk.all, ?_, fun i tok a hm => ⟨(hk.heard i tok a hm).1, (hk.heard i tok a hm).2.2⟩⟩
  rw [hk.ok]
  simp only [Bool.and_eq_true, List.all_eq_true, decide_eq_true_eq, Prod.forall]

/-- **C111** So after an `Ok` every reader has answered `Ok`. -/
theorem provider_ok_all {d : (i : I) → Way K V (B i) X (Z i)} {order : List I} (hn : order.Nodup) {g : Sys I K V X B Z} (h : Reach d order g) {r : Outcome I K V X} (hr : r ∈ g.results)
    (hok : r.ok = true) : ∀ i ∈ order, ∃ tok, (i, tok, Ret.ok) ∈ r.answers := by
  obtain ⟨_, h2, h3, _⟩ := provider_asks_all hn h hr
  intro i hi
  obtain ⟨tok, a, hm⟩ := h2 (h3.1 hok).1 i hi
  obtain rfl := (h3.1 hok).2 i tok a hm
  exact ⟨tok, hm⟩

theorem valuesIn_subperm (srt : Sorter K V) {l m : List (Nat × X × Attrs K V)} (h : l.Subperm m) (a : Attrs K V) : (Conc.valuesIn srt l a).Subperm (Conc.valuesIn srt m a) := by
  obtain ⟨l', hp, hs⟩ := h
  exact ⟨_, (hp.filter _).map _, (hs.filter _).map _⟩

/-- **C111** with C104, a reader with cumulative temporality that has answered `Ok` to a `force_flush` or `shutdown` of the provider: its collector has a metric of the instrument with a
point for every set of attributes (those that the view keeps) for which a measurement had returned before the call; the point tells a list of values recorded for the set, in
order, among them all those whose measurements had returned when the provider was called. Whatever the other readers do and answer. -/
theorem provider_flush_cumulative_partial {d : (i : I) → Way K V (B i) X (Z i)} {order : List I} (hn : order.Nodup) {g : Sys I K V X B Z} (h : Reach d order g)
    {r : Outcome I K V X} (hr : r ∈ g.results) {i : I} {tok : Nat} (hok : (i, tok, Ret.ok) ∈ r.answers) (hne : r.start ≠ []) (hd : (d i).cc.delta = false) (hfit : (d i).st.Fit)
    (hkeep : (d i).st.Keeps) (hinj : Function.Injective (d i).val) (hplain : ∀ v, NotEmptyArray ((d i).val v)) {cast : Cast} {decode : Z i → Option (PRequest K (PMetric K))}
    (hc : MetricCfg cast decode (d i).c) (ht : Exporter.TellsStatus (d i).c) {reads : WPt K → List X → Prop}
    (hreads : ∀ start now kvs xs, reads (wireOf cast (d i).st.kind start now ((d i).st.point kvs (xs.foldl (d i).cc.agg.update (d i).cc.agg.create))) xs) {L : List (Attrs K V)}
    (hL : L.length ≤ (d i).cc.limit) (hsets : ∀ e ∈ (g.side i).s.applied, e.2.2 ≠ [] → sortAndDedup (d i).cc.srt e.2.2 ∈ L) :
    ∃ m ∈ heard decode (d i).ci.name (requests (g.side i).log), (∃ now, Names (d i).st.kind false (d i).res (d i).ci (d i).t0 now m) ∧
      ∀ a, Conc.valuesIn (d i).cc.srt (r.start.map (d i).entry) a ≠ [] →
        ∃ q ∈ wpoints m.metric.data, ∃ b xs, ReadsSet (d i).val q.attributes b ∧ sortAndDedup (d i).cc.srt b = sortAndDedup (d i).cc.srt a ∧ reads q xs ∧
          (Conc.valuesIn (d i).cc.srt (r.start.map (d i).entry) a).Subperm xs ∧ xs <+: Conc.recordedOf (d i).cc.srt (g.side i).s a := by
  obtain ⟨h1, h2⟩ := (provider_asks_all hn h hr).2.2.2 i tok .ok hok
  have hb : before (g.side i).s (g.side i).p tok ≠ [] := by
    intro hb
    rw [hb] at h2
    have := h2.length_le
    simp at this
    exact hne this
  obtain ⟨m, hm, hnames, hall⟩ := Flush.flushed_cumulative_partial hd hfit hkeep hinj hplain hc ht hreads (each_reader_alone h i) hL hsets h1 hb
  refine ⟨m, hm, hnames, fun a ha => ?_⟩
  have hv := valuesIn_subperm (d i).cc.srt h2 a
  obtain ⟨q, hq, b, xs, k1, k2, k3, k4, k5⟩ := hall a fun he => ha (by rw [he] at hv; have := hv.length_le; exact List.length_eq_zero_iff.1 (by simpa using this))
  exact ⟨q, hq, b, xs, k1, k2, k3, hv.trans k4, k5⟩

/-- **C111** with C104, a reader with delta temporality, if none of its exports has failed: the metrics its collector has tell, for every set, at least what had returned when
the provider was called. -/
theorem provider_flush_delta_partial {d : (i : I) → Way K V (B i) X (Z i)} {order : List I} (hn : order.Nodup) {g : Sys I K V X B Z} (h : Reach d order g)
    {r : Outcome I K V X} (hr : r ∈ g.results) {i : I} {tok : Nat} (hok : (i, tok, Ret.ok) ∈ r.answers) (hd : (d i).cc.delta = true) (hfit : (d i).st.Fit)
    (hkeep : (d i).st.Keeps) (hinj : Function.Injective (d i).val) (hplain : ∀ v, NotEmptyArray ((d i).val v)) {cast : Cast} {decode : Z i → Option (PRequest K (PMetric K))}
    (hc : MetricCfg cast decode (d i).c) (ht : Exporter.TellsStatus (d i).c) {reads : WPt K → List X → Prop}
    (hreads : ∀ start now kvs xs, reads (wireOf cast (d i).st.kind start now ((d i).st.point kvs (xs.foldl (d i).cc.agg.update (d i).cc.agg.create))) xs) {L : List (Attrs K V)}
    (hL : L.length ≤ (d i).cc.limit) (hsets : ∀ e ∈ (g.side i).s.applied, e.2.2 ≠ [] → sortAndDedup (d i).cc.srt e.2.2 ∈ L) (hall : AllOk (g.side i).log) :
    ∃ bs : List (Conc.Collection K V (B i) X × Around K),
      List.Forall₂ (fun x m => Names (d i).st.kind true (d i).res (d i).ci x.2.start x.2.now m ∧
        CarriesPoints (d i).cc.srt (d i).val reads (Conc.deltaOk (d i).cc.srt x.1) (Conc.deltaMust (d i).cc.srt x.1) (wpoints m.metric.data)) bs
        (heard decode (d i).ci.name (requests (g.side i).log)) ∧
      ∀ a, (Conc.valuesIn (d i).cc.srt (r.start.map (d i).entry) a).Subperm (bs.flatMap fun x => Conc.setValues (d i).cc.srt x.1.period (x.1.noVals.getD []) a) := by
  obtain ⟨h1, h2⟩ := (provider_asks_all hn h hr).2.2.2 i tok .ok hok
  obtain ⟨bs, k1, k2⟩ := Flush.flushed_delta_partial hd hfit hkeep hinj hplain hc ht hreads (each_reader_alone h i) hL hsets h1 hall
  exact ⟨bs, k1, fun a => (valuesIn_subperm _ h2 a).trans (k2 a)⟩

/-! ## The hypotheses are met -/

/-- What to do next. -/
inductive Act (I K V X : Type) where
  | call (t : Nat) (x : X) (a : Attrs K V)
  | thread (t : Nat)
  | own (i : I) (a : Flush.Act K V X)
  | flush (u : Nat) (isFlush : Bool)
  | asks (u : Nat)

/-- The entry of a thread, with what is before it and after it. -/
def cut {α : Type} (t : Nat) : List (Nat × α) → Option (List (Nat × α) × α × List (Nat × α))
  | [] => none
  | e :: l => if e.1 = t then some ([], e.2, l) else (cut t l).map fun x => (e :: x.1, x.2.1, x.2.2)

theorem cut_spec {α : Type} {t : Nat} {l l1 l2 : List (Nat × α)} {f : α} (h : cut t l = some (l1, f, l2)) : l = l1 ++ (t, f) :: l2 := by
  induction l generalizing l1 with
  | nil => cases h
  | cons e l ih =>
    simp only [cut] at h
    split at h
    · rename_i he
      simp only [Option.some.injEq, Prod.mk.injEq] at h
      obtain ⟨rfl, rfl, rfl⟩ := h
      rw [← he]; rfl
    · obtain ⟨x, hx, he⟩ := Option.map_eq_some_iff.1 h
      simp only [Prod.mk.injEq] at he
      obtain ⟨rfl, rfl, rfl⟩ := he
      rw [List.cons_append, ← ih hx]

/-- Is it a step of the reader's own? -/
def isOwn : Flush.Act K V X → Bool
  | .measure _ => false
  | _ => true

/-- Is the thread idle? -/
def isIdle : Conc.MPc K V X → Bool
  | .idle => true
  | _ => false

theorem isIdle_iff {pc : Conc.MPc K V X} : isIdle pc = true ↔ pc = .idle := by cases pc <;> simp [isIdle]

/-- One step, with the same surroundings each time. -/
def gexec (d : (i : I) → Way K V (B i) X (Z i)) (order : List I) (o : Around K) (g : Sys I K V X B Z) : Act I K V X → Option (Sys I K V X B Z)
  | .call t x a => if t ∈ g.frames.map Prod.fst then none else some { g with frames := (t, ⟨x, a, order, none⟩) :: g.frames, begun := g.begun ++ [(t, x, a)] }
  | .thread t => match cut t g.frames with
    | none => none
    | some (l1, f, l2) => match f.inside with
      | some i => (Conc.step (d i).cc (g.side i).s (.thread t)).map fun s' =>
        if isIdle (s'.pc t) then { g.with i (took (g.side i) s') with frames := l1 ++ (t, { f with inside := none }) :: l2 } else g.with i (took (g.side i) s')
      | none => match f.rest with
        | [] => some { g with frames := l1 ++ l2, finished := g.finished ++ [(t, f.x, f.a)] }
        | i :: rest => (Conc.step (d i).cc (g.side i).s (.call t f.x ((d i).keep f.a))).map fun s' =>
          { g.with i (took (g.side i) s') with frames := l1 ++ (t, { f with rest := rest, inside := some i }) :: l2 }
  | .own i a => if isOwn a then (Flush.exec (d i).cc (d i).st (d i).val (d i).dflt (d i).res (d i).ci (d i).c o (g.side i) a).map fun q => g.with i q else none
  | .flush u b => if g.invoked then some { g with results := g.results ++ [⟨g.finished, false, [], false⟩] }
    else if u ∈ g.asking.map Prod.fst then none else some { g with asking := (u, ⟨b, order, none, true, g.finished, []⟩) :: g.asking, invoked := !b }
  | .asks u => match cut u g.asking with
    | none => none
    | some (l1, f, l2) => match f.waiting with
      | some (i, tok) => match (g.side i).p.returned.find? fun e => e.1 == tok with
        | none => none
        | some e => some { g with asking := l1 ++ (u, { f with waiting := none, ok := f.ok && decide (e.2 = .ok), answers := f.answers ++ [(i, tok, e.2)] }) :: l2 }
      | none => match f.rest with
        | [] => some { g with asking := l1 ++ l2, results := g.results ++ [⟨f.start, true, f.answers, f.ok⟩] }
        | i :: rest => (Periodic.step .cumulative (g.side i).p (if f.isFlush then .flush u else .shutdown u)).map fun p' =>
          { g.with i { g.side i with p := p' } with asking := l1 ++ (u, { f with rest := rest, waiting := some (i, (g.side i).p.nextTok) }) :: l2 }

/-- Some steps. -/
def gexecAll (d : (i : I) → Way K V (B i) X (Z i)) (order : List I) (o : Around K) (g : Sys I K V X B Z) : List (Act I K V X) → Option (Sys I K V X B Z)
  | [] => some g
  | a :: as => match gexec d order o g a with
    | some g' => gexecAll d order o g' as
    | none => none

theorem moves_exec {d : Way K V A X Y} {o : Around K} (ho : o.Distinct d.ci) {x x' : All K V A X Y} {a : Flush.Act K V X} (hown : isOwn a = true)
    (hs : Flush.exec d.cc d.st d.val d.dflt d.res d.ci d.c o x a = some x') : Moves d x x' := by
  cases a with
  | measure a => cases hown
  | caller a =>
    simp only [Flush.exec] at hs
    split at hs
    · rename_i ha
      obtain ⟨s', h1, rfl⟩ := Option.map_eq_some_iff.1 hs
      exact .caller a (Flush.ofCaller_iff ha) h1
    · cases hs
  | begin =>
    simp only [Flush.exec] at hs
    split at hs
    · rename_i k hw
      obtain ⟨s', h1, rfl⟩ := Option.map_eq_some_iff.1 hs
      exact .begin k hw h1
    · cases hs
  | walk it w =>
    simp only [Flush.exec] at hs
    split at hs
    · rename_i k hw
      split at hs
      · cases hs
      · rename_i s' h1
        obtain ⟨_, _, f3⟩ := Flush.collector_frame h1
        split at hs
        · rename_i hdrop
          injection hs with hs; subst hs
          refine .walk k it hw h1 ?_
          rcases f3 with ⟨f3, _⟩ | ⟨r, f3, _⟩
          · exact f3
          · rw [f3] at hdrop; simp at hdrop
        · rename_i r rest hdrop
          have hd : s'.done = x.s.done ++ [r] := by
            rcases f3 with ⟨f3, _⟩ | ⟨r', f3, _⟩
            · rw [f3] at hdrop; simp at hdrop
            · rw [f3] at hdrop ⊢; simp at hdrop; rw [hdrop.1]
          split at hs
          · rename_i hn
            injection hs with hs; subst hs
            exact .nothing k it r { o with start := (timesOf d.cc.delta x.t o.now).1.1 } hw h1 hd ho rfl hn
          · rename_i hn
            injection hs with hs; subst hs
            exact .export k it r { o with start := (timesOf d.cc.delta x.t o.now).1.1 } w hw h1 hd ho rfl (by rw [hn]; simp)
    · cases hs
  | close =>
    simp only [Flush.exec] at hs
    split at hs
    · rename_i tok ok hw
      obtain ⟨p', h1, rfl⟩ := Option.map_eq_some_iff.1 hs
      exact .close tok ok hw h1
    · cases hs
  | answer =>
    simp only [Flush.exec] at hs
    split at hs
    · rename_i k ok hw
      obtain ⟨p', h1, rfl⟩ := Option.map_eq_some_iff.1 hs
      exact .answer (.inl ⟨k, ok, hw⟩) h1
    · rename_i hw
      obtain ⟨p', h1, rfl⟩ := Option.map_eq_some_iff.1 hs
      exact .answer (.inr hw) h1
    · cases hs

theorem reach_exec {d : (i : I) → Way K V (B i) X (Z i)} {order : List I} {o : Around K} (ho : ∀ i, o.Distinct (d i).ci) {g g' : Sys I K V X B Z} (h : Reach d order g)
    {a : Act I K V X} (hs : gexec d order o g a = some g') : Reach d order g' := by
  cases a with
  | call t x a =>
    simp only [gexec] at hs
    split at hs
    · cases hs
    · rename_i ht
      injection hs with hs; subst hs; exact .call t x a h ht
  | thread t =>
    simp only [gexec] at hs
    split at hs
    · cases hs
    · rename_i l1 f l2 hc
      have hf := cut_spec hc
      split at hs
      · rename_i i hi
        obtain ⟨s', h1, rfl⟩ := Option.map_eq_some_iff.1 hs
        split
        · rename_i hp; exact .leave t f i l1 l2 s' h hf hi h1 (isIdle_iff.1 hp)
        · rename_i hp; exact .inner t f i s' h (by rw [hf]; simp) hi h1 fun e => hp (isIdle_iff.2 e)
      · rename_i hi
        split at hs
        · rename_i hr
          injection hs with hs; subst hs; exact .ret t f l1 l2 h hf hi hr
        · rename_i i rest hr
          obtain ⟨s', h1, rfl⟩ := Option.map_eq_some_iff.1 hs
          exact .enter t f i rest l1 l2 s' h hf hi hr h1
  | own i a =>
    simp only [gexec] at hs
    split at hs
    · rename_i hown
      obtain ⟨q, h1, rfl⟩ := Option.map_eq_some_iff.1 hs
      exact .own i q h (moves_exec (ho i) hown h1)
    · cases hs
  | flush u b =>
    simp only [gexec] at hs
    split at hs
    · rename_i hi
      injection hs with hs; subst hs; exact .late h hi
    · rename_i hi
      split at hs
      · cases hs
      · rename_i hu
        injection hs with hs; subst hs; exact .flush u b h hu (by simpa using hi)
  | asks u =>
    simp only [gexec] at hs
    split at hs
    · cases hs
    · rename_i l1 f l2 hc
      have hf := cut_spec hc
      split at hs
      · rename_i i tok hw
        split at hs
        · cases hs
        · rename_i e he
          injection hs with hs; subst hs
          refine .hear u f i tok e.2 l1 l2 h hf hw ?_
          have h1 := List.mem_of_find?_eq_some he
          have h2 : e.1 = tok := by simpa using List.find?_some he
          rw [← h2]; exact h1
      · rename_i hw
        split at hs
        · rename_i hr
          injection hs with hs; subst hs; exact .result u f l1 l2 h hf hw hr
        · rename_i i rest hr
          obtain ⟨p', h1, rfl⟩ := Option.map_eq_some_iff.1 hs
          exact .ask u f i rest l1 l2 p' h hf hw hr h1

theorem reach_execAll {d : (i : I) → Way K V (B i) X (Z i)} {order : List I} {o : Around K} (ho : ∀ i, o.Distinct (d i).ci) (as : List (Act I K V X)) {g g' : Sys I K V X B Z}
    (h : Reach d order g) (hs : gexecAll d order o g as = some g') : Reach d order g' := by
  induction as generalizing g with
  | nil => injection hs with hs; exact hs ▸ h
  | cons a as ih =>
    simp only [gexecAll] at hs
    split at hs
    · rename_i g1 h1; exact ih (reach_exec ho h h1) hs
    · cases hs

/-- Two readers: one with delta temporality, the other cumulative with a view that drops the attributes. -/
def exWay (i : Bool) : Way Nat Bool (BitVec 64) (BitVec 64) (PRequest Nat (PMetric Nat)) :=
  ⟨if i then exStoreCum else exStore, u64Sum true, Val.bool, ⟨"", none, none, []⟩, ⟨[], none⟩, exCounter, exMetricCfg, 1, if i then fun _ => [] else id⟩

/-- The worker of a reader serves a call. -/
def exServe (i : Bool) (n : Nat) (it : List (Attrs Nat Bool × Nat)) (w : Exporter.World) : List (Act Bool Nat Bool (BitVec 64)) :=
  [.asks 2, .own i (.caller (.thread 2)), .own i (.caller .take), .own i .begin] ++ (List.replicate n (.own i (.walk it w))) ++ [.own i .answer, .own i (.caller (.thread 2)), .asks 2]

/-- Two threads measure; the second is between the readers while the third thread flushes the provider; `w` is the network of the first reader. -/
def exSched (w : Exporter.World) : List (Act Bool Nat Bool (BitVec 64)) :=
  [.call 0 5 [(1, true)], .thread 0, .thread 0, .thread 0, .call 1 7 [], .thread 0, .thread 0, .thread 0, .thread 0, .flush 2 true, .thread 1] ++
    exServe false 4 [([(1, true)], 0)] w ++ [.thread 1, .thread 1] ++ exServe true 4 [] Flush.good ++ [.asks 2]

/-- The run. -/
def exGo (w : Exporter.World) : Option (Sys Bool Nat Bool (BitVec 64) (fun _ => BitVec 64) (fun _ => PRequest Nat (PMetric Nat))) :=
  gexecAll exWay [false, true] exAround ⟨fun i => (exWay i).init, [], [], [], [], false, []⟩ (exSched w)

/-- What is seen of it. -/
def exSee (g : Sys Bool Nat Bool (BitVec 64) (fun _ => BitVec 64) (fun _ => PRequest Nat (PMetric Nat))) :=
  (g.results.map fun r => (r.start, r.asked, r.answers, r.ok), g.finished, g.begun, (g.side false).s.returned, (g.side true).s.returned,
    (g.side false).log.map (·.outcome), (g.side true).log.map (·.outcome))

/-- The hypotheses of the theorems are met: the flush has returned `Ok`; 5 had been recorded before it; 7 has been taken by the first reader and not yet by the second, whose
view drops the attributes. -/
theorem provider_flush_example : ∃ g, Reach exWay [false, true] g ∧
    exSee g = ([([(0, 5, [(1, true)])], true, [(false, 0, .ok), (true, 0, .ok)], true)], [(0, 5, [(1, true)])], [(0, 5, [(1, true)]), (1, 7, [])],
      [(0, 5, [(1, true)]), (1, 7, [])], [(0, 5, [])], [.ok], [.ok]) := by
  have h : (exGo Flush.good).map exSee = some ([([(0, 5, [(1, true)])], true, [(false, 0, .ok), (true, 0, .ok)], true)], [(0, 5, [(1, true)])],
      [(0, 5, [(1, true)]), (1, 7, [])], [(0, 5, [(1, true)]), (1, 7, [])], [(0, 5, [])], [.ok], [.ok]) := by rfl
  obtain ⟨g, hg, he⟩ := Option.map_eq_some_iff.1 h
  exact ⟨g, reach_execAll (fun i => exAround_distinct) _ .init hg, he⟩

/-- And the second reader is asked though the first one fails. -/
theorem provider_flush_fails_example : ∃ g, Reach exWay [false, true] g ∧ ∃ r ∈ g.results, r.ok = false ∧ (true, 0, Ret.ok) ∈ r.answers ∧ r.start = [(0, 5, [(1, true)])] := by
  have h : (exGo Flush.bad).map (fun g => g.results.map fun r => (r.start, r.answers, r.ok)) =
      some [([(0, 5, [(1, true)])], [(false, 0, .failed), (true, 0, .ok)], false)] := by rfl
  obtain ⟨g, hg, he⟩ := Option.map_eq_some_iff.1 h
  refine ⟨g, reach_execAll (fun i => exAround_distinct) _ .init hg, ?_⟩
  obtain ⟨r, hr, he⟩ := List.map_eq_singleton_iff.1 he
  simp only [Prod.mk.injEq] at he
  exact ⟨r, by rw [hr]; simp, he.2.2, by rw [he.2.1]; simp, he.1⟩

end Otel.EndToEnd.Readers
