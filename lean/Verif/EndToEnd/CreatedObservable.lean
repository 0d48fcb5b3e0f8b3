import Verif.EndToEnd.Created
import Verif.EndToEnd.Observable
/-!
# From the calls that set up readers and create an observable instrument to the collector (C133)

The composition of `Created.lean` for observable instruments: the readers with their temporalities (C129), the builder with its callbacks (C130), and what the callbacks
observe on its way to the collector (C103). No views.
-/

namespace Otel.EndToEnd.CreatedObservable
open Otel.Otlp Otel.Metrics Otel.Metrics.Inst Otel.Metrics.MeterApi Otel.Temporality Otel.EndToEnd.Created
open Rust (Str F64)
open Common (Val)

/-! ## Model -/

variable {V Cb : Type} [DecidableEq V]

/-- The points of sums. internal/precomputed_sum.rs:71-83, 120-125 -/
def sumStyle : NumKind → Bool → Style Str (BitVec 64)
  | .u64 => u64Sum
  | .i64 => i64Sum
  | .f64 => f64Sum

/-- Subtraction; that of integers wraps, that of doubles is left open. internal/precomputed_sum.rs:78 -/
def subOf (subF : BitVec 64 → BitVec 64 → BitVec 64) : NumKind → BitVec 64 → BitVec 64 → BitVec 64
  | .f64 => subF
  | _ => (· - ·)

/-- An aggregation of observations at work: a store, what of it is reported, how and as what. -/
structure WorksObs (V : Type) where
  cc : Conc.Cfg Str V (BitVec 64) (BitVec 64)
  change : List (Attrs Str V × BitVec 64) → List (Attrs Str V × BitVec 64) → List (Attrs Str V × BitVec 64)
  st : Style Str (BitVec 64)
  id : CounterId Str

/-- `AggregateBuilder::last_value` and `precomputed_sum`; the latter subtracts what it reported before if its temporality is delta. internal/aggregate.rs:147-165,
precomputed_sum.rs:21-36, 147-150, last_value.rs:42-64 -/
def worksObs (g : Given V) (subF : BitVec 64 → BitVec 64 → BitVec 64) (y : Sync) : Option (WorksObs V) :=
  match y.built with
  | .precomputedSum m => some ⟨storeOf g (assign (BitVec 64) 0) y, if (storeOf g (assign (BitVec 64) 0) y).delta then Obs.changes 0 (subOf subF y.number) else Obs.plain,
      sumStyle y.number m, idOf y⟩
  | .lastValue _ => some ⟨storeOf g (assign (BitVec 64) 0) y, Obs.plain, gaugeOf y.number (numOf y.number), idOf y⟩
  | _ => none

/-- The aggregations of a reader that the observations of an instrument's callbacks go to; `dest` is what `make` gave. -/
def fedObs (g : Given V) (subF : BitVec 64 → BitVec 64 → BitVec 64) (p : Prov Cb) (dest : List (Nat × Nat)) (i : Nat) : List (WorksObs V) :=
  (((p.pipes[i]?).map Inst.Pipe.syncs).getD [] |>.filter fun y => (i, y.agg) ∈ dest).filterMap (worksObs g subF)

/-! ## Specification -/

/-- A point tells a number, for `u64` if it is less than 2^63. -/
def TellsNum : NumKind → WPt Str → BitVec 64 → Prop
  | .u64, q, x => x.toNat < 2 ^ 63 → TellsInt q x.toNat
  | .i64, q, x => TellsInt q x.toInt
  | .f64, q, x => TellsDouble q x

/-- The collector gets changes: each metric is the instrument's, and has one point for each set observed that tells the value observed last minus the one observed last in the
collection before (0 if none was). -/
def GetsChanges {Y : Type} (srt : Sorter Str V) (val : V → Val) (kind : AggKind) (tells : WPt Str → BitVec 64 → Prop) (sub : BitVec 64 → BitVec 64 → BitVec 64) (res : ResVal Str)
    (ci : CounterId Str) (t0 : Nat) (decode : Y → Option (PRequest Str (PMetric Str))) (c : Exporter.Cfg Unit (Batch Str) (PRequest Str (PMetric Str)) Y)
    (s : Obs.State Str V (BitVec 64) (BitVec 64)) (log : List (Sending Y)) : Prop :=
  ∃ (all : List (Obs.Run Str V (BitVec 64) (BitVec 64) × Around Str))
    (bs : List (Option (Obs.Run Str V (BitVec 64) (BitVec 64) × Around Str) × (Obs.Run Str V (BitVec 64) (BitVec 64) × Around Str))), all.map Prod.fst = s.runs ∧
    (all.map fun x => (x.2.start, x.2.now)) = intervals timeDelta t0 (all.map (·.2.now)) ∧ List.Sublist bs (Obs.afterEach none all) ∧
    (Exporter.TellsStatus c → AllOk log → bs.map Prod.snd = all.filter fun x => !x.1.shown.isEmpty) ∧
    List.Forall₂ (fun x m => Names kind true res ci x.2.2.start x.2.2.now m ∧
      CarriesChanges srt val tells 0 sub (lastFound srt x.2.1) (fun a => x.1.bind fun y => lastFound srt y.1 a) (wpoints m.metric.data)) bs
      (heard decode ci.name (requests log)) ∧
    (∀ x ∈ all, ∀ a, (Obs.observed srt x.1.made a).Sublist (Obs.found srt x.1.coll a)) ∧
    (Obs.Alone s → ∀ x ∈ all, ∀ a, lastFound srt x.1 a = (Obs.observed srt x.1.made a).getLast?)

/-- The collector gets values: each metric is the instrument's, and has one point for each set observed, in this collection (`fresh`) or in any so far, that tells the value
observed last. -/
def GetsValues {Y : Type} (srt : Sorter Str V) (val : V → Val) (kind : AggKind) (tells : WPt Str → BitVec 64 → Prop) (fresh : Bool) (res : ResVal Str)
    (ci : CounterId Str) (t0 : Nat) (decode : Y → Option (PRequest Str (PMetric Str))) (c : Exporter.Cfg Unit (Batch Str) (PRequest Str (PMetric Str)) Y)
    (s : Obs.State Str V (BitVec 64) (BitVec 64)) (log : List (Sending Y)) : Prop :=
  ∃ (all : List (Obs.Run Str V (BitVec 64) (BitVec 64) × Around Str))
    (bs : List (List (Obs.Run Str V (BitVec 64) (BitVec 64) × Around Str) × (Obs.Run Str V (BitVec 64) (BitVec 64) × Around Str))), all.map Prod.fst = s.runs ∧
    (all.map fun x => (x.2.start, x.2.now)) = intervals (if fresh then timeDelta else timeCumulative) t0 (all.map (·.2.now)) ∧ List.Sublist bs (soFar [] all) ∧
    (Exporter.TellsStatus c → AllOk log → bs.map Prod.snd = all.filter fun x => !x.1.shown.isEmpty) ∧
    List.Forall₂ (fun x m => Names kind fresh res ci x.2.2.start x.2.2.now m ∧
      CarriesPoints srt val (TellsLast tells) (fun a xs => xs = Obs.observed srt (toldBy fresh (x.1.map Prod.fst) x.2.1) a ∧ xs ≠ [])
        (fun a => Obs.observed srt (toldBy fresh (x.1.map Prod.fst) x.2.1) a ≠ []) (wpoints m.metric.data)) bs (heard decode ci.name (requests log))

/-- The callbacks of a declaration are run by the reader, after those registered before, and observe into exactly one aggregation; and for every schedule of the reader and its
callbacks, whatever the network does and with any wire format that can be read, what the collector gets is as `P` says. For at most as many attribute sets as the last limit
given, or 2000. -/
def ArrivesObs (g : Given V) (subF : BitVec 64 → BitVec 64 → BitVec 64) (val : V → Val) (d : Decl Cb) (old : Prov Cb) (made : Prov Cb × List (Nat × Nat)) (i : Nat)
    (P : ∀ {Y : Type}, ResVal Str → Nat → (Y → Option (PRequest Str (PMetric Str))) → Exporter.Cfg Unit (Batch Str) (PRequest Str (PMetric Str)) Y →
      Obs.State Str V (BitVec 64) (BitVec 64) → List (Sending Y) → Prop) : Prop :=
  (∃ cbs, old.callbacks[i]? = some cbs ∧ made.1.callbacks[i]? = some (cbs ++ (d.calls.filterMap Call.callback?).map fun c => (c, made.2))) ∧
  ∃ w : WorksObs V, fedObs g subF made.1 made.2 i = [w] ∧
    ∀ (Y : Type) (dflt : Common.Scope Str) (res : ResVal Str) (cast : Cast) (decode : Y → Option (PRequest Str (PMetric Str)))
      (c : Exporter.Cfg Unit (Batch Str) (PRequest Str (PMetric Str)) Y), MetricCfg cast decode c →
      ∀ (t0 t : Nat) (s : Obs.State Str V (BitVec 64) (BitVec 64)) (e : Exporter.St Unit) (log : List (Sending Y)), Watched w.cc w.change w.st val dflt res w.id c t0 s t e log →
      ∀ L : List (Attrs Str V), L.length ≤ (d.last Call.limit?).getD 2000 → (∀ e ∈ s.st.applied, e.2.2 ≠ [] → sortAndDedup g.srt e.2.2 ∈ L) →
        P res t0 decode c s log

/-! ## Proofs -/

omit [DecidableEq V] in
theorem sumStyle_ok (k : NumKind) (m : Bool) : (sumStyle k m).Fit ∧ (sumStyle k m).Keeps := by
  cases k with
  | u64 => exact u64Sum_ok m
  | i64 => exact i64Sum_ok m
  | f64 => exact f64Sum_ok m

theorem sumStyle_tells (cast : Cast) (k : NumKind) (m : Bool) (start now : Nat) (kvs : List (Str × Val)) (x : BitVec 64) :
    TellsNum k (wireOf cast (sumStyle k m).kind start now ((sumStyle k m).point kvs x)) x := by
  cases k with
  | u64 => exact u64_tells cast m start now kvs x
  | i64 => exact i64_tells cast m start now kvs x
  | f64 => exact f64_tells cast m start now kvs x

theorem sumStyle_kind (k : NumKind) (m : Bool) : (sumStyle k m).kind = .sum m := by cases k <;> rfl

theorem gauge_tells (cast : Cast) (k : NumKind) (start now : Nat) (kvs : List (Str × Val)) (x : BitVec 64) :
    TellsNum k (wireOf cast (gaugeOf (K := Str) k (numOf k)).kind start now ((gaugeOf k (numOf k)).point kvs x)) x := by
  cases k with
  | u64 => exact fun hb => ⟨_, rfl, number_exact_partial (n := .u64 x) (by rw [Num.Fits]; exact hb)⟩
  | i64 => exact ⟨_, rfl, rfl⟩
  | f64 => exact ⟨_, rfl, rfl⟩

theorem makes_callbacks_length (temps : Nat → Kind → Temporality) : ∀ (ds : List (Decl Cb)) (p : Prov Cb), (makes temps p ds).1.callbacks.length = p.callbacks.length
  | [], _ => rfl
  | d :: ds, p => by
    refine (makes_callbacks_length temps ds (make temps p d).1).trans ?_
    unfold make
    dsimp only
    split
    · dsimp only; rw [registered, List.length_map]
    · rfl

/-- The callbacks of a valid observable instrument are registered. -/
theorem callbacks_added {setups : List Setup} {readers : List Reader} {before : List (Decl Cb)} {d : Decl Cb} {i : Nat} {s : Setup} (h : Program setups readers before d i s)
    (hasync : d.method.async = true) : ∃ cbs, (makes (tempsOf readers) (.init readers.length) before).1.callbacks[i]? = some cbs ∧
      (made readers before d).1.callbacks[i]? = some (cbs ++ (d.calls.filterMap Call.callback?).map fun c => (c, (made readers before d).2)) := by
  obtain ⟨rd, hrd, -⟩ := mapM_get h.built h.reader
  have hi := (List.getElem?_eq_some_iff.1 hrd).1
  obtain ⟨f, hf, -⟩ := asked_is_created (tempsOf readers) readers.length before d h.valid
  have hlen := makes_callbacks_length (tempsOf readers) before (.init readers.length)
  unfold made
  generalize (makes (tempsOf readers) (.init readers.length) before).1 = p at hf hlen ⊢
  have hi' : i < p.callbacks.length := by rw [hlen]; simpa [Prov.init] using hi
  refine ⟨p.callbacks[i], List.getElem?_eq_getElem hi', ?_⟩
  have hne : (create [] (tempsOf readers) d.request d.builder.unit p.pipes).2 ≠ [] := by
    rw [← (make_fst_pipes (tempsOf readers) p d).2, hf]
    intro h0
    have h0 := congrArg List.length h0
    rw [List.length_map, List.length_range, List.length_nil] at h0
    omega
  rw [(make_fst_pipes (tempsOf readers) p d).2]
  unfold make
  dsimp only
  rw [if_pos ⟨hasync, hne⟩]
  dsimp only
  rw [registered, List.getElem?_map, List.getElem?_eq_getElem hi', builder_callbacks]
  rfl

/-- A new observable instrument has one aggregator with each reader. -/
theorem one_obs {setups : List Setup} {readers : List Reader} {before : List (Decl Cb)} {d : Decl Cb} {i : Nat} {s : Setup} (h : Program setups readers before d i s)
    (g : Given V) (subF : BitVec 64 → BitVec 64 → BitVec 64) :
    ∃ y : Sync, Same d y ∧ Fresh (tempsOf readers i) d y ∧ fedObs g subF (made readers before d).1 (made readers before d).2 i = [y].filterMap (worksObs g subF) := by
  obtain ⟨rd, hrd, -⟩ := mapM_get h.built h.reader
  obtain ⟨y, h1, h2, h3⟩ := new_syncs (tempsOf readers) readers.length before d h.valid h.new i (List.getElem?_eq_some_iff.1 hrd).1
  refine ⟨y, h1, h2, ?_⟩
  unfold fedObs made
  rw [h3]

variable {setups : List Setup} {readers : List Reader} {before : List (Decl Cb)} {d : Decl Cb} {i : Nat} {s : Setup} (h : Program setups readers before d i s)
  (g : Given V) (subF : BitVec 64 → BitVec 64 → BitVec 64) {val : V → Val} (hinj : Function.Injective val) (hplain : ∀ v, NotEmptyArray (val v))
include h hinj hplain

/-- **C133, observable counters and up-down counters.** The collector gets a sum, monotonic for counters only. If the last temporality given to the reader asks for delta for
observable counters (it never does for up-down counters), it gets changes, for attributes sorted by key; else, if no other reader runs the callbacks, values. -/
theorem observable_sum_arrives_partial (k : NumKind) (mono : Bool) (hm : d.method.text = numText k ++ "_" ++ if mono then "observable_counter" else "observable_up_down_counter") :
    ArrivesObs g subF val d (makes (tempsOf readers) (.init readers.length) before).1 (made readers before d) i fun res t0 decode c st log =>
      (WantsDelta s.args (if mono then .observableCounter else .observableUpDownCounter) → (∀ e ∈ st.st.applied, Strict e.2.2) →
        GetsChanges g.srt val (.sum mono) (TellsNum k) (subOf subF k) res (asked d) t0 decode c st log) ∧
      (¬ WantsDelta s.args (if mono then .observableCounter else .observableUpDownCounter) → Obs.Alone st →
        GetsValues g.srt val (.sum mono) (TellsNum k) false res (asked d) t0 decode c st log) := by
  obtain ⟨hnum, hkind⟩ : d.method.number = k ∧ d.method.kind = if mono then .observableCounter else .observableUpDownCounter := by
    refine text_inj _ _ _ _ ?_
    rw [method_text, hm]
    cases mono <;> rfl
  have hasync : d.method.async = true := by
    revert hkind; cases d.method <;> cases mono <;> simp [Method.kind, Method.async]
  refine ⟨callbacks_added h hasync, ?_⟩
  obtain ⟨y, hs, hf, hfed⟩ := one_obs h g subF
  have hn := (same_kind hs).1.trans hnum
  have hk := (same_kind hs).2.trans hkind
  have hbl : y.built = .precomputedSum mono := by
    have hbl := hf.2.2.2.2
    rw [hk] at hbl
    cases mono <;> exact hbl
  have hdel : (storeOf g (assign (BitVec 64) 0) y).delta = true ↔ WantsDelta s.args (if mono then .observableCounter else .observableUpDownCounter) := by
    obtain ⟨rd, hrd, hsb⟩ := mapM_get h.built h.reader
    rw [← reader_temporality hsb]
    have ht : y.temporality = rd.temporality (if mono then .observableCounter else .observableUpDownCounter) := by
      rw [hf.2.2.2.1, hk, tempsOf, hrd]; rfl
    rw [← ht, storeOf, ownTemporality, hbl]
    cases y.temporality <;> simp
  rw [List.filterMap_cons, worksObs, hbl, hn] at hfed
  refine ⟨_, hfed, ?_⟩
  intro Y dflt res cast decode c hc t0 t st e log hw L hL hsets
  dsimp only at hw
  rw [id_asked hs hf] at hw
  constructor
  · intro hwd hstrict
    have hd := hdel.2 hwd
    rw [if_pos hd] at hw
    have := observable_changes_partial hd rfl (sumStyle_ok k mono).1 (sumStyle_ok k mono).2 hinj hplain hc (sumStyle_tells cast k mono) hw (hL.trans_eq hf.2.1.symm) hsets hstrict
    rw [sumStyle_kind] at this
    exact this
  · intro hwd al
    have hd : ¬ (storeOf g (assign (BitVec 64) 0) y).delta = true := fun hd => hwd (hdel.1 hd)
    rw [if_neg hd] at hw
    have hd' : (storeOf g (assign (BitVec 64) 0) y).delta = false := by simpa using hd
    have := observable_values_partial (sumStyle_ok k mono).1 (sumStyle_ok k mono).2 hinj hplain hc
      (fun start now kvs xs hne => assign_reads cast (sumStyle_tells cast k mono) 0 start now kvs xs hne) hw al (hL.trans_eq hf.2.1.symm) hsets
    rw [sumStyle_kind, hd'] at this
    exact this

/-- **C133, observable gauges.** The collector gets a gauge whose points tell what was observed last in the collection, whatever temporality is asked for, if no other reader
runs the callbacks. -/
theorem observable_gauge_arrives_partial (k : NumKind) (hm : d.method.text = numText k ++ "_observable_gauge") :
    ArrivesObs g subF val d (makes (tempsOf readers) (.init readers.length) before).1 (made readers before d) i fun res t0 decode c st log =>
      Obs.Alone st → GetsValues g.srt val .lastValue (TellsNum k) true res (asked d) t0 decode c st log := by
  obtain ⟨hnum, hkind⟩ : d.method.number = k ∧ d.method.kind = .observableGauge := by
    refine text_inj _ _ _ _ ?_
    rw [method_text, hm]
    cases k <;> decide +kernel
  have hasync : d.method.async = true := by
    revert hkind; cases d.method <;> simp [Method.kind, Method.async]
  refine ⟨callbacks_added h hasync, ?_⟩
  obtain ⟨y, hs, hf, hfed⟩ := one_obs h g subF
  have hn := (same_kind hs).1.trans hnum
  have hk := (same_kind hs).2.trans hkind
  have hbl : y.built = .lastValue (some .delta) := by
    have hbl := hf.2.2.2.2
    rw [hk] at hbl
    exact hbl
  have hd : (storeOf g (assign (BitVec 64) 0) y).delta = true := by
    rw [storeOf, ownTemporality, hbl]; rfl
  rw [List.filterMap_cons, worksObs, hbl, hn] at hfed
  refine ⟨_, hfed, ?_⟩
  intro Y dflt res cast decode c hc t0 t st e log hw L hL hsets al
  dsimp only at hw
  rw [id_asked hs hf] at hw
  have := observable_values_partial (gaugeOf_ok k (numOf k)).1 (gaugeOf_ok k (numOf k)).2 hinj hplain hc
    (fun start now kvs xs hne => assign_reads cast (gauge_tells cast k) 0 start now kvs xs hne) hw al (hL.trans_eq hf.2.1.symm) hsets
  rw [hd] at this
  exact this

/-! ## A case: an observable counter with two callbacks and the readers of `exProgram` -/

omit [DecidableEq V] h hinj hplain

def exObsDecl : Decl Nat := ⟨.u64ObservableCounter, MeterApi.exScope, "seen".toList, [.callback 10, .unit "1".toList, .limit 3, .callback 11]⟩

theorem exObsProgram : Program Created.exSetups exReaders [exHistogram, exDecl] exObsDecl 0 (.periodic (.stdout [.cumulative, .delta])) := by
  refine ⟨rfl, rfl, (valid_iff _).2 (by decide +kernel), ?_⟩
  intro b hb _ hsame
  simp only [List.mem_cons, List.not_mem_nil, or_false] at hb
  rcases hb with rfl | rfl <;> exact absurd hsame.1 (by decide)

example : exObsDecl.method.text = numText .u64 ++ "_" ++ (if true then "observable_counter" else "observable_up_down_counter") ∧
    WantsDelta (Setup.args (.periodic (.stdout [.cumulative, .delta]))) .observableCounter := ⟨by decide +kernel, by simp [Setup.args, ExpSetup.args, WantsDelta]⟩

def exSeen : Conc.Cfg Str Bool (BitVec 64) (BitVec 64) := ⟨stableSorter, assign (BitVec 64) 0, 3, ("otel.metric.overflow".toList, true), true⟩

/-- Its callbacks observe into one aggregation of the first reader. -/
theorem exFedObs (r : F64.Rounding) (subF : BitVec 64 → BitVec 64 → BitVec 64) :
    fedObs (exGiven r) subF (made exReaders [exHistogram, exDecl] exObsDecl).1 (made exReaders [exHistogram, exDecl] exObsDecl).2 0 =
      [⟨exSeen, Obs.changes 0 (· - ·), u64Sum true, asked exObsDecl⟩] := by
  have h1 : ((((made exReaders [exHistogram, exDecl] exObsDecl).1.pipes[0]?).map Inst.Pipe.syncs).getD []).filter
      (fun y => (0, y.agg) ∈ (made exReaders [exHistogram, exDecl] exObsDecl).2) =
      [⟨MeterApi.exScope, .observableCounter, .u64, "seen".toList, [], "1".toList, 2, .precomputedSum true, .delta, none, 3⟩] := by decide +kernel
  unfold fedObs
  rw [h1]
  rfl

/-- The hypotheses of `observable_sum_arrives_partial` are met by two collections, with 5 and 12. -/
theorem created_observable_example (cast : Cast) : ∃ (s : Obs.State Str Bool (BitVec 64) (BitVec 64)) (t : Nat) (log : List (Sending (PRequest Str (PMetric Str)))),
    Watched exSeen (Obs.changes 0 (· - ·)) (u64Sum true) Val.bool ⟨"", none, none, []⟩ ⟨[], none⟩ (asked exObsDecl)
      ⟨.metrics, .http true, [], [], fun _ => metricsMessage cast, some⟩ 1 s t ⟨true, ()⟩ log ∧ AllOk log ∧ Obs.Alone s ∧
      s.runs.map (·.shown) = [[(([("k".toList, true)] : Attrs Str Bool), 5)], [([("k".toList, true)], 7)]] ∧ ∀ e ∈ s.st.applied, Strict e.2.2 := by
  have h : (Obs.runAll exSeen (Obs.changes 0 (· - ·)) (.init exSeen)
      [.produce [(5, [("k".toList, true)])], .observe, .measuring, .measuring, .collect, .collector [], .collector [([("k".toList, true)], 0)], .collector [], .collector [],
       .produce [(12, [("k".toList, true)])], .observe, .measuring, .measuring, .collect, .collector [], .collector [([("k".toList, true)], 1)], .collector [], .collector []]).map
      (fun s => (s.st.applied, s.runs.map (·.shown))) =
      some ([(0, 5, [("k".toList, true)]), (0, 12, [("k".toList, true)])], [[(([("k".toList, true)] : Attrs Str Bool), 5)], [([("k".toList, true)], 7)]]) := by rfl
  obtain ⟨s, hs, he⟩ := Option.map_eq_some_iff.1 h
  simp only [Prod.mk.injEq] at he
  obtain ⟨t, log, hp, hl⟩ := watched_of_run (st := u64Sum true) (val := Val.bool) (dflt := ⟨"", none, none, []⟩) (res := ⟨[], none⟩) (ci := asked exObsDecl)
    (c := ⟨.metrics, .http true, [], [], fun _ => metricsMessage cast, some⟩) (t0 := 1) ⟨true, some ⟨200, 0⟩⟩ ⟨[], [], 1, 2, [], [], ⟨⟨[], none⟩, []⟩⟩
    ⟨by intro s hs; simp at hs, by intro j hj; simp at hj⟩ _ .init hs
  refine ⟨s, t, log, hp, fun x hx => ?_, ?_, he.2, ?_⟩
  · rcases hl x hx with hx | ⟨_, rfl⟩
    · cases hx
    · rfl
  all_goals
    first | rw [Obs.Alone, he.1] | rw [he.1]
    intro e hem
    simp only [List.mem_cons, List.not_mem_nil, or_false] at hem
    rcases hem with rfl | rfl <;> first | rfl | simp [Strict]

end Otel.EndToEnd.CreatedObservable
