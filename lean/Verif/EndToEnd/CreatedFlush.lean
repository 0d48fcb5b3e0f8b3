import Verif.EndToEnd.Created
import Verif.EndToEnd.Flush
import Verif.EndToEnd.Overflow
/-!
# What the collector has after a flush, and past the limit, of an instrument as declared (C135)

The readers with their temporalities and the declared instrument (C132), with the periodic reader's `force_flush` and `shutdown` (C104), and with more attribute sets than the
limit that was asked for (C109). One statement for all synchronous instruments, by a table of what the points of each tell.
-/

namespace Otel.EndToEnd.CreatedFlush
open Otel.Otlp Otel.Metrics Otel.Metrics.Inst Otel.Metrics.MeterApi Otel.Temporality Otel.EndToEnd.Created
open Rust (Str F64)
open Common (Val)

variable {V Cb : Type} [DecidableEq V]

/-! ## Specification -/

/-- What an instrument is for the collector: the values measured, the kind of instrument, the form of the metric and what a point tells of values. -/
structure Meaning where
  X : Type
  kind : Kind
  form : AggKind
  tells : Cast → WPt Str → List X → Prop

/-- What the instruments of the methods of a meter are for the collector: sums tell sums, gauges the last value, histograms count, sum, extremes and buckets for the boundaries
last given. -/
def meaning (g : Given V) (d : Decl Cb) : Option Meaning :=
  match d.method with
  | .u64Counter => some ⟨BitVec 64, .counter, .sum true, fun _ q xs => (xs.map BitVec.toNat).sum < 2 ^ 63 → TellsInt q (xs.map BitVec.toNat).sum⟩
  | .i64UpDownCounter => some ⟨BitVec 64, .upDownCounter, .sum false, fun _ q xs => -2 ^ 63 ≤ (xs.map BitVec.toInt).sum → (xs.map BitVec.toInt).sum < 2 ^ 63 →
      TellsInt q (xs.map BitVec.toInt).sum⟩
  | .f64Counter => some ⟨BitVec 64, .counter, .sum true, fun _ q xs => TellsDouble q (xs.foldl g.add g.zero)⟩
  | .f64UpDownCounter => some ⟨BitVec 64, .upDownCounter, .sum false, fun _ q xs => TellsDouble q (xs.foldl g.add g.zero)⟩
  | .u64Gauge => some ⟨BitVec 64, .gauge, .lastValue, fun _ q xs => ∀ x, xs.getLast? = some x → (Num.u64 x).Fits → ∃ p, q = .num p ∧ p.value.value = (Num.u64 x).value⟩
  | .i64Gauge => some ⟨BitVec 64, .gauge, .lastValue, fun _ q xs => ∀ x, xs.getLast? = some x → (Num.i64 x).Fits → ∃ p, q = .num p ∧ p.value.value = (Num.i64 x).value⟩
  | .f64Gauge => some ⟨BitVec 64, .gauge, .lastValue, fun _ q xs => ∀ x, xs.getLast? = some x → (Num.f64 x).Fits → ∃ p, q = .num p ∧ p.value.value = (Num.f64 x).value⟩
  | .u64Histogram => some ⟨BitVec 64 × Nat, .histogram, .histogram, fun cast q xs => ∀ ys : List (BitVec 64), xs = ys.map (histogramInput (u64Ops g.rounding) g.search (askedBounds d)) →
      ys ≠ [] → ys.length < 2 ^ 64 → (∀ y ∈ ys, (u64Ops g.rounding).toF y ≠ .nan) → TellsHistogram cast .u64 g.word (u64Ops g.rounding) (askedBounds d) true true q ys⟩
  | .f64Histogram => some ⟨F64 × Nat, .histogram, .histogram, fun cast q xs => ∀ ys : List F64, xs = ys.map (histogramInput (f64Ops g.rounding) g.search (askedBounds d)) →
      ys ≠ [] → ys.length < 2 ^ 64 → (∀ y ∈ ys, ∃ x, F64.Representable x ∧ y = .fin x) →
      TellsHistogram cast (fun x => .f64 (g.word x)) g.word (f64Ops g.rounding) (askedBounds d) true true q ys⟩
  | _ => none

/-- The table has every synchronous instrument. -/
theorem every_synchronous (g : Given V) (d : Decl Cb) : (meaning g d).isSome = true ↔ d.method.async = false := by
  unfold meaning
  cases d.method <;> simp [Method.async]

/-- The measurements of a declared instrument go to one aggregation of the reader; and for every schedule of threads, of callers of the reader and of its worker, whatever the
network does: once `force_flush` or `shutdown` has returned `Ok`, the collector has, if the reader wants what is since the start, a metric of the instrument with a point for each
set measured before the call, which tells at least what was measured before the call; and if it wants periods and no export has failed, metrics that together tell at least
that. For at most as many sets as the limit asked for. -/
def FlushArrives (g : Given V) (val : V → Val) (d : Decl Cb) (made : Prov Cb × List (Nat × Nat)) (i : Nat) (args : List Temporality) (m : Meaning) : Prop :=
  ∃ (A : Type) (cc : Conc.Cfg Str V A m.X) (st : Style Str A) (ci : CounterId Str), fed g made.1 made.2 i = [⟨A, m.X, cc, st, ci⟩] ∧
    ∀ (Y : Type) (dflt : Common.Scope Str) (res : ResVal Str) (cast : Cast) (decode : Y → Option (PRequest Str (PMetric Str)))
      (c : Exporter.Cfg Unit (Batch Str) (PRequest Str (PMetric Str)) Y), MetricCfg cast decode c → Exporter.TellsStatus c →
      ∀ (t0 t : Nat) (s : Conc.State Str V A m.X) (e : Exporter.St Unit) (log : List (Sending Y)) (p : Periodic.State), Flush.Runs cc st val dflt res ci c t0 s t e log p →
      ∀ L : List (Attrs Str V), L.length ≤ (d.last Call.limit?).getD 2000 → (∀ e ∈ s.applied, e.2.2 ≠ [] → sortAndDedup g.srt e.2.2 ∈ L) →
      ∀ tok, Flush.Succeeded p tok →
        (¬ WantsDelta args m.kind → Flush.before s p tok ≠ [] →
          ∃ x ∈ heard decode (asked d).name (requests log), (∃ now, Names m.form false res (asked d) t0 now x) ∧
            ∀ a, Conc.valuesIn g.srt (Flush.before s p tok) a ≠ [] → ∃ q ∈ wpoints x.metric.data, ∃ b xs, ReadsSet val q.attributes b ∧
              sortAndDedup g.srt b = sortAndDedup g.srt a ∧ m.tells cast q xs ∧ (Conc.valuesIn g.srt (Flush.before s p tok) a).Subperm xs ∧ xs <+: Conc.recordedOf g.srt s a) ∧
        (WantsDelta args m.kind → AllOk log → ∃ bs : List (Conc.Collection Str V A m.X × Around Str),
          List.Forall₂ (fun x y => Names m.form true res (asked d) x.2.start x.2.now y ∧
            CarriesPoints g.srt val (m.tells cast) (Conc.deltaOk g.srt x.1) (Conc.deltaMust g.srt x.1) (wpoints y.metric.data)) bs (heard decode (asked d).name (requests log)) ∧
          ∀ a, (Conc.valuesIn g.srt (Flush.before s p tok) a).Subperm (bs.flatMap fun x => Conc.setValues g.srt x.1.period (x.1.noVals.getD []) a))

/-- The same for any number of attribute sets: each metric received is the instrument's and has at most two points more than the limit asked for. If the reader wants periods,
all received points together tell each value at most once, and all but those in the store if no export has failed; if it wants what is since the start, each metric's points
together tell each value once, of those recorded before its collection ended, and all recorded before it began. -/
def NothingLost (g : Given V) (val : V → Val) (d : Decl Cb) (made : Prov Cb × List (Nat × Nat)) (i : Nat) (args : List Temporality) (m : Meaning) : Prop :=
  ∃ (A : Type) (cc : Conc.Cfg Str V A m.X) (st : Style Str A) (ci : CounterId Str), fed g made.1 made.2 i = [⟨A, m.X, cc, st, ci⟩] ∧
    ∀ (Y : Type) (dflt : Common.Scope Str) (res : ResVal Str) (cast : Cast) (decode : Y → Option (PRequest Str (PMetric Str)))
      (c : Exporter.Cfg Unit (Batch Str) (PRequest Str (PMetric Str)) Y), MetricCfg cast decode c →
      ∀ (t0 t : Nat) (s : Conc.State Str V A m.X) (e : Exporter.St Unit) (log : List (Sending Y)), Measured cc st val dflt res ci c t0 s t e log →
        (∀ x ∈ heard decode (asked d).name (requests log), (wpoints x.metric.data).length ≤ (d.last Call.limit?).getD 2000 + 2 ∧
          ∃ delta start now, (delta = true ↔ WantsDelta args m.kind) ∧ Names m.form delta res (asked d) start now x) ∧
        (WantsDelta args m.kind → ∃ xs, Shares (m.tells cast) (heardPoints decode (asked d).name (requests log)) xs ∧ xs.Subperm (Conc.allValues s) ∧
          (Exporter.TellsStatus c → AllOk log → (xs ++ Conc.pendingValues s).Perm (Conc.allValues s))) ∧
        (¬ WantsDelta args m.kind → ∃ bs : List (Conc.Collection Str V A m.X), List.Sublist bs s.done ∧
          (∀ x ∈ bs, (Conc.endValues x).Subperm (Conc.allValues s)) ∧ List.Forall₂ (fun x y => ∃ xs, Shares (m.tells cast) (wpoints y.metric.data) xs ∧ (Conc.startValues x).Subperm xs ∧ xs.Subperm (Conc.endValues x)) bs
            (heard decode (asked d).name (requests log)))

/-! ## Proofs -/

/-- What the theorems of C99, C104 and C109 need of an aggregation. -/
def Serves (g : Given V) (works : List (Works V)) (limit : Nat) (ci : CounterId Str) (args : List Temporality) (m : Meaning) : Prop :=
  ∃ (A : Type) (cc : Conc.Cfg Str V A m.X) (st : Style Str A), works = [⟨A, m.X, cc, st, ci⟩] ∧ cc.srt = g.srt ∧ st.kind = m.form ∧ cc.limit = limit ∧
    (cc.delta = true ↔ WantsDelta args m.kind) ∧ st.Fit ∧ st.Keeps ∧
    ∀ cast start now kvs xs, m.tells cast (wireOf cast st.kind start now (st.point kvs (xs.foldl cc.agg.update cc.agg.create))) xs

theorem of_right {α β : Type} {R : α → β → Prop} {l : List α} {r : List β} (h : List.Forall₂ R l r) {b : β} (hb : b ∈ r) : ∃ a ∈ l, R a b := by
  induction h with
  | nil => cases hb
  | cons hx _ ih =>
    rcases List.mem_cons.1 hb with rfl | hb
    · exact ⟨_, by simp, hx⟩
    · obtain ⟨a, ha, h⟩ := ih hb
      exact ⟨a, by simp [ha], h⟩

variable {setups : List Setup} {readers : List Reader} {before : List (Decl Cb)} {d : Decl Cb} {i : Nat} {s : Setup} (h : Program setups readers before d i s)
  (g : Given V) {val : V → Val}
include h

theorem serves (m : Meaning) (hm : meaning g d = some m) :
    Serves g (fed g (made readers before d).1 (made readers before d).2 i) ((d.last Call.limit?).getD 2000) (asked d) s.args m := by
  obtain ⟨y, hs, hf, hfed⟩ := h.one g
  have hn := (same_kind hs).1
  have hk := (same_kind hs).2
  have hbl := hf.2.2.2.2
  have hid := id_asked hs hf
  have hinc := asked_increasing (d := d) h.valid
  have hdel := fun (hsync : d.method.async = false) {A X : Type} (agg : Aggregator A X) => store_delta h.built h.reader hs hf hsync g agg
  unfold meaning at hm
  rw [← hid]
  cases hmeth : d.method <;> rw [hmeth] at hm hn hk hdel hinc <;> first | (cases hm; done) | skip
  all_goals
    injection hm with hm
    subst hm
    simp only [Method.number, Method.kind] at hn hk hinc
    rw [hk] at hbl
    dsimp only at hbl
    rw [List.filterMap_cons, works, hbl, hn] at hfed
  · exact ⟨_, _, _, hfed, rfl, rfl, hf.2.1, hdel rfl _, (u64Sum_ok _).1, (u64Sum_ok _).2, fun cast start now kvs xs => u64_reads cast _ start now kvs xs⟩
  · exact ⟨_, _, _, hfed, rfl, rfl, hf.2.1, hdel rfl _, (f64Sum_ok _).1, (f64Sum_ok _).2, fun cast start now kvs xs => f64_reads cast _ g.zero g.add start now kvs xs⟩
  · exact ⟨_, _, _, hfed, rfl, rfl, hf.2.1, hdel rfl _, (i64Sum_ok _).1, (i64Sum_ok _).2, fun cast start now kvs xs => i64_reads cast _ start now kvs xs⟩
  · exact ⟨_, _, _, hfed, rfl, rfl, hf.2.1, hdel rfl _, (f64Sum_ok _).1, (f64Sum_ok _).2, fun cast start now kvs xs => f64_reads cast _ g.zero g.add start now kvs xs⟩
  · exact ⟨_, _, _, hfed, rfl, rfl, hf.2.1, hdel rfl _, (gaugeOf_ok _ _).1, (gaugeOf_ok _ _).2, fun cast start now kvs xs => gauge_reads cast _ _ 0 start now kvs xs⟩
  · exact ⟨_, _, _, hfed, rfl, rfl, hf.2.1, hdel rfl _, (gaugeOf_ok _ _).1, (gaugeOf_ok _ _).2, fun cast start now kvs xs => gauge_reads cast _ _ 0 start now kvs xs⟩
  · exact ⟨_, _, _, hfed, rfl, rfl, hf.2.1, hdel rfl _, (gaugeOf_ok _ _).1, (gaugeOf_ok _ _).2, fun cast start now kvs xs => gauge_reads cast _ _ 0 start now kvs xs⟩
  · refine ⟨_, _, _, hfed, rfl, rfl, hf.2.1, hdel rfl _, (histogramOf_ok _ _ _ _ _ _ _).1, (histogramOf_ok _ _ _ _ _ _ _).2,
      fun cast start now kvs xs ys hx hne hlen hy => histogram_reads cast .f64 (fun x => .f64 (g.word x)) g.word (f64Ops g.rounding) g.search _ (hinc trivial) true true (fun x => x ≠ .nan)
        (f64_total _) (by show F64.MAX ≠ .nan; decide +kernel) (by show F64.MIN ≠ .nan; decide +kernel) start now kvs xs ys hx hne hlen fun z hz => ?_⟩
    obtain ⟨x, hx, rfl⟩ := hy z hz
    exact ⟨by simp, by simp [f64Ops], (f64_bounds _ x hx).1, (f64_bounds _ x hx).2⟩
  · exact ⟨_, _, _, hfed, rfl, rfl, hf.2.1, hdel rfl _, (histogramOf_ok _ _ _ _ _ _ _).1, (histogramOf_ok _ _ _ _ _ _ _).2,
      fun cast start now kvs xs ys hx hne hlen hy => histogram_reads cast .u64 .u64 g.word (u64Ops g.rounding) g.search _ (hinc trivial) true true (fun _ => True) (u64_total _) trivial trivial
        start now kvs xs ys hx hne hlen fun z hz => ⟨trivial, hy z hz, (u64_bounds _ z).1, (u64_bounds _ z).2⟩⟩

variable (hinj : Function.Injective val) (hplain : ∀ v, NotEmptyArray (val v))
include hinj hplain

/-- **C135, flush.** For every synchronous instrument as declared. -/
theorem declared_flushed_partial (m : Meaning) (hm : meaning g d = some m) : FlushArrives g val d (made readers before d) i s.args m := by
  obtain ⟨A, cc, st, hfed, hsrt, hkind, hlim, hdel, hfit, hkeep, hreads⟩ := serves h g m hm
  refine ⟨A, cc, st, _, hfed, ?_⟩
  intro Y dflt res cast decode c hc ht t0 t s e log p hr L hL hsets tok hok
  rw [← hsrt, ← hkind]
  rw [← hsrt] at hsets
  rw [← hlim] at hL
  constructor
  · intro hw hne
    have hd : cc.delta = false := by
      cases h : cc.delta with
      | false => rfl
      | true => exact absurd (hdel.1 h) hw
    exact Flush.flushed_cumulative_partial hd hfit hkeep hinj hplain hc ht (hreads cast) hr hL hsets hok hne
  · intro hw hall
    exact Flush.flushed_delta_partial (hdel.2 hw) hfit hkeep hinj hplain hc ht (hreads cast) hr hL hsets hok hall

/-- **C135, past the limit.** For every synchronous instrument as declared and any number of attribute sets. -/
theorem declared_nothing_lost (m : Meaning) (hm : meaning g d = some m) : NothingLost g val d (made readers before d) i s.args m := by
  obtain ⟨A, cc, st, hfed, hsrt, hkind, hlim, hdel, hfit, hkeep, hreads⟩ := serves h g m hm
  refine ⟨A, cc, st, _, hfed, ?_⟩
  intro Y dflt res cast decode c hc t0 t s e log hr
  rw [← hlim]
  cases hcd : cc.delta with
  | true =>
    obtain ⟨all, bs, -, -, -, hb, -⟩ := overflow_delta hcd hfit hkeep hinj hplain hc (hreads cast) hr
    refine ⟨fun x hx => ?_, fun _ => overflow_nothing_lost hcd hfit hkeep hinj hplain hc (hreads cast) hr, fun hw => absurd (hdel.1 hcd) hw⟩
    obtain ⟨b, -, hbx⟩ := of_right hb hx
    exact ⟨hbx.2.1, true, _, _, by simpa [hcd] using hdel, hkind ▸ hbx.1⟩
  | false =>
    obtain ⟨all, bs, h1, h2, -, hb, hend, -⟩ := overflow_cumulative hcd hfit hkeep hinj hplain hc (hreads cast) hr
    refine ⟨fun x hx => ?_, fun hw => absurd (hdel.2 hw) (by simp [hcd]), fun _ => ⟨bs.map Prod.fst, h1 ▸ h2.map _, ?_, ?_⟩⟩
    · obtain ⟨b, -, hbx⟩ := of_right hb hx
      exact ⟨hbx.2.1, false, _, _, by simpa [hcd] using hdel, hkind ▸ hbx.1⟩
    · intro x hx
      obtain ⟨y, hy, rfl⟩ := List.mem_map.1 hx
      exact (hend y hy).1
    · rw [List.forall₂_map_left_iff]
      exact hb.imp fun x y hxy => hxy.2.2.2

/-! ## A case: the counter of C132's case, flushed -/

omit [DecidableEq V] h hinj hplain

def exAnswer : Exporter.World := ⟨true, some ⟨200, 0⟩⟩

/-- A measurement, `force_flush`, and the worker's collection and export. -/
def exSteps : List (Flush.Act Str Bool (BitVec 64)) :=
  [.measure (.call 0 5 [("k".toList, true)]), .measure (.thread 0), .measure (.thread 0), .caller (.flush 2), .caller (.thread 2), .caller .take, .begin, .walk [] exAnswer,
   .walk [([("k".toList, true)], 0)] exAnswer, .walk [] exAnswer, .walk [] exAnswer, .answer, .caller (.thread 2)]

/-- The hypotheses of `declared_flushed_partial` are met by a run of the store of `exFed`: the flush has returned `Ok`, and 5 had been recorded before it. -/
theorem declared_flushed_example (cast : Cast) : ∃ (s : Conc.State Str Bool (BitVec 64) (BitVec 64)) (t : Nat) (e : Exporter.St Unit)
    (log : List (Sending (PRequest Str (PMetric Str)))) (p : Periodic.State),
    Flush.Runs exHits (u64Sum true) Val.bool ⟨"", none, none, []⟩ ⟨[], none⟩ (asked exDecl) ⟨.metrics, .http true, [], [], fun _ => metricsMessage cast, some⟩ 1 s t e log p ∧
      Flush.Succeeded p 0 ∧ Flush.before s p 0 = [(0, 5, [("k".toList, true)])] ∧ AllOk log := by
  have h : (Flush.execAll exHits (u64Sum true) Val.bool ⟨"", none, none, []⟩ ⟨[], none⟩ (asked exDecl) ⟨.metrics, .http true, [], [], fun _ => metricsMessage cast, some⟩
      ⟨[], [], 1, 2, [], [], ⟨⟨[], none⟩, []⟩⟩ ⟨.init exHits, 1, ⟨true, ()⟩, [], .init⟩ exSteps).map (fun x => (x.p.returned, Flush.before x.s x.p 0, x.log.map (·.outcome)))
      = some ([(0, .ok)], [(0, 5, [("k".toList, true)])], [.ok]) := by rfl
  obtain ⟨x, hx, he⟩ := Option.map_eq_some_iff.1 h
  simp only [Prod.mk.injEq] at he
  have hr := Flush.runs_execAll ⟨by intro s hs; simp at hs, by intro j hj; simp at hj⟩ _ Flush.Runs.init hx
  refine ⟨x.s, x.t, x.e, x.log, x.p, hr, by rw [Flush.Succeeded, he.1]; simp, he.2.1, fun y hy => ?_⟩
  have := List.mem_map_of_mem (f := fun z : Sending (PRequest Str (PMetric Str)) => z.outcome) hy
  rw [he.2.2] at this
  simpa using this

end Otel.EndToEnd.CreatedFlush
