import Verif.EndToEnd.CreatedReaders
import Verif.EndToEnd.ViewedAll
/-!
# An instrument that a view selects, with several readers, when the provider is flushed (C136)

As `EndToEnd/CreatedReaders.lean`, with a view (C134): each reader has its own pipeline, temporalities and instruments; the views are the provider's.
opentelemetry-sdk/src/metrics/{view,pipeline,meter_provider,instrument}.rs.

Simplifications: those of `Viewed.lean`, `Flush.lean` and `Readers.lean`.
-/

namespace Otel.EndToEnd.ViewedReaders
open Otel.Otlp Otel.Metrics Otel.Metrics.Inst Otel.Temporality Otel.EndToEnd.Created Otel.EndToEnd.CreatedFlush Otel.EndToEnd.Viewed Otel.EndToEnd.CreatedReaders
open Otel.EndToEnd.Readers (Way Sys Act every_reader_takes_all provider_asks_all provider_ok_all provider_flush_cumulative_partial provider_flush_delta_partial gexecAll reach_execAll)
open Rust (Str F64)
open Common (Val)
open Periodic (Ret)

variable {V : Type} [DecidableEq V]

/-- A reader with the attribute filter of the view before its store. meter_provider.rs:168-263, internal/aggregate.rs:68-81 -/
def wayAs {A X Y : Type} (cc : Conc.Cfg Str V A X) (st : Style Str A) (val : V → Val) (dflt : Common.Scope Str) (res : ResVal Str) (ci : CounterId Str)
    (c : Exporter.Cfg Unit (Batch Str) (PRequest Str (PMetric Str)) Y) (t0 : Nat) (keys : Option (List Str)) : Way Str V A X Y := ⟨cc, st, val, dflt, res, ci, c, t0, kept keys⟩

/-! ## Specification -/

/-- What the collector of one reader has of measurements `old`, as the view wants it: as `CreatedReaders.Has`, by the sets of the attributes that the view allows. -/
def HasAs {A Y : Type} (g : Given V) (val : V → Val) (mask : Stream) (i : Instrument) (args : List Temporality) (m : Meaning) (cast : Cast) (res : ResVal Str) (t0 : Nat)
    (decode : Y → Option (PRequest Str (PMetric Str))) (recorded : Attrs Str V → List m.X) (log : List (Sending Y)) (old : List (Nat × m.X × Attrs Str V)) : Prop :=
  (¬ WantsDelta args m.kind → old ≠ [] →
    ∃ x ∈ heard decode (viewedAs mask i).name (requests log), (∃ now, Names m.form false res (viewedAs mask i) t0 now x) ∧
      ∀ a, measuredAs g.srt mask old a ≠ [] → ∃ q ∈ wpoints x.metric.data, ∃ b xs, ReadsSet val q.attributes b ∧
        sortAndDedup g.srt b = sortAndDedup g.srt a ∧ m.tells cast q xs ∧ (measuredAs g.srt mask old a).Subperm xs ∧ xs <+: recorded a) ∧
  (WantsDelta args m.kind → AllOk log → ∃ bs : List (Conc.Collection Str V A m.X × Around Str),
    List.Forall₂ (fun x y => Names m.form true res (viewedAs mask i) x.2.start x.2.now y ∧
      CarriesPoints g.srt val (m.tells cast) (Conc.deltaOk g.srt x.1) (Conc.deltaMust g.srt x.1) (wpoints y.metric.data)) bs (heard decode (viewedAs mask i).name (requests log)) ∧
    ∀ a, (measuredAs g.srt mask old a).Subperm (bs.flatMap fun x => Conc.setValues g.srt x.1.period (x.1.noVals.getD []) a))

/-- As `CreatedReaders.AllReadersFlushed`: each reader has one aggregation for the instrument; for every schedule, when the provider's `force_flush` or `shutdown` has returned
`Ok`, all readers have answered `Ok`; and the collector of each reader that has answered `Ok` has what was measured before the call as the view wants it. For at most as many sets of
allowed attributes as the view's limit. -/
def AllReadersFlushedAs {n : Nat} (g : Given V) (val : V → Val) (mask : Stream) (fed : Fin n → List (Works V × Option (List Str))) (i : Instrument)
    (args : Fin n → List Temporality) (m : Meaning) : Prop :=
  ∃ (A : Fin n → Type) (cc : (j : Fin n) → Conc.Cfg Str V (A j) m.X) (st : (j : Fin n) → Style Str (A j)),
    (∀ j, fed j = [(⟨A j, m.X, cc j, st j, viewedAs mask i⟩, mask.allowedKeys)]) ∧
    ∀ (Y : Fin n → Type) (dflt : Common.Scope Str) (res : ResVal Str) (cast : Cast) (decode : (j : Fin n) → Y j → Option (PRequest Str (PMetric Str)))
      (c : (j : Fin n) → Exporter.Cfg Unit (Batch Str) (PRequest Str (PMetric Str)) (Y j)) (t0 : Fin n → Nat), (∀ j, MetricCfg cast (decode j) (c j)) →
      (∀ j, Exporter.TellsStatus (c j)) →
      ∀ w : Sys (Fin n) Str V m.X A Y, Readers.Reach (fun j => wayAs (cc j) (st j) val dflt res (viewedAs mask i) (c j) (t0 j) mask.allowedKeys) (List.finRange n) w →
        ∀ r ∈ w.results, r.start <+: w.finished ∧ (r.asked = true → ∀ j, ∃ tok a, (j, tok, a) ∈ r.answers) ∧
          (r.ok = true → ∀ j, ∃ tok, (j, tok, Ret.ok) ∈ r.answers) ∧
          ∀ L : List (Attrs Str V), L.length ≤ mask.cardinalityLimit.getD 2000 →
            (∀ e ∈ w.begun, (e.2.2.filter fun kv => Allowed mask kv) ≠ [] → sortAndDedup g.srt (e.2.2.filter fun kv => Allowed mask kv) ∈ L) →
            ∀ j tok, (j, tok, Ret.ok) ∈ r.answers →
              HasAs (A := A j) g val mask i (args j) m cast res (t0 j) (decode j) (fun a => Conc.recordedOf g.srt (w.side j).s a) (w.side j).log r.start

/-! ## Proofs -/

theorem values_as {A X Y : Type} (cc : Conc.Cfg Str V A X) (st : Style Str A) (val : V → Val) (dflt : Common.Scope Str) (res : ResVal Str) (ci : CounterId Str)
    (c : Exporter.Cfg Unit (Batch Str) (PRequest Str (PMetric Str)) Y) (t0 : Nat) (mask : Stream) (srt : Sorter Str V) (l : List (Nat × X × Attrs Str V)) (a : Attrs Str V) :
    Conc.valuesIn srt (l.map (wayAs cc st val dflt res ci c t0 mask.allowedKeys).entry) a = measuredAs srt mask l a := values_kept srt l a

/-- **C136, views.** Readers set up somehow, the pipeline of each after any requests, and a request for an instrument that one of the provider's views selects. -/
theorem viewed_provider_flushed_partial {n : Nat} {s : Fin n → Setup} {rd : Fin n → Reader} {glob : Str → Option (Str → Bool)} {criteria : Instrument} {mask : Stream}
    {views : List View} {q : Fin n → Inst.Pipe} {r : Request} {kind : Kind} (h : ∀ j, Case (s j) (rd j) glob criteria mask views (q j) r kind) (g : Given V) {val : V → Val}
    (hinj : Function.Injective val) (hplain : ∀ v, NotEmptyArray (val v)) (f : Form) (hf : asksFor kind mask.aggregation = some f)
    (hb : ∀ bs mm, mask.aggregation = some (.explicitBucketHistogram bs mm) → Increasing bs) :
    AllReadersFlushedAs g val mask (fun j => fedBy g views (rd j).temporality (q j) r) r.inst (fun j => (s j).args) (formMeaning g kind f r.number) := by
  have hs : ∀ j, ∃ (A : Type) (cc : Conc.Cfg Str V A (formMeaning g kind f r.number).X) (st : Style Str A),
      fedBy g views (rd j).temporality (q j) r = [(⟨A, (formMeaning g kind f r.number).X, cc, st, viewedAs mask r.inst⟩, mask.allowedKeys)] ∧ cc.srt = g.srt ∧
      st.kind = (formMeaning g kind f r.number).form ∧ cc.limit = mask.cardinalityLimit.getD 2000 ∧
      (cc.delta = true ↔ WantsDelta (s j).args (formMeaning g kind f r.number).kind) ∧ st.Fit ∧ st.Keeps ∧
      ∀ cast start now kvs xs, (formMeaning g kind f r.number).tells cast (wireOf cast st.kind start now (st.point kvs (xs.foldl cc.agg.update cc.agg.create))) xs := by
    intro j
    obtain ⟨w, hfed, A, cc, st, hw, hrest⟩ := view_serves (h j) g f hf hb
    injection hw with hw
    subst hw
    exact ⟨A, cc, st, hfed, hrest⟩
  choose A cc st hfed hsrt hkind hlim hdel hfit hkeep hreads using hs
  refine ⟨A, cc, st, hfed, ?_⟩
  intro Y dflt res cast decode c t0 hc ht w hr rr hres
  have hn : (List.finRange n).Nodup := List.nodup_finRange _
  have hall := provider_asks_all hn hr hres
  refine ⟨hall.1, fun ha j => hall.2.1 ha j (List.mem_finRange j), fun hok j => provider_ok_all hn hr hres hok j (List.mem_finRange j), ?_⟩
  intro L hL hsets j tok hok
  have hLj : L.length ≤ (cc j).limit := by rw [hlim j]; exact hL
  have hsj : ∀ e ∈ (w.side j).s.applied, e.2.2 ≠ [] → sortAndDedup (cc j).srt e.2.2 ∈ L := by
    intro e he hne
    obtain ⟨b, hb, hbe⟩ := applied_begun hn hr (List.mem_finRange j) e he hne
    have hbe : (b.2.2.filter fun kv => Allowed mask kv) = e.2.2 := by rw [← kept_eq]; exact hbe
    rw [hsrt j, ← hbe]
    exact hsets b hb (hbe ▸ hne)
  constructor
  · intro hw hne
    have hd : (cc j).delta = false := by
      cases h : (cc j).delta with
      | false => rfl
      | true => exact absurd ((hdel j).1 h) hw
    have := provider_flush_cumulative_partial hn hr hres hok hne hd (hfit j) (hkeep j) hinj hplain (hc j) (ht j) (hreads j cast) hLj hsj
    simp only [values_as] at this
    rw [← hsrt j, ← hkind j]
    exact this
  · intro hw hlog
    have := provider_flush_delta_partial hn hr hres hok ((hdel j).2 hw) (hfit j) (hkeep j) hinj hplain (hc j) (ht j) (hreads j cast) hLj hsj hlog
    simp only [values_as] at this
    rw [← hsrt j, ← hkind j]
    exact this

/-! ## A case: the view of `Viewed.lean`, two readers, the first with delta; two measurements that differ in what the view leaves out, and a flush of the provider -/

def exTwo (j : Fin 2) : Setup := if j = 0 then Viewed.exSetup else .periodic (.stdout [])
def exTwoBuilt (j : Fin 2) : Reader := (exTwo j).build.getD .prometheus

/-- The hypotheses of `viewed_provider_flushed_partial` are met. -/
theorem exTwoCases (j : Fin 2) : Case (exTwo j) (exTwoBuilt j) exGlob exCriteria exMask exViews .init exRequest .counter := by
  match j with
  | 0 => exact ⟨rfl, ⟨[], rfl⟩, exCase.keeps, rfl, exCase.view, exCase.new⟩
  | 1 => exact ⟨rfl, ⟨[], rfl⟩, exCase.keeps, rfl, exCase.view, exCase.new⟩

def exTwoStores (j : Fin 2) : Conc.Cfg Str Bool (BitVec 64) (BitVec 64) := { exClicks with delta := j = 0 }

/-- The stores of the two readers, with the view's filter before them. -/
theorem exTwoFed (r : F64.Rounding) (j : Fin 2) : fedBy (exGiven r) exViews (exTwoBuilt j).temporality .init exRequest =
    [(⟨_, _, exTwoStores j, u64Sum true, viewedAs exMask exRequest.inst⟩, some ["k".toList])] := by
  have h1 : (instrument exViews (exTwoBuilt j).temporality exRequest.number .init exRequest.inst exRequest.boundaries exRequest.limit).1.syncs =
      [⟨MeterApi.exScope, .counter, .u64, "clicks".toList, "all".toList, "1".toList, 0, .sum true, if j = 0 then .delta else .cumulative, some ["k".toList], 3⟩] := by
    revert j; decide +kernel
  have h2 : (instrument exViews (exTwoBuilt j).temporality exRequest.number .init exRequest.inst exRequest.boundaries exRequest.limit).2 = some [0] := by
    revert j; decide +kernel
  unfold fedBy
  dsimp only
  rw [h1, h2]
  match j with
  | 0 => rfl
  | 1 => rfl

def exTwoWays (cast : Cast) (j : Fin 2) : Way Str Bool (BitVec 64) (BitVec 64) (PRequest Str (PMetric Str)) :=
  wayAs (exTwoStores j) (u64Sum true) Val.bool ⟨"", none, none, []⟩ ⟨[], none⟩ (viewedAs exMask exRequest.inst) ⟨.metrics, .http true, [], [], fun _ => metricsMessage cast, some⟩ 1
    (some ["k".toList])

/-- A run: both are measured, then the provider is flushed; the answer is `Ok`; each reader has one point for both. -/
theorem viewed_provider_example (cast : Cast) : ∃ w, Readers.Reach (exTwoWays cast) (List.finRange 2) w ∧ (∃ r ∈ w.results, r.ok = true ∧ r.start = exMeasured) ∧
    ∀ j, AllOk (w.side j).log ∧ (w.side j).s.done.map (·.points) = [[(([("k".toList, true)] : Attrs Str Bool), 7)]] := by
  have h : (gexecAll (exTwoWays cast) (List.finRange 2) ⟨[], [], 1, 2, [], [], ⟨⟨[], none⟩, []⟩⟩ ⟨fun j => (exTwoWays cast j).init, [], [], [], [], false, []⟩
      ((exMeasured.flatMap fun m => Act.call m.1 m.2.1 m.2.2 :: List.replicate 7 (.thread 0)) ++ [.flush 2 true] ++ exTurn 0 ++ exTurn 1 ++ [.asks 2])).map
      (fun w => (w.results.map fun r => (r.start, r.ok), (w.side 0).log.map (·.outcome), (w.side 1).log.map (·.outcome), (w.side 0).s.done.map (·.points),
        (w.side 1).s.done.map (·.points))) =
      some ([(exMeasured, true)], [.ok], [.ok], [[(([("k".toList, true)] : Attrs Str Bool), 7)]], [[(([("k".toList, true)] : Attrs Str Bool), 7)]]) := by rfl
  obtain ⟨w, hw, he⟩ := Option.map_eq_some_iff.1 h
  simp only [Prod.mk.injEq] at he
  refine ⟨w, reach_execAll (fun i => ⟨by intro s hs; simp at hs, by intro j hj; simp at hj⟩) _ .init hw, ?_, fun j => ?_⟩
  · obtain ⟨r, hr, hv⟩ := List.map_eq_singleton_iff.1 he.1
    simp only [Prod.mk.injEq] at hv
    exact ⟨r, by rw [hr]; simp, hv.2, hv.1⟩
  · have hi : (w.side j).log.map (·.outcome) = [.ok] ∧ (w.side j).s.done.map (·.points) = [[(([("k".toList, true)] : Attrs Str Bool), 7)]] := by
      match j with
      | 0 => exact ⟨he.2.1, he.2.2.2.1⟩
      | 1 => exact ⟨he.2.2.1, he.2.2.2.2⟩
    obtain ⟨x, hx, ho⟩ := List.map_eq_singleton_iff.1 hi.1
    refine ⟨fun y hy => ?_, hi.2⟩
    rw [hx, List.mem_singleton] at hy
    rw [hy, ho]

end Otel.EndToEnd.ViewedReaders
