import Verif.Metrics.MeterApi
import Verif.EndToEnd.Temporality
import Verif.EndToEnd.Instruments
import Verif.EndToEnd.ExpoInstrument
import Verif.EndToEnd.Proto
/-!
# From the calls that set up readers and create an instrument to the collector (C132)

The readers with their temporalities (C129), the builder of an instrument (C130) and the measurements on their way (C99) together: `AggregateBuilder` makes the aggregation
that C130 chooses, with the temporality of C129, and what the collector receives is stated in terms of what was asked for. Synchronous instruments, no views.
-/

namespace Otel.EndToEnd.Created
open Otel.Otlp Otel.Metrics Otel.Metrics.Inst Otel.Metrics.MeterApi Otel.Temporality
open Rust (Str F64)
open Common (Val)

/-! ## Model -/

variable {V Cb : Type} [DecidableEq V]

/-- What the model leaves open: the arithmetic of doubles, as words and as numbers, the search in a sorted slice, the sort of attributes, the overflow
attribute, the logarithm of exponential histograms and whether arithmetic is checked. -/
structure Given (V : Type) where
  rounding : F64.Rounding
  zero : BitVec 64
  add : BitVec 64 → BitVec 64 → BitVec 64
  word : F64 → BitVec 64
  search : PartitionPoint
  srt : Sorter Str V
  overflow : Str × V
  ln : Expo.Ln
  checks : Bool

/-- The name, description, unit and scope a reader exports an instrument with. opentelemetry-sdk/src/metrics/pipeline.rs:376-384, 117-172 -/
def idOf (y : Sync) : CounterId Str :=
  ⟨⟨String.ofList y.scope.name, y.scope.version.map String.ofList, y.scope.schemaUrl.map String.ofList, y.scope.attrs.map fun a => (a.1, .str (String.ofList a.2))⟩,
    String.ofList y.name, String.ofList y.description, String.ofList y.unit⟩

/-- An aggregation at work: a store, how it is reported and as what. -/
structure Works (V : Type) where
  A : Type
  X : Type
  cc : Conc.Cfg Str V A X
  st : Style Str A
  id : CounterId Str

/-- The store of an aggregator: the limit and temporality of its `AggregateBuilder`. internal/aggregate.rs:132-214 -/
def storeOf {A X : Type} (g : Given V) (agg : Aggregator A X) (y : Sync) : Conc.Cfg Str V A X :=
  ⟨g.srt, agg, y.limit, g.overflow, match ownTemporality y with | .delta => true | _ => false⟩

/-- The number type of the points of a gauge. -/
def numOf : NumKind → BitVec 64 → Num
  | .u64 => .u64
  | .i64 => .i64
  | .f64 => .f64

/-- `AggregateBuilder`'s methods for the number types. internal/aggregate.rs:147-214, sum.rs:43-68, last_value.rs:42-64, histogram.rs:79-109,
exponential_histogram.rs:363-389. Those of observable instruments are C133. -/
def works (g : Given V) (y : Sync) : Option (Works V) :=
  match y.built, y.number with
  | .sum m, .u64 => some ⟨_, _, storeOf g (increment (BitVec 64)) y, u64Sum m, idOf y⟩
  | .sum m, .i64 => some ⟨_, _, storeOf g (increment (BitVec 64)) y, i64Sum m, idOf y⟩
  | .sum m, .f64 => some ⟨_, _, storeOf g ⟨g.zero, g.add⟩ y, f64Sum m, idOf y⟩
  | .lastValue _, k => some ⟨_, _, storeOf g (assign (BitVec 64) 0) y, gaugeOf k (numOf k), idOf y⟩
  | .explicitBucketHistogram bs mm rs, .u64 =>
    some ⟨_, _, storeOf g (bucketsAgg (u64Ops g.rounding) (bs.length + 1)) y, histogramOf .u64 .u64 g.word (u64Ops g.rounding) bs mm rs, idOf y⟩
  | .explicitBucketHistogram bs mm rs, .i64 =>
    some ⟨_, _, storeOf g (bucketsAgg (i64Ops g.rounding) (bs.length + 1)) y, histogramOf .i64 .i64 g.word (i64Ops g.rounding) bs mm rs, idOf y⟩
  | .explicitBucketHistogram bs mm rs, .f64 =>
    some ⟨_, _, storeOf g (bucketsAgg (f64Ops g.rounding) (bs.length + 1)) y, histogramOf .f64 (fun x => .f64 (g.word x)) g.word (f64Ops g.rounding) bs mm rs, idOf y⟩
  | .exponentialHistogram size scale mm rs, .u64 =>
    some ⟨_, _, storeOf g (expoAgg (u64Ops g.rounding) g.ln g.checks (BitVec.ofNat 32 size).toInt scale) y,
      expoOf .u64 .u64 (u64Ops g.rounding) (BitVec.ofNat 32 size).toInt scale mm rs, idOf y⟩
  | .exponentialHistogram size scale mm rs, .i64 =>
    some ⟨_, _, storeOf g (expoAgg (i64Ops g.rounding) g.ln g.checks (BitVec.ofNat 32 size).toInt scale) y,
      expoOf .i64 .i64 (i64Ops g.rounding) (BitVec.ofNat 32 size).toInt scale mm rs, idOf y⟩
  | .exponentialHistogram size scale mm rs, .f64 =>
    some ⟨_, _, storeOf g (expoAgg (f64Ops g.rounding) g.ln g.checks (BitVec.ofNat 32 size).toInt scale) y,
      expoOf .f64 (fun x => .f64 (g.word x)) (f64Ops g.rounding) (BitVec.ofNat 32 size).toInt scale mm rs, idOf y⟩
  | _, _ => none

/-- The aggregations of a reader that the measurements of an instrument go to; `dest` is what `make` gave. -/
def fed (g : Given V) (p : Prov Cb) (dest : List (Nat × Nat)) (i : Nat) : List (Works V) :=
  (((p.pipes[i]?).map Inst.Pipe.syncs).getD [] |>.filter fun y => (i, y.agg) ∈ dest).filterMap (works g)

/-! ## Specification -/

/-- Two declarations of the same instrument: the same method of the same meter, with the same last description and unit, and names that differ in the case of letters at most. -/
def SameDecl (b d : Decl Cb) : Prop :=
  b.method = d.method ∧ b.scope = d.scope ∧ b.name.map asciiLower = d.name.map asciiLower ∧
    (b.last Call.description?).getD [] = (d.last Call.description?).getD [] ∧ (b.last Call.unit?).getD [] = (d.last Call.unit?).getD []

/-- Scope, name, last description and last unit of a declaration. -/
def asked (d : Decl Cb) : CounterId Str :=
  ⟨⟨String.ofList d.scope.name, d.scope.version.map String.ofList, d.scope.schemaUrl.map String.ofList, d.scope.attrs.map fun a => (a.1, .str (String.ofList a.2))⟩,
    String.ofList d.name, String.ofList ((d.last Call.description?).getD []), String.ofList ((d.last Call.unit?).getD [])⟩

/-- The collector gets the measurements period by period: periods follow each other, each metric is the instrument's and has one point for each set measured in its period,
and what is told for a set is part of what was recorded for it, all of it but for what is in the store if all exports succeed. -/
def ByPeriod {A X Y : Type} (srt : Sorter Str V) (val : V → Val) (kind : AggKind) (reads : WPt Str → List X → Prop) (res : ResVal Str) (ci : CounterId Str) (t0 : Nat)
    (decode : Y → Option (PRequest Str (PMetric Str))) (c : Exporter.Cfg Unit (Batch Str) (PRequest Str (PMetric Str)) Y) (s : Conc.State Str V A X) (log : List (Sending Y)) : Prop :=
  ∃ all bs : List (Conc.Collection Str V A X × Around Str), all.map Prod.fst = s.done ∧
    (all.map fun x => (x.2.start, x.2.now)) = intervals timeDelta t0 (all.map (·.2.now)) ∧ List.Sublist bs all ∧
    List.Forall₂ (fun x m => Names kind true res ci x.2.start x.2.now m ∧
      CarriesPoints srt val reads (Conc.deltaOk srt x.1) (Conc.deltaMust srt x.1) (wpoints m.metric.data)) bs (heard decode ci.name (requests log)) ∧
    (∀ a, List.Sublist (bs.flatMap fun x => Conc.setValues srt x.1.period (x.1.noVals.getD []) a) (Conc.recordedOf srt s a)) ∧
    (Exporter.TellsStatus c → AllOk log → ∀ a, Conc.recordedOf srt s a = (bs.flatMap fun x => Conc.setValues srt x.1.period (x.1.noVals.getD []) a) ++
      Conc.setValues srt (s.cur.period ++ s.hist) (s.cur.noVals.getD [] ++ s.noHist) a)

/-- The collector gets all measurements since the start again and again: each metric is the instrument's and its points tell all values of their sets up to a moment of the
collection, at least all recorded before it began. -/
def SinceStart {A X Y : Type} (srt : Sorter Str V) (val : V → Val) (kind : AggKind) (reads : WPt Str → List X → Prop) (res : ResVal Str) (ci : CounterId Str) (t0 : Nat)
    (decode : Y → Option (PRequest Str (PMetric Str))) (c : Exporter.Cfg Unit (Batch Str) (PRequest Str (PMetric Str)) Y) (s : Conc.State Str V A X) (log : List (Sending Y)) : Prop :=
  ∃ all bs : List (Conc.Collection Str V A X × Around Str), all.map Prod.fst = s.done ∧
    (all.map fun x => (x.2.start, x.2.now)) = intervals timeCumulative t0 (all.map (·.2.now)) ∧ List.Sublist bs all ∧
    (Exporter.TellsStatus c → AllOk log → bs = all.filter fun x => !x.1.points.isEmpty) ∧
    List.Forall₂ (fun x m => Names kind false res ci t0 x.2.now m ∧
      CarriesPoints srt val reads (Conc.cumOk srt x.1) (Conc.cumMust srt x.1) (wpoints m.metric.data)) bs (heard decode ci.name (requests log)) ∧
    (∀ x ∈ bs, ∀ a xs, Conc.cumOk srt x.1 a xs → Conc.setValues srt x.1.startHist x.1.startNo a <+: xs ∧ xs <+: Conc.recordedOf srt s a) ∧
    bs.Pairwise fun x y => ∀ a xs ys, Conc.cumOk srt x.1 a xs → Conc.cumOk srt y.1 a ys → xs <+: ys

/-- The measurements of a declared instrument go, for a reader set up with the temporalities `args`, to exactly one aggregation; and for every schedule of threads and
collections, whatever the network does and with any wire format that can be read, the collector gets the instrument as asked for: period by period if the last temporality
given asks for delta for its kind, and else since the start. For at most as many attribute sets as the last limit given, or 2000. -/
def Arrives (g : Given V) (val : V → Val) (d : Decl Cb) (made : Prov Cb × List (Nat × Nat)) (i : Nat) (args : List Temporality) (k : Kind) (kind : AggKind) (X : Type)
    (reads : Cast → WPt Str → List X → Prop) : Prop :=
  ∃ (A : Type) (cc : Conc.Cfg Str V A X) (st : Style Str A) (ci : CounterId Str), fed g made.1 made.2 i = [⟨A, X, cc, st, ci⟩] ∧
    ∀ (Y : Type) (dflt : Common.Scope Str) (res : ResVal Str) (cast : Cast) (decode : Y → Option (PRequest Str (PMetric Str)))
      (c : Exporter.Cfg Unit (Batch Str) (PRequest Str (PMetric Str)) Y), MetricCfg cast decode c →
      ∀ (t0 t : Nat) (s : Conc.State Str V A X) (e : Exporter.St Unit) (log : List (Sending Y)), Measured cc st val dflt res ci c t0 s t e log →
      ∀ L : List (Attrs Str V), L.length ≤ (d.last Call.limit?).getD 2000 → (∀ e ∈ s.applied, e.2.2 ≠ [] → sortAndDedup g.srt e.2.2 ∈ L) →
        (WantsDelta args k → ByPeriod g.srt val kind (reads cast) res (asked d) t0 decode c s log) ∧
        (¬ WantsDelta args k → SinceStart g.srt val kind (reads cast) res (asked d) t0 decode c s log)

/-! ## Proofs -/

/-- What a reader has aggregators for was declared. -/
theorem syncs_declared (temps : Nat → Kind → Temporality) (n : Nat) : ∀ (ds : List (Decl Cb)) (p : Prov Cb), Good temps n p → ∀ (i : Nat) (q : Inst.Pipe),
    (makes temps p ds).1.pipes[i]? = some q → ∀ z ∈ q.syncs, (∃ q0, p.pipes[i]? = some q0 ∧ z ∈ q0.syncs) ∨ ∃ b ∈ ds, b.Valid ∧ Same b z
  | [], p, _, i, q, h, z, hz => Or.inl ⟨q, h, hz⟩
  | d :: ds, p, hp, i, q, h, z, hz => by
    rcases syncs_declared temps n ds _ (good_make temps n p hp d) i q h z hz with ⟨q1, h1, hz1⟩ | ⟨b, hb, h1⟩
    · by_cases hd : d.Valid
      · obtain ⟨f, -, hf⟩ := create_valid temps n p hp d hd
        have hlen : (make temps p d).1.pipes.length = p.pipes.length := by rw [(good_make temps n p hp d).1, hp.1]
        have hi : i < p.pipes.length := by rw [← hlen]; exact (List.getElem?_eq_some_iff.1 h1).1
        obtain ⟨q0, hq0⟩ : ∃ q0, p.pipes[i]? = some q0 := ⟨_, List.getElem?_eq_getElem hi⟩
        obtain ⟨-, h2⟩ := hf i q0 hq0
        rw [h2] at h1
        obtain ⟨y, hy, hs, -, hor⟩ := one_reader (temps i) q0 (hp.2 i q0 hq0) d
        injection h1 with h1
        rw [← h1] at hz1
        rcases hor with he | ⟨-, he, -⟩
        · rw [he] at hz1; exact Or.inl ⟨q0, hq0, hz1⟩
        · rw [he, List.mem_append, List.mem_singleton] at hz1
          rcases hz1 with hz1 | rfl
          · exact Or.inl ⟨q0, hq0, hz1⟩
          · exact Or.inr ⟨d, by simp, hd, hs⟩
      · rw [invalid_asked_for_nothing temps p d hd] at h1
        exact Or.inl ⟨q1, h1, hz1⟩
    · exact Or.inr ⟨b, by simp [hb], h1⟩

theorem text_method (m m' : Method) (h : m.text = m'.text) : m = m' := by
  revert h; cases m <;> cases m' <;> decide +kernel

/-- A new instrument has one aggregator with each reader. -/
theorem new_syncs (temps : Nat → Kind → Temporality) (n : Nat) (before : List (Decl Cb)) (d : Decl Cb) (hd : d.Valid)
    (hnew : ∀ b ∈ before, b.Valid → ¬ SameDecl b d) (i : Nat) (hi : i < n) :
    ∃ y : Sync, Same d y ∧ Fresh (temps i) d y ∧
      ((((make temps (makes temps (.init n) before).1 d).1.pipes[i]?).map Inst.Pipe.syncs).getD [] |>.filter (fun y => (i, y.agg) ∈ (make temps (makes temps (.init n) before).1 d).2)) = [y] := by
  obtain ⟨f, hf, h⟩ := asked_is_created temps n before d hd
  obtain ⟨q, q', y, hq, hq', hy, hya, hs, hu, hor⟩ := h i hi
  have hno : ∀ z ∈ q.syncs, ¬ Same d z := by
    intro z hz hsz
    rcases syncs_declared temps n before _ (good_init temps n) i q hq z hz with ⟨q0, h0, hz0⟩ | ⟨b, hb, hbv, hsb⟩
    · simp only [Prov.init, List.getElem?_replicate, if_pos hi, Option.some.injEq] at h0
      rw [← h0] at hz0
      exact absurd hz0 List.not_mem_nil
    · refine hnew b hb hbv ?_
      obtain ⟨a1, a2, a3, a4, a5⟩ := hsb
      obtain ⟨b1, b2, b3, b4, b5⟩ := hsz
      exact ⟨text_method _ _ (a5.symm.trans b5), a1.symm.trans b1, a2.symm.trans b2, a3.symm.trans b3, a4.symm.trans b4⟩
  rcases hor with he | ⟨-, he, hfr⟩
  · exact absurd hs (hno y (he ▸ hy))
  refine ⟨y, hs, hfr, ?_⟩
  have hto : ∀ a, ((i, a) ∈ (make temps (makes temps (.init n) before).1 d).2) ↔ a = f i := by
    intro a
    rw [hf]
    simp only [List.mem_map, List.mem_range, Prod.mk.injEq]
    constructor
    · rintro ⟨j, -, rfl, rfl⟩; rfl
    · rintro rfl; exact ⟨i, hi, rfl, rfl⟩
  rw [hq']
  simp only [Option.map_some, Option.getD_some, he]
  rw [List.filter_append, List.filter_eq_nil_iff.2, List.nil_append]
  · simp [hto, hya]
  · intro z hz hzi
    simp only [decide_eq_true_eq, hto] at hzi
    have := hu z (by rw [he]; simp [hz]) (Or.inr hzi)
    exact hno z hz (this ▸ hs)

omit [DecidableEq V] in
theorem new_one (g : Given V) (temps : Nat → Kind → Temporality) (n : Nat) (before : List (Decl Cb)) (d : Decl Cb) (hd : d.Valid)
    (hnew : ∀ b ∈ before, b.Valid → ¬ SameDecl b d) (i : Nat) (hi : i < n) :
    ∃ y : Sync, Same d y ∧ Fresh (temps i) d y ∧
      fed g (make temps (makes temps (.init n) before).1 d).1 (make temps (makes temps (.init n) before).1 d).2 i = [y].filterMap (works g) := by
  obtain ⟨y, h1, h2, h3⟩ := new_syncs temps n before d hd hnew i hi
  exact ⟨y, h1, h2, by rw [fed, h3]⟩

/-- Composition for an aggregation. -/
theorem arrives_of {g : Given V} {val : V → Val} (hinj : Function.Injective val) (hplain : ∀ v, NotEmptyArray (val v)) {d : Decl Cb} {made : Prov Cb × List (Nat × Nat)} {i : Nat}
    {args : List Temporality} {k : Kind} {kind : AggKind} {A X : Type} {reads : Cast → WPt Str → List X → Prop} {cc : Conc.Cfg Str V A X} {st : Style Str A} {y : Sync}
    (hfed : fed g made.1 made.2 i = [⟨A, X, cc, st, idOf y⟩]) (hsrt : cc.srt = g.srt) (hkind : st.kind = kind) (hlim : cc.limit = (d.last Call.limit?).getD 2000)
    (hdel : cc.delta = true ↔ WantsDelta args k) (hid : idOf y = asked d) (hfit : st.Fit) (hkeep : st.Keeps)
    (hreads : ∀ cast start now kvs xs, reads cast (wireOf cast st.kind start now (st.point kvs (xs.foldl cc.agg.update cc.agg.create))) xs) :
    Arrives g val d made i args k kind X reads := by
  refine ⟨A, cc, st, idOf y, hfed, ?_⟩
  intro Y dflt res cast decode c hc t0 t s e log hm L hL hsets
  rw [← hid, ← hkind, ← hsrt]
  rw [← hsrt] at hsets
  rw [← hlim] at hL
  constructor
  · intro hw
    exact instrument_delta_partial (hdel.2 hw) hfit hkeep hinj hplain hc (hreads cast) hm hL hsets
  · intro hw
    have : cc.delta = false := by
      cases h : cc.delta with
      | false => rfl
      | true => exact absurd (hdel.1 h) hw
    exact instrument_cumulative_partial this hfit hkeep hinj hplain hc (hreads cast) hm hL hsets

theorem id_asked {temp : Kind → Temporality} {d : Decl Cb} {y : Sync} (hs : Same d y) (hf : Fresh temp d y) : idOf y = asked d := by
  obtain ⟨h1, -, h3, h4, -⟩ := hs
  simp only [idOf, asked, h1, h3, h4, hf.1]

theorem same_kind {d : Decl Cb} {y : Sync} (hs : Same d y) : y.number = d.method.number ∧ y.kind = d.method.kind := by
  obtain ⟨-, -, -, -, h⟩ := hs
  rw [← method_text] at h
  exact text_inj _ _ _ _ h

omit [DecidableEq V] in
/-- Temporality of a store. -/
theorem store_delta {setups : List Setup} {readers : List Reader} (hb : setups.mapM Setup.build = some readers) {i : Nat} {s : Setup} (hs : setups[i]? = some s)
    {d : Decl Cb} {y : Sync} (hy : Same d y) (hf : Fresh (tempsOf readers i) d y) (hsync : d.method.async = false) {A X : Type} (g : Given V) (agg : Aggregator A X) :
    (storeOf g agg y).delta = true ↔ WantsDelta s.args d.method.kind := by
  obtain ⟨rd, hrd, hsb⟩ := mapM_get hb hs
  have ht : y.temporality = rd.temporality d.method.kind := by
    rw [hf.2.2.2.1, (same_kind hy).2, tempsOf, hrd]; rfl
  have hown : ownTemporality y = y.temporality := by
    unfold ownTemporality
    have hbl := hf.2.2.2.2
    rw [(same_kind hy).2] at hbl
    revert hbl hsync
    cases d.method <;> intro hsync hbl <;> first | (simp only [Method.kind] at hbl; rw [hbl]; done) | (simp only [Method.kind] at hbl; rw [hbl]; rfl) | cases hsync
  rw [← reader_temporality hsb d.method.kind, ← ht, ← hown]
  unfold storeOf
  cases ownTemporality y <;> simp

/-- What is made by a program that sets up readers, creates instruments and then this one. opentelemetry-sdk/src/metrics/meter_provider.rs:168-263, meter.rs:72-446 -/
def made (readers : List Reader) (before : List (Decl Cb)) (d : Decl Cb) : Prov Cb × List (Nat × Nat) :=
  make (tempsOf readers) (makes (tempsOf readers) (.init readers.length) before).1 d

/-- A program: readers set up somehow, instruments created, and a valid declaration of a new synchronous one. -/
structure Program (setups : List Setup) (readers : List Reader) (before : List (Decl Cb)) (d : Decl Cb) (i : Nat) (s : Setup) : Prop where
  built : setups.mapM Setup.build = some readers
  reader : setups[i]? = some s
  valid : d.Valid
  new : ∀ b ∈ before, b.Valid → ¬ SameDecl b d

theorem Program.one {setups : List Setup} {readers : List Reader} {before : List (Decl Cb)} {d : Decl Cb} {i : Nat} {s : Setup} (h : Program setups readers before d i s)
    (g : Given V) : ∃ y : Sync, Same d y ∧ Fresh (tempsOf readers i) d y ∧ fed g (made readers before d).1 (made readers before d).2 i = [y].filterMap (works g) := by
  refine new_one g (tempsOf readers) readers.length before d h.valid h.new i ?_
  obtain ⟨rd, hrd, -⟩ := mapM_get h.built h.reader
  exact (List.getElem?_eq_some_iff.1 hrd).1

variable {setups : List Setup} {readers : List Reader} {before : List (Decl Cb)} {d : Decl Cb} {i : Nat} {s : Setup} (h : Program setups readers before d i s)
  (g : Given V) {val : V → Val} (hinj : Function.Injective val) (hplain : ∀ v, NotEmptyArray (val v))
include h hinj hplain

/-- **C132, `u64_counter`.** The collector gets a monotonic sum; a point tells the sum of the values, if that is less than 2^63. -/
theorem u64_counter_arrives_partial (hm : d.method = .u64Counter) : Arrives g val d (made readers before d) i s.args .counter (.sum true) (BitVec 64)
    fun _ q xs => (xs.map BitVec.toNat).sum < 2 ^ 63 → TellsInt q (xs.map BitVec.toNat).sum := by
  obtain ⟨y, hs, hf, hfed⟩ := h.one g
  have hn := (same_kind hs).1
  have hk := (same_kind hs).2
  have hbl := hf.2.2.2.2
  rw [hm] at hn hk
  simp only [Method.number, Method.kind] at hn hk
  rw [hk] at hbl
  dsimp only at hbl
  have hdel := fun {A X : Type} (agg : Aggregator A X) => store_delta h.built h.reader hs hf (by rw [hm]; rfl) g agg
  rw [hm] at hdel
  rw [List.filterMap_cons, works, hbl, hn] at hfed
  exact arrives_of hinj hplain hfed rfl rfl hf.2.1 (hdel _) (id_asked hs hf) (u64Sum_ok true).1 (u64Sum_ok true).2 fun cast start now kvs xs => u64_reads cast true start now kvs xs

/-- **C132, `i64_up_down_counter`.** The collector gets a sum that is not monotonic; a point tells the sum of the values, if that is an `i64`. -/
theorem i64_up_down_counter_arrives_partial (hm : d.method = .i64UpDownCounter) : Arrives g val d (made readers before d) i s.args .upDownCounter (.sum false) (BitVec 64)
    fun _ q xs => -2 ^ 63 ≤ (xs.map BitVec.toInt).sum → (xs.map BitVec.toInt).sum < 2 ^ 63 → TellsInt q (xs.map BitVec.toInt).sum := by
  obtain ⟨y, hs, hf, hfed⟩ := h.one g
  have hn := (same_kind hs).1
  have hk := (same_kind hs).2
  have hbl := hf.2.2.2.2
  rw [hm] at hn hk
  simp only [Method.number, Method.kind] at hn hk
  rw [hk] at hbl
  dsimp only at hbl
  have hdel := fun {A X : Type} (agg : Aggregator A X) => store_delta h.built h.reader hs hf (by rw [hm]; rfl) g agg
  rw [hm] at hdel
  rw [List.filterMap_cons, works, hbl, hn] at hfed
  exact arrives_of hinj hplain hfed rfl rfl hf.2.1 (hdel _) (id_asked hs hf) (i64Sum_ok false).1 (i64Sum_ok false).2 fun cast start now kvs xs => i64_reads cast false start now kvs xs

/-- **C132, `f64_counter` and `f64_up_down_counter`.** A point tells the sum of the values, added in the order of the measurements. -/
theorem f64_sum_arrives_partial (mono : Bool) (hm : d.method = if mono then .f64Counter else .f64UpDownCounter) :
    Arrives g val d (made readers before d) i s.args (if mono then .counter else .upDownCounter) (.sum mono) (BitVec 64) fun _ q xs => TellsDouble q (xs.foldl g.add g.zero) := by
  obtain ⟨y, hs, hf, hfed⟩ := h.one g
  have hn := (same_kind hs).1
  have hk := (same_kind hs).2
  have hbl := hf.2.2.2.2
  cases mono <;>
  · simp only [Bool.false_eq_true, if_true, if_false] at hm ⊢
    rw [hm] at hn hk
    simp only [Method.number, Method.kind] at hn hk
    rw [hk] at hbl
    dsimp only at hbl
    have hdel := fun {A X : Type} (agg : Aggregator A X) => store_delta h.built h.reader hs hf (by rw [hm]; rfl) g agg
    rw [hm] at hdel
    rw [List.filterMap_cons, works, hbl, hn] at hfed
    exact arrives_of hinj hplain hfed rfl rfl hf.2.1 (hdel _) (id_asked hs hf) (f64Sum_ok _).1 (f64Sum_ok _).2 fun cast start now kvs xs => f64_reads cast _ g.zero g.add start now kvs xs

/-- **C132, gauges.** The collector gets a gauge; a point tells the last value, if it is less than 2^63 or not a `u64`. -/
theorem gauge_arrives_partial (k : NumKind) (hm : d.method = match k with | .u64 => .u64Gauge | .i64 => .i64Gauge | .f64 => .f64Gauge) :
    Arrives g val d (made readers before d) i s.args .gauge .lastValue (BitVec 64)
      fun _ q xs => ∀ x, xs.getLast? = some x → (numOf k x).Fits → ∃ p, q = .num p ∧ p.value.value = (numOf k x).value := by
  obtain ⟨y, hs, hf, hfed⟩ := h.one g
  have hn := (same_kind hs).1
  have hk := (same_kind hs).2
  have hbl := hf.2.2.2.2
  cases k <;>
  · dsimp only at hm
    rw [hm] at hn hk
    simp only [Method.number, Method.kind] at hn hk
    rw [hk] at hbl
    dsimp only at hbl
    have hdel := fun {A X : Type} (agg : Aggregator A X) => store_delta h.built h.reader hs hf (by rw [hm]; rfl) g agg
    rw [hm] at hdel
    rw [List.filterMap_cons, works, hbl, hn] at hfed
    exact arrives_of hinj hplain hfed rfl rfl hf.2.1 (hdel _) (id_asked hs hf) (gaugeOf_ok _ _).1 (gaugeOf_ok _ _).2
      fun cast start now kvs xs => gauge_reads cast _ _ 0 start now kvs xs

/-- The boundaries of a declaration: the last given, or those of the specification. -/
def askedBounds (d : Decl Cb) : List F64 := (d.last Call.boundaries?).getD specBoundaries

omit [DecidableEq V] h hinj hplain in
theorem asked_increasing (hd : d.Valid) (hk : d.method.kind = .histogram) : Increasing (askedBounds d) := by
  unfold askedBounds
  cases hb : d.last Call.boundaries? with
  | none => rw [Option.getD_none]; exact ⟨by decide +kernel, by decide +kernel⟩
  | some bs =>
    obtain ⟨h1, h2⟩ := hd.2.2 bs hk hb
    refine ⟨fun b hm => ?_, h2⟩
    obtain ⟨q, rfl⟩ := h1 b hm
    simp

/-- **C132, `u64_histogram`.** The collector gets a histogram; a point tells count, sum, minimum and maximum of the values and how many are in each bucket of the boundaries
last given, or of those of the specification. The values are those passed to `record`, each with the bucket the aggregation finds for it. -/
theorem u64_histogram_arrives_partial (hm : d.method = .u64Histogram) : Arrives g val d (made readers before d) i s.args .histogram .histogram (BitVec 64 × Nat)
    fun cast q xs => ∀ ys : List (BitVec 64), xs = ys.map (histogramInput (u64Ops g.rounding) g.search (askedBounds d)) → ys ≠ [] → ys.length < 2 ^ 64 →
      (∀ y ∈ ys, (u64Ops g.rounding).toF y ≠ .nan) → TellsHistogram cast .u64 g.word (u64Ops g.rounding) (askedBounds d) true true q ys := by
  obtain ⟨y, hs, hf, hfed⟩ := h.one g
  have hn := (same_kind hs).1
  have hk := (same_kind hs).2
  have hbl := hf.2.2.2.2
  have hinc := asked_increasing h.valid (by rw [hm]; rfl)
  rw [hm] at hn hk
  simp only [Method.number, Method.kind] at hn hk
  rw [hk] at hbl
  change y.built = .explicitBucketHistogram (askedBounds d) true true at hbl
  have hdel := fun {A X : Type} (agg : Aggregator A X) => store_delta h.built h.reader hs hf (by rw [hm]; rfl) g agg
  rw [hm] at hdel
  rw [List.filterMap_cons, works, hbl, hn] at hfed
  exact arrives_of hinj hplain hfed rfl rfl hf.2.1 (hdel _) (id_asked hs hf) (histogramOf_ok _ _ _ _ _ _ _).1 (histogramOf_ok _ _ _ _ _ _ _).2
    fun cast start now kvs xs ys hx hne hlen hy => histogram_reads cast .u64 .u64 g.word (u64Ops g.rounding) g.search _ hinc true true (fun _ => True) (u64_total _) trivial trivial
      start now kvs xs ys hx hne hlen fun z hz => ⟨trivial, hy z hz, (u64_bounds _ z).1, (u64_bounds _ z).2⟩

/-- **C132, `f64_histogram`.** The same for doubles that are finite. -/
theorem f64_histogram_arrives_partial (hm : d.method = .f64Histogram) : Arrives g val d (made readers before d) i s.args .histogram .histogram (F64 × Nat)
    fun cast q xs => ∀ ys : List F64, xs = ys.map (histogramInput (f64Ops g.rounding) g.search (askedBounds d)) → ys ≠ [] → ys.length < 2 ^ 64 →
      (∀ y ∈ ys, ∃ x, F64.Representable x ∧ y = .fin x) → TellsHistogram cast (fun x => .f64 (g.word x)) g.word (f64Ops g.rounding) (askedBounds d) true true q ys := by
  obtain ⟨y, hs, hf, hfed⟩ := h.one g
  have hn := (same_kind hs).1
  have hk := (same_kind hs).2
  have hbl := hf.2.2.2.2
  have hinc := asked_increasing h.valid (by rw [hm]; rfl)
  rw [hm] at hn hk
  simp only [Method.number, Method.kind] at hn hk
  rw [hk] at hbl
  change y.built = .explicitBucketHistogram (askedBounds d) true true at hbl
  have hdel := fun {A X : Type} (agg : Aggregator A X) => store_delta h.built h.reader hs hf (by rw [hm]; rfl) g agg
  rw [hm] at hdel
  rw [List.filterMap_cons, works, hbl, hn] at hfed
  refine arrives_of hinj hplain hfed rfl rfl hf.2.1 (hdel _) (id_asked hs hf) (histogramOf_ok _ _ _ _ _ _ _).1 (histogramOf_ok _ _ _ _ _ _ _).2
    fun cast start now kvs xs ys hx hne hlen hy => histogram_reads cast .f64 (fun x => .f64 (g.word x)) g.word (f64Ops g.rounding) g.search _ hinc true true (fun x => x ≠ .nan) (f64_total _)
      (by show F64.MAX ≠ .nan; decide +kernel) (by show F64.MIN ≠ .nan; decide +kernel) start now kvs xs ys hx hne hlen fun z hz => ?_
  obtain ⟨x, hx, rfl⟩ := hy z hz
  exact ⟨by simp, by simp [f64Ops], (f64_bounds _ x hx).1, (f64_bounds _ x hx).2⟩

/-! ## A case: a periodic reader with delta and a manual one, a histogram, and then a counter with a limit -/

omit [DecidableEq V] h hinj hplain

noncomputable def exGiven (r : F64.Rounding) : Given Bool := ⟨r, 0, fun x _ => x, fun _ => 0, scanPoint, stableSorter, ("otel.metric.overflow".toList, true), Expo.ideal, true⟩
def exSetups : List Setup := [.periodic (.stdout [.cumulative, .delta]), .manual []]
def exReaders : List Reader := (exSetups.mapM Setup.build).getD []
def exDecl : Decl Nat := ⟨.u64Counter, MeterApi.exScope, "hits".toList, [.unit "s".toList, .limit 7, .unit "1".toList]⟩

theorem exProgram : Program exSetups exReaders [exHistogram] exDecl 0 (.periodic (.stdout [.cumulative, .delta])) := by
  refine ⟨rfl, rfl, (valid_iff _).2 (by decide +kernel), ?_⟩
  intro b hb _ hsame
  rw [List.mem_singleton.1 hb] at hsame
  exact absurd hsame.1 (by decide)

/-- The store that the counter's measurements go to. -/
def exHits : Conc.Cfg Str Bool (BitVec 64) (BitVec 64) := ⟨stableSorter, increment (BitVec 64), 7, ("otel.metric.overflow".toList, true), true⟩

/-- The counter of the case has one aggregation with the first reader, with the limit 7 and delta. -/
theorem exFed (r : F64.Rounding) : fed (exGiven r) (made exReaders [exHistogram] exDecl).1 (made exReaders [exHistogram] exDecl).2 0 =
    [⟨_, _, exHits, u64Sum true, asked exDecl⟩] := by
  have h1 : ((((made exReaders [exHistogram] exDecl).1.pipes[0]?).map Inst.Pipe.syncs).getD []).filter (fun y => (0, y.agg) ∈ (made exReaders [exHistogram] exDecl).2) =
      [⟨MeterApi.exScope, .counter, .u64, "hits".toList, [], "1".toList, 1, .sum true, .delta, none, 7⟩] := by decide +kernel
  unfold fed
  rw [h1]
  rfl

/-- The hypotheses of `u64_counter_arrives_partial` are met by a run: a measurement, a collection and its export; `exFed` says that this is the store. -/
theorem created_example (cast : Cast) : ∃ (s : Conc.State Str Bool (BitVec 64) (BitVec 64)) (t : Nat) (log : List (Sending (PRequest Str (PMetric Str)))),
    Measured exHits (u64Sum true) Val.bool ⟨"", none, none, []⟩ ⟨[], none⟩ (asked exDecl) ⟨.metrics, .http true, [], [], fun _ => metricsMessage cast, some⟩ 1 s t ⟨true, ()⟩ log ∧
      s.done.map (·.points) = [[(([("k".toList, true)] : Attrs Str Bool), 5)]] ∧ AllOk log := by
  have h : (Conc.runAll exHits (.init exHits) [.call 0 5 [("k".toList, true)], .thread 0, .thread 0, .collect, .collector [],
      .collector [([("k".toList, true)], 0)], .collector [], .collector []]).map (fun s => s.done.map (·.points))
      = some [[(([("k".toList, true)] : Attrs Str Bool), 5)]] := by rfl
  obtain ⟨s, hs, he⟩ := Option.map_eq_some_iff.1 h
  obtain ⟨t, log, hp, hl⟩ := measured_of_run (st := u64Sum true) (val := Val.bool) (dflt := ⟨"", none, none, []⟩) (res := ⟨[], none⟩) (ci := asked exDecl)
    (c := ⟨.metrics, .http true, [], [], fun _ => metricsMessage cast, some⟩) (t0 := 1) ⟨true, some ⟨200, 0⟩⟩ ⟨[], [], 1, 2, [], [], ⟨⟨[], none⟩, []⟩⟩
    ⟨by intro s hs; simp at hs, by intro j hj; simp at hj⟩ _ .init hs
  refine ⟨s, t, log, hp, he, fun x hx => ?_⟩
  rcases hl x hx with hx | ⟨_, rfl⟩
  · cases hx
  · rfl

end Otel.EndToEnd.Created
