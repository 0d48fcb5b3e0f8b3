import Verif.EndToEnd.Created
import Verif.Metrics.Views
/-!
# From a view and an instrument to the collector (C134)

A view made from criteria and a mask (C70), a reader's pipeline (C47), the reader's temporality (C129) and the measurements on their way (C99): the collector gets the
instrument as the view wants it, with the view's name, description, unit, aggregation and limit, and with those attributes only that the view keeps.
-/

namespace Otel.EndToEnd.Viewed
open Otel.Otlp Otel.Metrics Otel.Metrics.Inst Otel.Temporality Otel.EndToEnd.Created
open Rust (Str F64)
open Common (Val)

/-! ## Model -/

variable {V : Type} [DecidableEq V]

/-- `AttributeSetFilter::apply` with the filter made from a stream's `allowed_attribute_keys`. opentelemetry-sdk/src/metrics/internal/aggregate.rs:106-114, pipeline.rs:386-391 -/
def kept (keys : Option (List Str)) (a : Attrs Str V) : Attrs Str V :=
  match keys with
  | some ks => a.filter fun kv => ks.contains kv.1
  | none => a

/-- The aggregations, each with the attribute filter around it, that an instrument's measurements go to. pipeline.rs:253-335, 386-401, instrument.rs:392-400 -/
def fedBy (g : Given V) (views : List View) (temp : Kind → Temporality) (q : Inst.Pipe) (r : Request) : List (Works V × Option (List Str)) :=
  let made := instrument views temp r.number q r.inst r.boundaries r.limit
  (made.1.syncs.filter fun y => y.agg ∈ made.2.getD []).filterMap fun y => (works g y).map fun w => (w, y.allowedKeys)

/-- What is called at an aggregation when `measure` is called at the instrument. instrument.rs:392-400, internal/sum.rs:144-151, last_value.rs:139-145, histogram.rs:226-239 -/
def passes {X : Type} (keys : Option (List Str)) (m : Nat × X × Attrs Str V) : Nat × X × Attrs Str V := (m.1, m.2.1, kept keys m.2.2)

/-! ## Specification -/

/-- The name that the criteria give is the instrument's; if it has wildcards, it is a pattern that matches the instrument's name, and then the view gives no name. -/
def NameMatches (glob : Str → Option (Str → Bool)) (criteria : Instrument) (mask : Stream) (name : Str) : Prop :=
  (¬ Wild criteria.name ∧ ¬ Unselective criteria ∧ SetAndEqual criteria.name name) ∨
    (Wild criteria.name ∧ mask.name = [] ∧ ∃ matcher, glob criteria.name = some matcher ∧ matcher name = true)

/-- A view among others: its criteria select the instrument, its aggregation is valid, and no other view selects the instrument. -/
structure Views (glob : Str → Option (Str → Bool)) (criteria : Instrument) (mask : Stream) (views : List View) (i : Instrument) : Prop where
  valid : ∀ a, mask.aggregation = some a → a.validate = true
  name : NameMatches glob criteria mask i.name
  selects : Selects criteria i
  only : ∃ pre v post, views = pre ++ v :: post ∧ newView glob criteria mask = some v ∧ ∀ w ∈ pre ++ post, w i = none

/-- Scope of the instrument; name, description and unit of the view where it has them, and of the instrument where not. -/
def viewedAs (mask : Stream) (i : Instrument) : CounterId Str :=
  ⟨⟨String.ofList i.scope.name, i.scope.version.map String.ofList, i.scope.schemaUrl.map String.ofList, i.scope.attrs.map fun a => (a.1, .str (String.ofList a.2))⟩,
    String.ofList (if mask.name = [] then i.name else mask.name), String.ofList (if mask.description = [] then i.description else mask.description),
    String.ofList (if mask.unit = [] then i.unit else mask.unit)⟩

/-- The attributes whose keys a view allows; all if it does not say. -/
def Allowed (mask : Stream) (kv : Str × V) : Prop := ∀ ks, mask.allowedKeys = some ks → kv.1 ∈ ks

instance (mask : Stream) (kv : Str × V) : Decidable (Allowed mask kv) :=
  decidable_of_iff ((mask.allowedKeys.all fun ks => decide (kv.1 ∈ ks)) = true) (by unfold Allowed; cases mask.allowedKeys <;> simp)

/-- The values measured with attributes of which the allowed ones are the set `a`. -/
def measuredAs {X : Type} (srt : Sorter Str V) (mask : Stream) (ms : List (Nat × X × Attrs Str V)) (a : Attrs Str V) : List X :=
  (ms.filter fun m => sortAndDedup srt (m.2.2.filter fun kv => Allowed mask kv) = sortAndDedup srt a).map (·.2.1)

/-- The measurements go to exactly one aggregation; and for every schedule of threads and collections, whatever the network does, the collector gets the instrument as the
view wants it, `ms` being what was measured: period by period if the reader's last temporality asks for delta for the instrument's kind, and else since the start. For at
most as many sets of allowed attributes as the view's limit, or 2000. -/
def ArrivesAs (g : Given V) (val : V → Val) (mask : Stream) (fed : List (Works V × Option (List Str))) (i : Instrument) (args : List Temporality) (k : Kind) (kind : AggKind)
    (X : Type) (reads : Cast → WPt Str → List X → Prop) : Prop :=
  ∃ (A : Type) (cc : Conc.Cfg Str V A X) (st : Style Str A) (ci : CounterId Str) (keys : Option (List Str)), fed = [(⟨A, X, cc, st, ci⟩, keys)] ∧
    ∀ (Y : Type) (dflt : Common.Scope Str) (res : ResVal Str) (cast : Cast) (decode : Y → Option (PRequest Str (PMetric Str)))
      (c : Exporter.Cfg Unit (Batch Str) (PRequest Str (PMetric Str)) Y), MetricCfg cast decode c →
      ∀ (t0 t : Nat) (s : Conc.State Str V A X) (e : Exporter.St Unit) (log : List (Sending Y)), Measured cc st val dflt res ci c t0 s t e log →
      ∀ ms : List (Nat × X × Attrs Str V), s.applied = ms.map (passes keys) →
      ∀ L : List (Attrs Str V), L.length ≤ mask.cardinalityLimit.getD 2000 →
        (∀ m ∈ ms, (m.2.2.filter fun kv => Allowed mask kv) ≠ [] → sortAndDedup g.srt (m.2.2.filter fun kv => Allowed mask kv) ∈ L) →
        (∀ a, Conc.recordedOf g.srt s a = measuredAs g.srt mask ms a) ∧
        (WantsDelta args k → ByPeriod g.srt val kind (reads cast) res (viewedAs mask i) t0 decode c s log) ∧
        (¬ WantsDelta args k → SinceStart g.srt val kind (reads cast) res (viewedAs mask i) t0 decode c s log)

/-- A reader set up somehow, its pipeline after any requests, and a request for an instrument that a view selects; no view drops instruments, and the reader has no instrument
yet that is the same up to the case of the name. -/
structure Case (s : Setup) (rd : Reader) (glob : Str → Option (Str → Bool)) (criteria : Instrument) (mask : Stream) (views : List View) (q : Inst.Pipe) (r : Request)
    (kind : Kind) : Prop where
  built : s.build = some rd
  reached : Reach views rd.temporality q
  keeps : ∀ v ∈ views, ∀ i s, v i = some s → s.aggregation ≠ some .drop
  ofKind : r.inst.kind = some kind
  view : Views glob criteria mask views r.inst
  new : ∀ y ∈ q.syncs, y.identity ≠ Inst.identity r.inst.scope kind r.number (if mask.name = [] then r.inst.name else mask.name)
    (if mask.description = [] then r.inst.description else mask.description) (if mask.unit = [] then r.inst.unit else mask.unit)

/-! ## Proofs -/

theorem orElse_eq (a b : Str) : orElse a b = if a = [] then b else a := by
  cases a <;> simp [orElse]

omit [DecidableEq V] in
theorem kept_eq (mask : Stream) (a : Attrs Str V) : kept mask.allowedKeys a = a.filter fun kv => Allowed mask kv := by
  unfold kept
  cases hk : mask.allowedKeys with
  | none =>
    refine (List.filter_eq_self.2 fun kv _ => ?_).symm
    simp [Allowed, hk]
  | some ks =>
    refine List.filter_congr fun kv _ => ?_
    simp [Allowed, hk]

theorem Views.streams {glob : Str → Option (Str → Bool)} {criteria : Instrument} {mask : Stream} {views : List View} {i : Instrument} (h : Views glob criteria mask views i)
    (b : Option (List F64)) (l : Option Nat) :
    streamsOf views i b l = [⟨orElse mask.name i.name, orElse mask.description i.description, orElse mask.unit i.unit, mask.aggregation, mask.allowedKeys, mask.cardinalityLimit⟩] := by
  obtain ⟨pre, v, post, rfl, hv, ho⟩ := h.only
  have hs : v i = some ⟨orElse mask.name i.name, orElse mask.description i.description, orElse mask.unit i.unit, mask.aggregation, mask.allowedKeys, mask.cardinalityLimit⟩ := by
    rcases h.name with ⟨hp, hsel, hn⟩ | ⟨hw, hmn, m, hm, hn⟩
    · obtain ⟨v', hv', hx⟩ := view_exact glob criteria mask hsel hp h.valid
      have : v' = v := by rw [hv] at hv'; injection hv' with e; exact e.symm
      subst this
      exact (hx i _).2 ⟨⟨hn, h.selects⟩, rfl⟩
    · obtain ⟨v', hv', hx⟩ := view_wildcard glob criteria mask m hw hm hmn h.valid
      have : v' = v := by rw [hv] at hv'; injection hv' with e; exact e.symm
      subst this
      rw [(hx i _).2 ⟨⟨hn, h.selects⟩, rfl⟩, hmn]
      rfl
  have none_of : ∀ l : List View, (∀ w ∈ l, w i = none) → l.filterMap (fun w => w i) = [] := fun l hl => List.filterMap_eq_nil_iff.2 hl
  unfold streamsOf
  rw [List.filterMap_append, List.filterMap_cons, hs, none_of pre fun w hw => ho w (by simp [hw]), none_of post fun w hw => ho w (by simp [hw])]
  rfl

variable {s : Setup} {rd : Reader} {glob : Str → Option (Str → Bool)} {criteria : Instrument} {mask : Stream} {views : List View} {q : Inst.Pipe} {r : Request} {kind : Kind}

/-- The aggregation that a view asks for. -/
def wants (mask : Stream) (kind : Kind) : Aggregation := let a := mask.aggregation.getD (defaultAggregation kind); if a = .default then defaultAggregation kind else a

omit [DecidableEq V] in
theorem Case.one (h : Case s rd glob criteria mask views q r kind) (g : Given V) (hc : compatible kind (wants mask kind) = true) :
    ∃ (b : Built) (y : Sync), aggregateFn kind (wants mask kind) = some (some b) ∧ y.built = b ∧ y.number = r.number ∧ y.kind = kind ∧ y.temporality = rd.temporality kind ∧
      y.limit = mask.cardinalityLimit.getD 2000 ∧ y.allowedKeys = mask.allowedKeys ∧ idOf y = viewedAs mask r.inst ∧
      fedBy g views rd.temporality q r = [y].filterMap fun y => (works g y).map fun w => (w, y.allowedKeys) := by
  have hst := h.view.streams r.boundaries r.limit
  obtain ⟨b, hb, hsy, hout⟩ := new_aggregator views rd.temporality q h.reached h.keeps r kind h.ofKind _ hst hc (by
    intro y hy
    have := h.new y hy
    rw [← orElse_eq, ← orElse_eq, ← orElse_eq] at this
    exact this)
  refine ⟨b, ⟨r.inst.scope, kind, r.number, orElse mask.name r.inst.name, orElse mask.description r.inst.description, orElse mask.unit r.inst.unit, q.next, b,
    rd.temporality kind, mask.allowedKeys, mask.cardinalityLimit.getD 2000⟩, hb, rfl, rfl, rfl, rfl, rfl, rfl, ?_, ?_⟩
  · simp only [idOf, viewedAs, orElse_eq]
  · unfold fedBy
    dsimp only
    rw [hsy, hout, List.filter_append, List.filter_eq_nil_iff.2, List.nil_append]
    · simp
    · intro z hz hzi
      have : z.agg ∈ List.range q.next := by rw [← h.reached.inv.aggs]; exact List.mem_map_of_mem hz
      simp only [Option.getD_some, List.mem_singleton, decide_eq_true_eq] at hzi
      rw [hzi] at this
      simp at this

theorem arrives_as {g : Given V} {val : V → Val} (hinj : Function.Injective val) (hplain : ∀ v, NotEmptyArray (val v)) {fed : List (Works V × Option (List Str))}
    {i : Instrument} {args : List Temporality} {k : Kind} {akind : AggKind} {A X : Type} {reads : Cast → WPt Str → List X → Prop} {cc : Conc.Cfg Str V A X} {st : Style Str A} {y : Sync}
    (hfed : fed = [(⟨A, X, cc, st, idOf y⟩, y.allowedKeys)]) (hsrt : cc.srt = g.srt) (hkind : st.kind = akind) (hlim : cc.limit = mask.cardinalityLimit.getD 2000)
    (hdel : cc.delta = true ↔ WantsDelta args k) (hid : idOf y = viewedAs mask i) (hkeys : y.allowedKeys = mask.allowedKeys) (hfit : st.Fit) (hkeep : st.Keeps)
    (hreads : ∀ cast start now kvs xs, reads cast (wireOf cast st.kind start now (st.point kvs (xs.foldl cc.agg.update cc.agg.create))) xs) :
    ArrivesAs g val mask fed i args k akind X reads := by
  refine ⟨A, cc, st, idOf y, y.allowedKeys, hfed, ?_⟩
  intro Y dflt res cast decode c hc t0 t s e log hm ms hms L hL hsets
  have hsets' : ∀ e ∈ s.applied, e.2.2 ≠ [] → sortAndDedup cc.srt e.2.2 ∈ L := by
    intro e he hne
    rw [hms] at he
    obtain ⟨m, hm, rfl⟩ := List.mem_map.1 he
    rw [hsrt]
    simp only [passes, hkeys, kept_eq] at hne ⊢
    exact hsets m hm hne
  refine ⟨?_, ?_, ?_⟩
  · intro a
    unfold Conc.recordedOf measuredAs
    rw [hms, List.filter_map, List.map_map]
    simp only [passes, hkeys, kept_eq, Function.comp_def]
  · intro hw
    rw [← hid, ← hkind, ← hsrt]
    rw [← hlim] at hL
    exact instrument_delta_partial (hdel.2 hw) hfit hkeep hinj hplain hc (hreads cast) hm hL hsets'
  · intro hw
    rw [← hid, ← hkind, ← hsrt]
    rw [← hlim] at hL
    have : cc.delta = false := by
      cases h : cc.delta with
      | false => rfl
      | true => exact absurd (hdel.1 h) hw
    exact instrument_cumulative_partial this hfit hkeep hinj hplain hc (hreads cast) hm hL hsets'

omit [DecidableEq V] in
/-- Temporality of a store. -/
theorem viewed_delta (hb : s.build = some rd) {y : Sync} (ht : y.temporality = rd.temporality kind) (hown : ownTemporality y = y.temporality) {A X : Type} (g : Given V)
    (agg : Aggregator A X) : (storeOf g agg y).delta = true ↔ WantsDelta s.args kind := by
  rw [← reader_temporality hb kind, ← ht, ← hown]
  unfold storeOf
  cases ownTemporality y <;> simp

variable (h : Case s rd glob criteria mask views q r kind) (g : Given V) {val : V → Val} (hinj : Function.Injective val) (hplain : ∀ v, NotEmptyArray (val v))
include h hinj hplain

/-- **C134, sums of `u64`.** A view on a counter that says nothing of the aggregation, asks for the default or for a sum, or one on a histogram that asks for a sum: the
collector gets a monotonic sum under the view's name; a point tells the sum of the values measured with its allowed attributes, if that is less than 2^63. -/
theorem u64_sum_viewed_partial (hn : r.number = .u64)
    (ha : kind = .counter ∧ (mask.aggregation = none ∨ mask.aggregation = some .default ∨ mask.aggregation = some .sum) ∨ kind = .histogram ∧ mask.aggregation = some .sum) :
    ArrivesAs g val mask (fedBy g views rd.temporality q r) r.inst s.args kind (.sum true) (BitVec 64)
      fun _ q xs => (xs.map BitVec.toNat).sum < 2 ^ 63 → TellsInt q (xs.map BitVec.toNat).sum := by
  have hw : compatible kind (wants mask kind) = true ∧ aggregateFn kind (wants mask kind) = some (some (.sum true)) := by
    rcases ha with ⟨rfl, ha | ha | ha⟩ | ⟨rfl, ha⟩ <;> unfold wants <;> rw [ha] <;> exact ⟨rfl, rfl⟩
  obtain ⟨b, y, hb, hyb, hyn, hyk, hyt, hyl, hya, hid, hfed⟩ := h.one g hw.1
  rw [hw.2] at hb
  injection hb with hb; injection hb with hb
  subst hb
  rw [hn] at hyn
  have hdel := fun {A X : Type} (agg : Aggregator A X) => viewed_delta h.built hyt (by unfold ownTemporality; rw [hyb]) g agg
  rw [List.filterMap_cons, works, hyb, hyn] at hfed
  exact arrives_as hinj hplain hfed rfl rfl hyl (hdel _) hid hya (u64Sum_ok true).1 (u64Sum_ok true).2 fun cast start now kvs xs => u64_reads cast true start now kvs xs

/-- **C134, sums of `i64`.** A view on an up-down counter that does not ask for a histogram. -/
theorem i64_sum_viewed_partial (hn : r.number = .i64) (hk : kind = .upDownCounter)
    (ha : mask.aggregation = none ∨ mask.aggregation = some .default ∨ mask.aggregation = some .sum) :
    ArrivesAs g val mask (fedBy g views rd.temporality q r) r.inst s.args kind (.sum false) (BitVec 64)
      fun _ q xs => -2 ^ 63 ≤ (xs.map BitVec.toInt).sum → (xs.map BitVec.toInt).sum < 2 ^ 63 → TellsInt q (xs.map BitVec.toInt).sum := by
  subst hk
  have hw : compatible .upDownCounter (wants mask .upDownCounter) = true ∧ aggregateFn .upDownCounter (wants mask .upDownCounter) = some (some (.sum false)) := by
    rcases ha with ha | ha | ha <;> unfold wants <;> rw [ha] <;> exact ⟨rfl, rfl⟩
  obtain ⟨b, y, hb, hyb, hyn, hyk, hyt, hyl, hya, hid, hfed⟩ := h.one g hw.1
  rw [hw.2] at hb
  injection hb with hb; injection hb with hb
  subst hb
  rw [hn] at hyn
  have hdel := fun {A X : Type} (agg : Aggregator A X) => viewed_delta h.built hyt (by unfold ownTemporality; rw [hyb]) g agg
  rw [List.filterMap_cons, works, hyb, hyn] at hfed
  exact arrives_as hinj hplain hfed rfl rfl hyl (hdel _) hid hya (i64Sum_ok false).1 (i64Sum_ok false).2 fun cast start now kvs xs => i64_reads cast false start now kvs xs

/-- **C134, gauges.** A view on a gauge that does not ask for a histogram: a point tells the last of the values measured with its allowed attributes. -/
theorem gauge_viewed_partial (hk : kind = .gauge) (ha : mask.aggregation = none ∨ mask.aggregation = some .default ∨ mask.aggregation = some .lastValue) :
    ArrivesAs g val mask (fedBy g views rd.temporality q r) r.inst s.args kind .lastValue (BitVec 64)
      fun _ q xs => ∀ x, xs.getLast? = some x → (numOf r.number x).Fits → ∃ p, q = .num p ∧ p.value.value = (numOf r.number x).value := by
  subst hk
  have hw : compatible .gauge (wants mask .gauge) = true ∧ aggregateFn .gauge (wants mask .gauge) = some (some (.lastValue none)) := by
    rcases ha with ha | ha | ha <;> unfold wants <;> rw [ha] <;> exact ⟨rfl, rfl⟩
  obtain ⟨b, y, hb, hyb, hyn, hyk, hyt, hyl, hya, hid, hfed⟩ := h.one g hw.1
  rw [hw.2] at hb
  injection hb with hb; injection hb with hb
  subst hb
  have hdel := fun {A X : Type} (agg : Aggregator A X) => viewed_delta h.built hyt (by unfold ownTemporality; rw [hyb]; rfl) g agg
  rw [List.filterMap_cons, works, hyb, hyn] at hfed
  generalize r.number = k at hfed ⊢
  cases k <;>
  exact arrives_as hinj hplain hfed rfl rfl hyl (hdel _) hid hya (gaugeOf_ok _ _).1 (gaugeOf_ok _ _).2 fun cast start now kvs xs => gauge_reads cast _ _ 0 start now kvs xs

/-- **C134, histograms of `u64`.** A view on a counter or a histogram that asks for buckets: the collector gets a histogram with the view's boundaries, with the minimum and
maximum if the view asks for them. -/
theorem u64_histogram_viewed_partial (hn : r.number = .u64) (hk : kind = .counter ∨ kind = .histogram) (bs : List F64) (mm : Bool) (hbs : Increasing bs)
    (ha : mask.aggregation = some (.explicitBucketHistogram bs mm)) :
    ArrivesAs g val mask (fedBy g views rd.temporality q r) r.inst s.args kind .histogram (BitVec 64 × Nat)
      fun cast q xs => ∀ ys : List (BitVec 64), xs = ys.map (histogramInput (u64Ops g.rounding) g.search bs) → ys ≠ [] → ys.length < 2 ^ 64 →
        (∀ y ∈ ys, (u64Ops g.rounding).toF y ≠ .nan) → TellsHistogram cast .u64 g.word (u64Ops g.rounding) bs mm true q ys := by
  have hw : compatible kind (wants mask kind) = true ∧ aggregateFn kind (wants mask kind) = some (some (.explicitBucketHistogram bs mm true)) := by
    have hwa : wants mask kind = .explicitBucketHistogram bs mm := by unfold wants; rw [ha]; rfl
    rw [hwa]
    rcases hk with rfl | rfl <;> exact ⟨rfl, rfl⟩
  obtain ⟨b, y, hb, hyb, hyn, hyk, hyt, hyl, hya, hid, hfed⟩ := h.one g hw.1
  rw [hw.2] at hb
  injection hb with hb; injection hb with hb
  subst hb
  rw [hn] at hyn
  have hdel := fun {A X : Type} (agg : Aggregator A X) => viewed_delta h.built hyt (by unfold ownTemporality; rw [hyb]) g agg
  rw [List.filterMap_cons, works, hyb, hyn] at hfed
  exact arrives_as hinj hplain hfed rfl rfl hyl (hdel _) hid hya (histogramOf_ok _ _ _ _ _ _ _).1 (histogramOf_ok _ _ _ _ _ _ _).2
    fun cast start now kvs xs ys hx hne hlen hy => histogram_reads cast .u64 .u64 g.word (u64Ops g.rounding) g.search _ hbs mm true (fun _ => True) (u64_total _) trivial trivial
      start now kvs xs ys hx hne hlen fun z hz => ⟨trivial, hy z hz, (u64_bounds _ z).1, (u64_bounds _ z).2⟩

/-- **C134, exponential histograms of `f64`.** A view on a counter, gauge or histogram that asks for an exponential histogram, with a correct logarithm: the collector gets
one with the view's size and scale. -/
theorem f64_expo_viewed_partial (hn : r.number = .f64) (hk : kind = .counter ∨ kind = .histogram ∨ kind = .gauge) (size : Nat) (scale : Int) (mm : Bool)
    (hsize : 3 ≤ size ∧ size < 2 ^ 31) (hln : Expo.ExactLn g.ln) (ha : mask.aggregation = some (.base2ExponentialHistogram size scale mm)) :
    ArrivesAs g val mask (fedBy g views rd.temporality q r) r.inst s.args kind .expoHistogram F64
      fun cast q xs => xs ≠ [] → xs.length < 2 ^ 64 → (∀ x ∈ xs, ∃ v, F64.Representable v ∧ x = .fin v) →
        (scale ≤ 19 ∨ ∀ x ∈ xs, Expo.ratOf x ≠ 0 → Expo.IsNormal |Expo.ratOf x|) →
        ∃ w, q = .expo w ∧ TellsExpo cast (fun x => .f64 (g.word x)) (f64Ops g.rounding) size scale mm true w xs := by
  have hw : compatible kind (wants mask kind) = true ∧ aggregateFn kind (wants mask kind) = some (some (.exponentialHistogram size scale mm true)) := by
    have hwa : wants mask kind = .base2ExponentialHistogram size scale mm := by unfold wants; rw [ha]; rfl
    rw [hwa]
    rcases hk with rfl | rfl | rfl <;> exact ⟨rfl, rfl⟩
  have hscale := (validate_expo size scale mm).1 (h.view.valid _ ha)
  have hsz : (BitVec.ofNat 32 size).toInt = (size : Int) := by
    rw [BitVec.toInt_eq_toNat_of_lt] <;> rw [BitVec.toNat_ofNat, Nat.mod_eq_of_lt] <;> omega
  obtain ⟨b, y, hb, hyb, hyn, hyk, hyt, hyl, hya, hid, hfed⟩ := h.one g hw.1
  rw [hw.2] at hb
  injection hb with hb; injection hb with hb
  subst hb
  rw [hn] at hyn
  have hdel := fun {A X : Type} (agg : Aggregator A X) => viewed_delta h.built hyt (by unfold ownTemporality; rw [hyb]) g agg
  rw [List.filterMap_cons, works, hyb, hyn] at hfed
  refine arrives_as hinj hplain hfed rfl rfl hyl (hdel _) hid hya (expoOf_ok _ _ _ _ _ _ _).1 (expoOf_ok _ _ _ _ _ _ _).2
    fun cast start now kvs xs hne hlen hx hnorm => ?_
  rw [hsz]
  refine expo_reads cast .f64 _ (f64Ops g.rounding) g.ln hln g.checks size scale (by omega) hscale mm true (fun x => x ≠ .nan) (f64_total _) (by simp [f64Ops, F64.MAX])
    (by simp [f64Ops, F64.MIN]) start now kvs xs hne hlen (fun x hm => ?_) hnorm
  obtain ⟨v, hv, rfl⟩ := hx x hm
  exact ⟨Expo.f64_good _ _ hv, rfl, by simp, (f64_bounds _ v hv).1, (f64_bounds _ v hv).2⟩

/-! ## A case: a view that renames a counter, keeps one attribute and sets a limit -/

omit [DecidableEq V] h hinj hplain

def exCriteria : Instrument := ⟨"hits".toList, [], none, [], Scope.default⟩
def exMask : Stream := ⟨"clicks".toList, [], "1".toList, none, some ["k".toList], some 3⟩
def exRequest : Request := ⟨.u64, ⟨"hits".toList, "all".toList, some .counter, [], MeterApi.exScope⟩, none, some 9⟩
def exGlob : Str → Option (Str → Bool) := fun _ => none
def exViews : List View := [fun _ => none, (newView exGlob exCriteria exMask).getD fun _ => none]
def exSetup : Setup := .periodic (.stdout [.delta])
def exReader : Reader := exSetup.build.getD .prometheus

theorem exCase : Case exSetup exReader exGlob exCriteria exMask exViews .init exRequest .counter := by
  refine ⟨rfl, ⟨[], rfl⟩, ?_, rfl, ⟨?_, Or.inl ⟨?_, ?_, ?_⟩, ?_, ?_⟩, ?_⟩
  · intro v hv i s hs
    simp only [exViews, List.mem_cons, List.not_mem_nil, or_false] at hv
    rcases hv with rfl | rfl
    · cases hs
    · obtain ⟨v, hv, hx⟩ := view_exact exGlob exCriteria exMask (by rw [← Inst.isEmpty_iff]; decide +kernel) (by rw [← wild_iff]; decide +kernel) (by intro a h; cases h)
      rw [hv] at hs
      rw [((hx i s).1 hs).2]
      simp [exMask]
  · intro a h; cases h
  · rw [← wild_iff]; decide +kernel
  · rw [← Inst.isEmpty_iff]; decide +kernel
  · rw [← set_iff]; decide +kernel
  · rw [← selects_iff]; decide +kernel
  · refine ⟨[fun _ => none], _, [], rfl, ?_, ?_⟩
    · obtain ⟨v, hv, -⟩ := view_exact exGlob exCriteria exMask (by rw [← Inst.isEmpty_iff]; decide +kernel) (by rw [← wild_iff]; decide +kernel) (by intro a h; cases h)
      rw [hv]; rfl
    · intro w hw
      simp only [List.append_nil, List.mem_singleton] at hw
      rw [hw]
  · intro y hy; cases hy

/-- The store behind the view. -/
def exClicks : Conc.Cfg Str Bool (BitVec 64) (BitVec 64) := ⟨stableSorter, increment (BitVec 64), 3, ("otel.metric.overflow".toList, true), true⟩

theorem exFedBy (r : F64.Rounding) : fedBy (exGiven r) exViews exReader.temporality .init exRequest =
    [(⟨_, _, exClicks, u64Sum true, viewedAs exMask exRequest.inst⟩, some ["k".toList])] := by
  have h1 : (instrument exViews exReader.temporality exRequest.number .init exRequest.inst exRequest.boundaries exRequest.limit).1.syncs =
      [⟨MeterApi.exScope, .counter, .u64, "clicks".toList, "all".toList, "1".toList, 0, .sum true, .delta, some ["k".toList], 3⟩] := by decide +kernel
  have h2 : (instrument exViews exReader.temporality exRequest.number .init exRequest.inst exRequest.boundaries exRequest.limit).2 = some [0] := by decide +kernel
  unfold fedBy
  dsimp only
  rw [h1, h2]
  rfl

/-- Two measurements that differ in what the view leaves out. -/
def exMeasured : List (Nat × BitVec 64 × Attrs Str Bool) :=
  [(0, 5, [("k".toList, true), ("user".toList, true)]), (0, 2, [("user".toList, false), ("k".toList, true)])]

/-- The hypotheses of `u64_sum_viewed_partial` are met by a run, `exFedBy` says that this is the store: both measurements are in one point. -/
theorem viewed_example (cast : Cast) : ∃ (s : Conc.State Str Bool (BitVec 64) (BitVec 64)) (t : Nat) (log : List (Sending (PRequest Str (PMetric Str)))),
    Measured exClicks (u64Sum true) Val.bool ⟨"", none, none, []⟩ ⟨[], none⟩ (viewedAs exMask exRequest.inst)
        ⟨.metrics, .http true, [], [], fun _ => metricsMessage cast, some⟩ 1 s t ⟨true, ()⟩ log ∧
      s.applied = exMeasured.map (passes (some ["k".toList])) ∧ s.done.map (·.points) = [[(([("k".toList, true)] : Attrs Str Bool), 7)]] ∧ AllOk log := by
  have h : (Conc.runAll exClicks (.init exClicks) [.call 0 5 [("k".toList, true)], .thread 0, .thread 0, .call 0 2 [("k".toList, true)], .thread 0, .thread 0, .collect, .collector [],
      .collector [([("k".toList, true)], 0)], .collector [], .collector []]).map (fun s => (s.applied, s.done.map (·.points)))
      = some (exMeasured.map (passes (some ["k".toList])), [[(([("k".toList, true)] : Attrs Str Bool), 7)]]) := by rfl
  obtain ⟨s, hs, he⟩ := Option.map_eq_some_iff.1 h
  obtain ⟨t, log, hp, hl⟩ := measured_of_run (st := u64Sum true) (val := Val.bool) (dflt := ⟨"", none, none, []⟩) (res := ⟨[], none⟩) (ci := viewedAs exMask exRequest.inst)
    (c := ⟨.metrics, .http true, [], [], fun _ => metricsMessage cast, some⟩) (t0 := 1) ⟨true, some ⟨200, 0⟩⟩ ⟨[], [], 1, 2, [], [], ⟨⟨[], none⟩, []⟩⟩
    ⟨by intro s hs; simp at hs, by intro j hj; simp at hj⟩ _ .init hs
  refine ⟨s, t, log, hp, (Prod.mk.inj he).1, (Prod.mk.inj he).2, fun x hx => ?_⟩
  rcases hl x hx with hx | ⟨_, rfl⟩
  · cases hx
  · rfl

end Otel.EndToEnd.Viewed
