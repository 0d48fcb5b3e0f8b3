import Verif.EndToEnd.Viewed
import Verif.EndToEnd.CreatedFlush
/-!
# Everything a view can ask for of a synchronous instrument, flushed and past the limit (C134)

As `EndToEnd/Viewed.lean`, for all number types and aggregations by one table, and with the periodic reader's flush (C104) and with more attribute
sets than the view's limit (C109).
-/

namespace Otel.EndToEnd.Viewed
open Otel.Otlp Otel.Metrics Otel.Metrics.Inst Otel.Temporality Otel.EndToEnd.Created Otel.EndToEnd.CreatedFlush
open Rust (Str F64)
open Common (Val)

variable {V : Type} [DecidableEq V]

/-! ## Specification -/

/-- The form of a metric: a sum, a last value, or buckets between boundaries, with minimum and maximum or not and with the sum or not. -/
inductive Form where
  | sum (monotonic : Bool)
  | last
  | buckets (boundaries : List F64) (extremes sum : Bool)
  | expo (size : Nat) (scale : Int) (extremes sum : Bool)

/-- What a view asks for of a synchronous instrument: what it says, or the default of the instrument's kind. Up-down counters have no sum in a histogram. -/
def asksFor (kind : Kind) : Option Aggregation → Option Form
  | none | some .default => match kind with
    | .counter => some (.sum true)
    | .upDownCounter => some (.sum false)
    | .gauge => some .last
    | .histogram => some (.buckets specBoundaries true true)
    | _ => none
  | some .sum => match kind with
    | .counter | .histogram => some (.sum true)
    | .upDownCounter => some (.sum false)
    | _ => none
  | some .lastValue => match kind with
    | .gauge => some .last
    | _ => none
  | some (.explicitBucketHistogram bs mm) => match kind with
    | .counter | .histogram | .gauge => some (.buckets bs mm true)
    | .upDownCounter => some (.buckets bs mm false)
    | _ => none
  | some (.base2ExponentialHistogram size scale mm) => match kind with
    | .counter | .histogram | .gauge => some (.expo size scale mm true)
    | .upDownCounter => some (.expo size scale mm false)
    | _ => none
  | _ => none

/-- What exponential histograms need: room for three buckets, and a correct logarithm. -/
def ExpoFit (g : Given V) (size : Nat) : Prop := 3 ≤ size ∧ size < 2 ^ 31 ∧ Expo.ExactLn g.ln

/-- What the points of a metric tell, for each number type. -/
def formMeaning (g : Given V) (kind : Kind) : Form → NumKind → Meaning
  | .sum mono, .u64 => ⟨BitVec 64, kind, .sum mono, fun _ q xs => (xs.map BitVec.toNat).sum < 2 ^ 63 → TellsInt q (xs.map BitVec.toNat).sum⟩
  | .sum mono, .i64 => ⟨BitVec 64, kind, .sum mono, fun _ q xs => -2 ^ 63 ≤ (xs.map BitVec.toInt).sum → (xs.map BitVec.toInt).sum < 2 ^ 63 → TellsInt q (xs.map BitVec.toInt).sum⟩
  | .sum mono, .f64 => ⟨BitVec 64, kind, .sum mono, fun _ q xs => TellsDouble q (xs.foldl g.add g.zero)⟩
  | .last, .u64 => ⟨BitVec 64, kind, .lastValue, fun _ q xs => ∀ x, xs.getLast? = some x → (Num.u64 x).Fits → ∃ p, q = .num p ∧ p.value.value = (Num.u64 x).value⟩
  | .last, .i64 => ⟨BitVec 64, kind, .lastValue, fun _ q xs => ∀ x, xs.getLast? = some x → (Num.i64 x).Fits → ∃ p, q = .num p ∧ p.value.value = (Num.i64 x).value⟩
  | .last, .f64 => ⟨BitVec 64, kind, .lastValue, fun _ q xs => ∀ x, xs.getLast? = some x → (Num.f64 x).Fits → ∃ p, q = .num p ∧ p.value.value = (Num.f64 x).value⟩
  | .buckets bs mm rs, .u64 => ⟨BitVec 64 × Nat, kind, .histogram, fun cast q xs => ∀ ys : List (BitVec 64), xs = ys.map (histogramInput (u64Ops g.rounding) g.search bs) →
      ys ≠ [] → ys.length < 2 ^ 64 → (∀ y ∈ ys, (u64Ops g.rounding).toF y ≠ .nan) → TellsHistogram cast .u64 g.word (u64Ops g.rounding) bs mm rs q ys⟩
  | .buckets bs mm rs, .i64 => ⟨BitVec 64 × Nat, kind, .histogram, fun cast q xs => ∀ ys : List (BitVec 64), xs = ys.map (histogramInput (i64Ops g.rounding) g.search bs) →
      ys ≠ [] → ys.length < 2 ^ 64 → (∀ y ∈ ys, (i64Ops g.rounding).toF y ≠ .nan) → TellsHistogram cast .i64 g.word (i64Ops g.rounding) bs mm rs q ys⟩
  | .buckets bs mm rs, .f64 => ⟨F64 × Nat, kind, .histogram, fun cast q xs => ∀ ys : List F64, xs = ys.map (histogramInput (f64Ops g.rounding) g.search bs) →
      ys ≠ [] → ys.length < 2 ^ 64 → (∀ y ∈ ys, ∃ x, F64.Representable x ∧ y = .fin x) → TellsHistogram cast (fun x => .f64 (g.word x)) g.word (f64Ops g.rounding) bs mm rs q ys⟩
  | .expo size scale mm rs, .u64 => ⟨BitVec 64, kind, .expoHistogram, fun cast q xs => ExpoFit g size → xs ≠ [] → xs.length < 2 ^ 64 → (∀ x ∈ xs, x.toNat < 2 ^ 53) →
      ∃ w, q = .expo w ∧ TellsExpo cast .u64 (u64Ops g.rounding) size scale mm rs w xs⟩
  | .expo size scale mm rs, .i64 => ⟨BitVec 64, kind, .expoHistogram, fun cast q xs => ExpoFit g size → xs ≠ [] → xs.length < 2 ^ 64 → (∀ x ∈ xs, |x.toInt| < 2 ^ 53) →
      ∃ w, q = .expo w ∧ TellsExpo cast .i64 (i64Ops g.rounding) size scale mm rs w xs⟩
  | .expo size scale mm rs, .f64 => ⟨F64, kind, .expoHistogram, fun cast q xs => ExpoFit g size → xs ≠ [] → xs.length < 2 ^ 64 → (∀ x ∈ xs, ∃ v, F64.Representable v ∧ x = .fin v) →
      (scale ≤ 19 ∨ ∀ x ∈ xs, Expo.ratOf x ≠ 0 → Expo.IsNormal |Expo.ratOf x|) →
      ∃ w, q = .expo w ∧ TellsExpo cast (fun x => .f64 (g.word x)) (f64Ops g.rounding) size scale mm rs w xs⟩

/-- After a flush, as `CreatedFlush.FlushArrives`; `old` is what was measured before the call. -/
def FlushArrivesAs (g : Given V) (val : V → Val) (mask : Stream) (fed : List (Works V × Option (List Str))) (i : Instrument) (args : List Temporality) (m : Meaning) : Prop :=
  ∃ (A : Type) (cc : Conc.Cfg Str V A m.X) (st : Style Str A) (ci : CounterId Str) (keys : Option (List Str)), fed = [(⟨A, m.X, cc, st, ci⟩, keys)] ∧
    ∀ (Y : Type) (dflt : Common.Scope Str) (res : ResVal Str) (cast : Cast) (decode : Y → Option (PRequest Str (PMetric Str)))
      (c : Exporter.Cfg Unit (Batch Str) (PRequest Str (PMetric Str)) Y), MetricCfg cast decode c → Exporter.TellsStatus c →
      ∀ (t0 t : Nat) (s : Conc.State Str V A m.X) (e : Exporter.St Unit) (log : List (Sending Y)) (p : Periodic.State), Flush.Runs cc st val dflt res ci c t0 s t e log p →
      ∀ ms : List (Nat × m.X × Attrs Str V), s.applied = ms.map (passes keys) →
      ∀ L : List (Attrs Str V), L.length ≤ mask.cardinalityLimit.getD 2000 →
        (∀ e ∈ ms, (e.2.2.filter fun kv => Allowed mask kv) ≠ [] → sortAndDedup g.srt (e.2.2.filter fun kv => Allowed mask kv) ∈ L) →
      ∀ tok, Flush.Succeeded p tok → ∀ old : List (Nat × m.X × Attrs Str V), Flush.before s p tok = old.map (passes keys) →
        (¬ WantsDelta args m.kind → old ≠ [] →
          ∃ x ∈ heard decode (viewedAs mask i).name (requests log), (∃ now, Names m.form false res (viewedAs mask i) t0 now x) ∧
            ∀ a, measuredAs g.srt mask old a ≠ [] → ∃ q ∈ wpoints x.metric.data, ∃ b xs, ReadsSet val q.attributes b ∧
              sortAndDedup g.srt b = sortAndDedup g.srt a ∧ m.tells cast q xs ∧ (measuredAs g.srt mask old a).Subperm xs ∧ xs <+: measuredAs g.srt mask ms a) ∧
        (WantsDelta args m.kind → AllOk log → ∃ bs : List (Conc.Collection Str V A m.X × Around Str),
          List.Forall₂ (fun x y => Names m.form true res (viewedAs mask i) x.2.start x.2.now y ∧
            CarriesPoints g.srt val (m.tells cast) (Conc.deltaOk g.srt x.1) (Conc.deltaMust g.srt x.1) (wpoints y.metric.data)) bs
              (heard decode (viewedAs mask i).name (requests log)) ∧
          ∀ a, (measuredAs g.srt mask old a).Subperm (bs.flatMap fun x => Conc.setValues g.srt x.1.period (x.1.noVals.getD []) a))

/-- For any number of attribute sets, as `CreatedFlush.NothingLost`. -/
def NothingLostAs (val : V → Val) (mask : Stream) (fed : List (Works V × Option (List Str))) (i : Instrument) (args : List Temporality) (m : Meaning) : Prop :=
  ∃ (A : Type) (cc : Conc.Cfg Str V A m.X) (st : Style Str A) (ci : CounterId Str) (keys : Option (List Str)), fed = [(⟨A, m.X, cc, st, ci⟩, keys)] ∧
    ∀ (Y : Type) (dflt : Common.Scope Str) (res : ResVal Str) (cast : Cast) (decode : Y → Option (PRequest Str (PMetric Str)))
      (c : Exporter.Cfg Unit (Batch Str) (PRequest Str (PMetric Str)) Y), MetricCfg cast decode c →
      ∀ (t0 t : Nat) (s : Conc.State Str V A m.X) (e : Exporter.St Unit) (log : List (Sending Y)), Measured cc st val dflt res ci c t0 s t e log →
        (∀ x ∈ heard decode (viewedAs mask i).name (requests log), (wpoints x.metric.data).length ≤ mask.cardinalityLimit.getD 2000 + 2 ∧
          ∃ delta start now, (delta = true ↔ WantsDelta args m.kind) ∧ Names m.form delta res (viewedAs mask i) start now x) ∧
        (WantsDelta args m.kind → ∃ xs, Shares (m.tells cast) (heardPoints decode (viewedAs mask i).name (requests log)) xs ∧ xs.Subperm (Conc.allValues s) ∧
          (Exporter.TellsStatus c → AllOk log → (xs ++ Conc.pendingValues s).Perm (Conc.allValues s))) ∧
        (¬ WantsDelta args m.kind → ∃ bs : List (Conc.Collection Str V A m.X), List.Sublist bs s.done ∧
          (∀ x ∈ bs, (Conc.endValues x).Subperm (Conc.allValues s)) ∧ List.Forall₂ (fun x y => ∃ xs, Shares (m.tells cast) (wpoints y.metric.data) xs ∧ (Conc.startValues x).Subperm xs ∧ xs.Subperm (Conc.endValues x)) bs
            (heard decode (viewedAs mask i).name (requests log)))

/-! ## Proofs -/

/-- What is built for a form. -/
def Form.built : Form → Built
  | .sum m => .sum m
  | .last => .lastValue none
  | .buckets bs mm rs => .explicitBucketHistogram bs mm rs
  | .expo size scale mm rs => .exponentialHistogram size scale mm rs

theorem asks_built (mask : Stream) (kind : Kind) (f : Form) (h : asksFor kind mask.aggregation = some f) :
    compatible kind (wants mask kind) = true ∧ aggregateFn kind (wants mask kind) = some (some f.built) := by
  unfold wants
  revert h
  cases mask.aggregation with
  | none => cases kind <;> intro h <;> first | (cases h; done) | (injection h with h; subst h; exact ⟨rfl, rfl⟩)
  | some a =>
    cases a with
    | default => cases kind <;> intro h <;> first | (cases h; done) | (injection h with h; subst h; exact ⟨rfl, rfl⟩)
    | drop => intro h; cases h
    | sum => cases kind <;> intro h <;> first | (cases h; done) | (injection h with h; subst h; exact ⟨rfl, rfl⟩)
    | lastValue => cases kind <;> intro h <;> first | (cases h; done) | (injection h with h; subst h; exact ⟨rfl, rfl⟩)
    | explicitBucketHistogram bs mm => cases kind <;> intro h <;> first | (cases h; done) | (injection h with h; subst h; exact ⟨rfl, rfl⟩)
    | base2ExponentialHistogram size scale mm => cases kind <;> intro h <;> first | (cases h; done) | (injection h with h; subst h; exact ⟨rfl, rfl⟩)

theorem asks_increasing (kind : Kind) (a : Option Aggregation) (hb : ∀ bs mm, a = some (.explicitBucketHistogram bs mm) → Increasing bs) (bs : List F64) (mm rs : Bool)
    (h : asksFor kind a = some (.buckets bs mm rs)) : Increasing bs := by
  have hd : Increasing specBoundaries := ⟨by decide +kernel, by decide +kernel⟩
  cases a with
  | none => cases kind <;> first | (cases h; done) | (cases h; exact hd)
  | some a =>
    cases a with
    | default => cases kind <;> first | (cases h; done) | (cases h; exact hd)
    | drop => cases h
    | sum => cases kind <;> cases h
    | lastValue => cases kind <;> cases h
    | explicitBucketHistogram b m => cases kind <;> first | (cases h; done) | (cases h; exact hb _ _ rfl)
    | base2ExponentialHistogram _ _ _ => cases kind <;> cases h

theorem asks_expo (kind : Kind) (a : Option Aggregation) (size : Nat) (scale : Int) (mm rs : Bool) (h : asksFor kind a = some (.expo size scale mm rs)) :
    a = some (.base2ExponentialHistogram size scale mm) := by
  cases a with
  | none => cases kind <;> cases h
  | some a =>
    cases a with
    | default => cases kind <;> cases h
    | drop => cases h
    | sum => cases kind <;> cases h
    | lastValue => cases kind <;> cases h
    | explicitBucketHistogram b m => cases kind <;> cases h
    | base2ExponentialHistogram _ _ _ => cases kind <;> first | (cases h; done) | (cases h; rfl)

/-- An integer that is exactly a double. -/
theorem int_exact (n : Int) (h : |n| < 2 ^ 53) : F64.Representable (n : Rat) := ⟨n, 0, h, by norm_num, by norm_num, by simp⟩

theorem int_normal (n : Int) (h : (n : Rat) ≠ 0) : Expo.IsNormal |(n : Rat)| := by
  have h1 : (1 : Rat) ≤ |(n : Rat)| := by
    have : (1 : Int) ≤ |n| := Int.one_le_abs (by simpa using h)
    exact_mod_cast this
  have h2 : (2 : Rat) ^ (-1022 : Int) ≤ 2 ^ (0 : Int) := zpow_le_zpow_right₀ (by norm_num) (by norm_num)
  rw [zpow_zero] at h2
  exact h2.trans h1

variable {s : Setup} {rd : Reader} {glob : Str → Option (Str → Bool)} {criteria : Instrument} {mask : Stream} {views : List View} {q : Inst.Pipe} {r : Request} {kind : Kind}
  (h : Case s rd glob criteria mask views q r kind) (g : Given V) {val : V → Val}
include h

omit [DecidableEq V] in
/-- What the theorems of C99, C104 and C109 need of the aggregation behind a view. -/
theorem view_serves (f : Form) (hf : asksFor kind mask.aggregation = some f) (hb : ∀ bs mm, mask.aggregation = some (.explicitBucketHistogram bs mm) → Increasing bs) :
    ∃ w : Works V, fedBy g views rd.temporality q r = [(w, mask.allowedKeys)] ∧
      Serves g [w] (mask.cardinalityLimit.getD 2000) (viewedAs mask r.inst) s.args (formMeaning g kind f r.number) := by
  have hw := asks_built mask kind f hf
  have hinc := asks_increasing kind mask.aggregation hb
  obtain ⟨b, y, hb, hyb, hyn, hyk, hyt, hyl, hya, hid, hfed⟩ := h.one g hw.1
  rw [hw.2] at hb
  injection hb with hb; injection hb with hb
  subst hb
  have hown : ownTemporality y = y.temporality := by unfold ownTemporality; rw [hyb]; cases f <;> rfl
  have hdel := fun {A X : Type} (agg : Aggregator A X) => viewed_delta h.built hyt hown g agg
  have hone : ∀ w, works g y = some w → fedBy g views rd.temporality q r = [(w, mask.allowedKeys)] := by
    intro w hw
    rw [hfed, List.filterMap_cons, hw, ← hya]
    rfl
  rw [← hid]
  cases f with
  | sum m =>
    cases hk : r.number with
    | u64 =>
      rw [hk] at hyn
      exact ⟨_, hone _ (by rw [works, hyb, hyn]; rfl), ⟨_, _, _, rfl, rfl, rfl, hyl, hdel _, (u64Sum_ok _).1, (u64Sum_ok _).2,
        fun cast start now kvs xs => u64_reads cast _ start now kvs xs⟩⟩
    | i64 =>
      rw [hk] at hyn
      exact ⟨_, hone _ (by rw [works, hyb, hyn]; rfl), ⟨_, _, _, rfl, rfl, rfl, hyl, hdel _, (i64Sum_ok _).1, (i64Sum_ok _).2,
        fun cast start now kvs xs => i64_reads cast _ start now kvs xs⟩⟩
    | f64 =>
      rw [hk] at hyn
      exact ⟨_, hone _ (by rw [works, hyb, hyn]; rfl), ⟨_, _, _, rfl, rfl, rfl, hyl, hdel _, (f64Sum_ok _).1, (f64Sum_ok _).2,
        fun cast start now kvs xs => f64_reads cast _ g.zero g.add start now kvs xs⟩⟩
  | last =>
    cases hk : r.number <;> rw [hk] at hyn <;>
    exact ⟨_, hone _ (by rw [works, hyb, hyn]; rfl), ⟨_, _, _, rfl, rfl, rfl, hyl, hdel _, (gaugeOf_ok _ _).1, (gaugeOf_ok _ _).2,
      fun cast start now kvs xs => gauge_reads cast _ _ (0 : BitVec 64) start now kvs xs⟩⟩
  | buckets bs mm rs =>
    have hi := hinc bs mm rs hf
    cases hk : r.number with
    | u64 =>
      rw [hk] at hyn
      exact ⟨_, hone _ (by rw [works, hyb, hyn]; rfl), ⟨_, _, _, rfl, rfl, rfl, hyl, hdel _, (histogramOf_ok _ _ _ _ _ _ _).1, (histogramOf_ok _ _ _ _ _ _ _).2,
        fun cast start now kvs xs ys hx hne hlen hy => histogram_reads cast .u64 .u64 g.word (u64Ops g.rounding) g.search _ hi mm rs (fun _ => True) (u64_total _) trivial trivial
          start now kvs xs ys hx hne hlen fun z hz => ⟨trivial, hy z hz, (u64_bounds _ z).1, (u64_bounds _ z).2⟩⟩⟩
    | i64 =>
      rw [hk] at hyn
      exact ⟨_, hone _ (by rw [works, hyb, hyn]; rfl), ⟨_, _, _, rfl, rfl, rfl, hyl, hdel _, (histogramOf_ok _ _ _ _ _ _ _).1, (histogramOf_ok _ _ _ _ _ _ _).2,
        fun cast start now kvs xs ys hx hne hlen hy => histogram_reads cast .i64 .i64 g.word (i64Ops g.rounding) g.search _ hi mm rs (fun _ => True) (i64_total _) trivial trivial
          start now kvs xs ys hx hne hlen fun z hz => ⟨trivial, hy z hz, (i64_bounds _ z).1, (i64_bounds _ z).2⟩⟩⟩
    | f64 =>
      rw [hk] at hyn
      refine ⟨_, hone _ (by rw [works, hyb, hyn]; rfl), ⟨_, _, _, rfl, rfl, rfl, hyl, hdel _, (histogramOf_ok _ _ _ _ _ _ _).1, (histogramOf_ok _ _ _ _ _ _ _).2,
        fun cast start now kvs xs ys hx hne hlen hy => histogram_reads cast .f64 (fun x => .f64 (g.word x)) g.word (f64Ops g.rounding) g.search _ hi mm rs (fun x => x ≠ .nan)
          (f64_total _) (by show F64.MAX ≠ .nan; decide +kernel) (by show F64.MIN ≠ .nan; decide +kernel) start now kvs xs ys hx hne hlen fun z hz => ?_⟩⟩
      obtain ⟨x, hx, rfl⟩ := hy z hz
      exact ⟨by simp, by simp [f64Ops], (f64_bounds _ x hx).1, (f64_bounds _ x hx).2⟩
  | expo size scale mm rs =>
    have hscale := (validate_expo size scale mm).1 (h.view.valid _ (asks_expo kind _ size scale mm rs hf))
    have hsz : 3 ≤ size → size < 2 ^ 31 → (BitVec.ofNat 32 size).toInt = (size : Int) := by
      intro h1 h2
      rw [BitVec.toInt_eq_toNat_of_lt] <;> rw [BitVec.toNat_ofNat, Nat.mod_eq_of_lt] <;> omega
    cases hk : r.number with
    | u64 =>
      rw [hk] at hyn
      refine ⟨_, hone _ (by rw [works, hyb, hyn]; rfl), ⟨_, _, _, rfl, rfl, rfl, hyl, hdel _, (expoOf_ok _ _ _ _ _ _ _).1, (expoOf_ok _ _ _ _ _ _ _).2,
        fun cast start now kvs xs hfit hne hlen hx => ?_⟩⟩
      obtain ⟨h3, h31, hln⟩ := hfit
      rw [hsz h3 h31]
      have hto : ∀ x ∈ xs, (u64Ops g.rounding).toF x = .fin (x.toNat : Rat) := fun x hm =>
        g.rounding.exact _ (by have := int_exact (x.toNat : Int) (by have := hx x hm; rw [abs_of_nonneg] <;> omega); simpa using this)
      refine expo_reads cast .u64 _ (u64Ops g.rounding) g.ln hln g.checks size scale (by omega) hscale mm _ (fun _ => True) (u64_total _) trivial trivial start now kvs xs hne hlen
        (fun x hm => ⟨⟨g.rounding.wf _, fun _ => ?_⟩, by rw [hto x hm]; rfl, trivial, (u64_bounds _ x).1, (u64_bounds _ x).2⟩) (Or.inr fun x hm hne => ?_)
      · rw [hto x hm]
        simp [u64Ops, BitVec.ult, Expo.ratOf]
      · rw [hto x hm] at hne ⊢
        have := int_normal (x.toNat : Int) (by simpa [Expo.ratOf] using hne)
        simpa [Expo.ratOf] using this
    | i64 =>
      rw [hk] at hyn
      refine ⟨_, hone _ (by rw [works, hyb, hyn]; rfl), ⟨_, _, _, rfl, rfl, rfl, hyl, hdel _, (expoOf_ok _ _ _ _ _ _ _).1, (expoOf_ok _ _ _ _ _ _ _).2,
        fun cast start now kvs xs hfit hne hlen hx => ?_⟩⟩
      obtain ⟨h3, h31, hln⟩ := hfit
      rw [hsz h3 h31]
      have hto : ∀ x ∈ xs, (i64Ops g.rounding).toF x = .fin (x.toInt : Rat) := fun x hm => g.rounding.exact _ (int_exact x.toInt (hx x hm))
      refine expo_reads cast .i64 _ (i64Ops g.rounding) g.ln hln g.checks size scale (by omega) hscale mm _ (fun _ => True) (i64_total _) trivial trivial start now kvs xs hne hlen
        (fun x hm => ⟨⟨g.rounding.wf _, fun _ => ?_⟩, by rw [hto x hm]; rfl, trivial, (i64_bounds _ x).1, (i64_bounds _ x).2⟩) (Or.inr fun x hm hne => ?_)
      · rw [hto x hm]
        simp [i64Ops, BitVec.slt, Expo.ratOf]
      · rw [hto x hm] at hne ⊢
        exact int_normal x.toInt (by simpa [Expo.ratOf] using hne)
    | f64 =>
      rw [hk] at hyn
      refine ⟨_, hone _ (by rw [works, hyb, hyn]; rfl), ⟨_, _, _, rfl, rfl, rfl, hyl, hdel _, (expoOf_ok _ _ _ _ _ _ _).1, (expoOf_ok _ _ _ _ _ _ _).2,
        fun cast start now kvs xs hfit hne hlen hx hnorm => ?_⟩⟩
      obtain ⟨h3, h31, hln⟩ := hfit
      rw [hsz h3 h31]
      refine expo_reads cast .f64 _ (f64Ops g.rounding) g.ln hln g.checks size scale (by omega) hscale mm _ (fun x => x ≠ .nan) (f64_total _) (by simp [f64Ops, F64.MAX])
        (by simp [f64Ops, F64.MIN]) start now kvs xs hne hlen (fun x hm => ?_) hnorm
      obtain ⟨v, hv, rfl⟩ := hx x hm
      exact ⟨Expo.f64_good _ _ hv, rfl, by simp, (f64_bounds _ v hv).1, (f64_bounds _ v hv).2⟩

variable (hinj : Function.Injective val) (hplain : ∀ v, NotEmptyArray (val v))
include hinj hplain

omit h hinj hplain in
theorem values_kept {X : Type} (srt : Sorter Str V) (ms : List (Nat × X × Attrs Str V)) (a : Attrs Str V) :
    Conc.valuesIn srt (ms.map (passes mask.allowedKeys)) a = measuredAs srt mask ms a := by
  unfold Conc.valuesIn measuredAs
  rw [List.filter_map, List.map_map]
  simp only [passes, kept_eq, Function.comp_def]

omit [DecidableEq V] h hinj hplain in
theorem sets_kept {X : Type} {srt : Sorter Str V} {L : List (Attrs Str V)} {ms : List (Nat × X × Attrs Str V)}
    (hsets : ∀ e ∈ ms, (e.2.2.filter fun kv => Allowed mask kv) ≠ [] → sortAndDedup srt (e.2.2.filter fun kv => Allowed mask kv) ∈ L) :
    ∀ e ∈ ms.map (passes mask.allowedKeys), e.2.2 ≠ [] → sortAndDedup srt e.2.2 ∈ L := by
  intro e he hne
  obtain ⟨m, hm, rfl⟩ := List.mem_map.1 he
  simp only [passes, kept_eq] at hne ⊢
  exact hsets m hm hne

/-- **C134, all forms.** For every synchronous instrument and everything a view can ask for of it but an exponential histogram, and every number type. -/
theorem viewed_arrives_partial (f : Form) (hf : asksFor kind mask.aggregation = some f)
    (hb : ∀ bs mm, mask.aggregation = some (.explicitBucketHistogram bs mm) → Increasing bs) :
    ArrivesAs g val mask (fedBy g views rd.temporality q r) r.inst s.args kind (formMeaning g kind f r.number).form (formMeaning g kind f r.number).X
      (formMeaning g kind f r.number).tells := by
  obtain ⟨w, hfed, A, cc, st, hw, hsrt, hkind, hlim, hdel, hfit, hkeep, hreads⟩ := view_serves h g f hf hb
  have hk : (formMeaning g kind f r.number).kind = kind := by cases f <;> cases r.number <;> rfl
  rw [hk] at hdel
  injection hw with hw
  subst hw
  refine ⟨A, cc, st, _, _, hfed, ?_⟩
  intro Y dflt res cast decode c hc t0 t s e log hm ms hms L hL hsets
  have hsets' := sets_kept hsets
  rw [← hms, ← hsrt] at hsets'
  rw [← hsrt, ← hkind]
  rw [← hlim] at hL
  refine ⟨fun a => ?_, fun hw => ?_, fun hw => ?_⟩
  · rw [← values_kept, ← hms]; rfl
  · exact instrument_delta_partial (hdel.2 hw) hfit hkeep hinj hplain hc (hreads cast) hm hL hsets'
  · have : cc.delta = false := by
      cases h : cc.delta with
      | false => rfl
      | true => exact absurd (hdel.1 h) hw
    exact instrument_cumulative_partial this hfit hkeep hinj hplain hc (hreads cast) hm hL hsets'

/-- **C134, flush.** -/
theorem viewed_flushed_partial (f : Form) (hf : asksFor kind mask.aggregation = some f)
    (hb : ∀ bs mm, mask.aggregation = some (.explicitBucketHistogram bs mm) → Increasing bs) :
    FlushArrivesAs g val mask (fedBy g views rd.temporality q r) r.inst s.args (formMeaning g kind f r.number) := by
  obtain ⟨w, hfed, A, cc, st, hw, hsrt, hkind, hlim, hdel, hfit, hkeep, hreads⟩ := view_serves h g f hf hb
  injection hw with hw
  subst hw
  refine ⟨A, cc, st, _, _, hfed, ?_⟩
  intro Y dflt res cast decode c hc ht t0 t s e log p hr ms hms L hL hsets tok hok old hold
  have hsets' := sets_kept hsets
  rw [← hms, ← hsrt] at hsets'
  simp only [← values_kept, ← hms, ← hold]
  rw [← hsrt, ← hkind]
  rw [← hlim] at hL
  constructor
  · intro hw hne
    have hd : cc.delta = false := by
      cases h : cc.delta with
      | false => rfl
      | true => exact absurd (hdel.1 h) hw
    exact Flush.flushed_cumulative_partial hd hfit hkeep hinj hplain hc ht (hreads cast) hr hL hsets' hok (by rw [hold]; simpa using hne)
  · intro hw hall
    exact Flush.flushed_delta_partial (hdel.2 hw) hfit hkeep hinj hplain hc ht (hreads cast) hr hL hsets' hok hall

/-- **C134, past the limit.** -/
theorem viewed_nothing_lost (f : Form) (hf : asksFor kind mask.aggregation = some f)
    (hb : ∀ bs mm, mask.aggregation = some (.explicitBucketHistogram bs mm) → Increasing bs) :
    NothingLostAs val mask (fedBy g views rd.temporality q r) r.inst s.args (formMeaning g kind f r.number) := by
  obtain ⟨w, hfed, A, cc, st, hw, hsrt, hkind, hlim, hdel, hfit, hkeep, hreads⟩ := view_serves h g f hf hb
  injection hw with hw
  subst hw
  refine ⟨A, cc, st, _, _, hfed, ?_⟩
  intro Y dflt res cast decode c hc t0 t s e log hr
  rw [← hlim]
  cases hcd : cc.delta with
  | true =>
    obtain ⟨all, bs, -, -, -, hb, -⟩ := overflow_delta hcd hfit hkeep hinj hplain hc (hreads cast) hr
    refine ⟨fun x hx => ?_, fun _ => overflow_nothing_lost hcd hfit hkeep hinj hplain hc (hreads cast) hr, fun hw => absurd (hdel.1 hcd) hw⟩
    obtain ⟨b, -, hbx⟩ := of_right hb hx
    exact ⟨hbx.2.1, true, _, _, by simpa [hcd] using hdel, hkind ▸ hbx.1⟩
  | false =>
    obtain ⟨all, bs, h1, h2, -, hb, hend, -⟩ := overflow_cumulative hcd hfit hkeep hinj hplain hc (hreads cast) hr
    refine ⟨fun x hx => ?_, fun hw => absurd (hdel.2 hw) (by simp [hcd]), fun _ => ⟨bs.map Prod.fst, h1 ▸ h2.map _, ?_, ?_⟩⟩
    · obtain ⟨b, -, hbx⟩ := of_right hb hx
      exact ⟨hbx.2.1, false, _, _, by simpa [hcd] using hdel, hkind ▸ hbx.1⟩
    · intro x hx
      obtain ⟨y, hy, rfl⟩ := List.mem_map.1 hx
      exact (hend y hy).1
    · rw [List.forall₂_map_left_iff]
      exact hb.imp fun x y hxy => hxy.2.2.2

omit [DecidableEq V] h hinj hplain in
/-- The case of `EndToEnd/Viewed.lean` asks for a sum. -/
example : asksFor .counter exMask.aggregation = some (.sum true) ∧ ∀ bs mm, exMask.aggregation = some (.explicitBucketHistogram bs mm) → Increasing bs :=
  ⟨rfl, fun _ _ h => by cases h⟩

omit [DecidableEq V] h hinj hplain in
/-- A view that asks for an exponential histogram of an up-down counter; what that needs is met. -/
example (r : F64.Rounding) : asksFor .upDownCounter (some (.base2ExponentialHistogram 160 20 true)) = some (.expo 160 20 true false) ∧ ExpoFit (exGiven r) 160 :=
  ⟨rfl, by omega, by omega, Expo.exactLn_ideal⟩

end Otel.EndToEnd.Viewed
