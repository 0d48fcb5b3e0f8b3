import Verif.EndToEnd.Instruments
import Verif.Metrics.ExpoProps
/-!
# Exponential histograms at the collector (C99)

The point of C41 as a style of `Instruments.lean`. `ExpoHistogram::call` passes only values whose float is finite to the store
(opentelemetry-sdk/src/metrics/internal/exponential_histogram.rs:513-530), so those are the measurements here.
-/

namespace Otel.EndToEnd
open Otel.Otlp Otel.Metrics
open Common (Val Scope)

variable {K N : Type}

/-- The aggregation of one attribute set; `none`: `record` panicked, and the mutex is poisoned. exponential_histogram.rs:316-341 -/
def expoAgg (num : NumOps N) (ln : Expo.Ln) (chk : Bool) (maxSize maxScale : Int) : Aggregator (Option (Expo.Point N)) N :=
  ⟨some (Expo.Point.new num maxSize maxScale), fun p v => p.bind fun p => p.record num (fun v => Expo.ratOf (num.toF v)) ln chk v⟩

/-- `ExponentialBucket` of a side. exponential_histogram.rs:431-438 -/
def expoBucket (b : Expo.Buckets) : ExpoBucket := ⟨BitVec.ofInt 32 b.startBin, b.counts.map (BitVec.ofNat 64)⟩

/-- The data point of an exponential histogram. exponential_histogram.rs:416-444, 476-504. The point of a poisoned mutex is not modelled: it is that of a new one here. -/
def expoOf (k : NumKind) (toNum : N → Num) (num : NumOps N) (maxSize maxScale : Int) (mm rs : Bool) : Style K (Option (Expo.Point N)) :=
  ⟨k, .expoHistogram, fun kvs o =>
    let b := o.getD (Expo.Point.new num maxSize maxScale)
    .expo ⟨kvs, BitVec.ofNat 64 b.count, if mm then some (toNum b.min) else none, if mm then some (toNum b.max) else none, toNum (if rs then b.sum else num.zero),
      BitVec.ofInt 8 b.scale, BitVec.ofNat 64 b.zeroCount, expoBucket b.pos, expoBucket b.neg, 0, []⟩⟩

theorem expoOf_ok (k : NumKind) (toNum : N → Num) (num : NumOps N) (maxSize maxScale : Int) (mm rs : Bool) :
    (expoOf (K := K) k toNum num maxSize maxScale mm rs).Fit ∧ (expoOf (K := K) k toNum num maxSize maxScale mm rs).Keeps := ⟨fun _ _ => trivial, fun _ _ _ _ _ => rfl⟩

/-! ## Specification -/

/-- What a receiver reads for the bucket with index `i`. -/
def readBucket (b : ExpoBucket) (i : Int) : Nat := if b.offset.toInt ≤ i then (b.counts.getD (i - b.offset.toInt).toNat 0).toNat else 0

/-- What a received point tells about values: their number, for each bucket at the scale it gives how many lie in it, how many are zero, sum, minimum and maximum. -/
structure TellsExpo (cast : Cast) (toNum : N → Num) (num : NumOps N) (maxSize maxScale : Int) (mm rs : Bool) (w : PExpoPoint K) (ys : List N) : Prop where
  count : w.count.toNat = ys.length
  scale : -10 ≤ w.scale.toInt ∧ w.scale.toInt ≤ maxScale
  positive : ∀ i, readBucket w.positive i = Expo.tallyOf (fun v => Expo.ratOf (num.toF v)) (0 < ·) w.scale.toInt i ys
  negative : ∀ i, readBucket w.negative i = Expo.tallyOf (fun v => Expo.ratOf (num.toF v)) (· < 0) w.scale.toInt i ys
  zero : w.zeroCount.toNat = (ys.filter fun v => decide (Expo.ratOf (num.toF v) = 0)).length ∧ w.zeroThreshold = 0
  size : (w.positive.counts.length : Int) ≤ maxSize ∧ (w.negative.counts.length : Int) ≤ maxSize
  total : w.zeroCount.toNat + (w.positive.counts.map BitVec.toNat).sum + (w.negative.counts.map BitVec.toNat).sum = ys.length
  sum : w.sum = some (intoF64 cast (toNum (if rs then ys.foldl num.add num.zero else num.zero)))
  min : mm = true → ∃ m ∈ ys, (∀ y ∈ ys, num.lt y m = false) ∧ w.min = some (intoF64 cast (toNum m))
  max : mm = true → ∃ m ∈ ys, (∀ y ∈ ys, num.lt m y = false) ∧ w.max = some (intoF64 cast (toNum m))
  none : mm = false → w.min = none ∧ w.max = none

/-! ## Proofs -/

theorem expo_fold (num : NumOps N) (ln : Expo.Ln) (chk : Bool) (maxSize maxScale : Int) (xs : List N) :
    xs.foldl (expoAgg num ln chk maxSize maxScale).update (expoAgg num ln chk maxSize maxScale).create
      = (Expo.Point.new num maxSize maxScale).run num (fun v => Expo.ratOf (num.toF v)) ln chk xs := by
  have key : ∀ (xs : List N) (p : Expo.Point N), xs.foldl (expoAgg num ln chk maxSize maxScale).update (some p) = p.run num (fun v => Expo.ratOf (num.toF v)) ln chk xs := by
    intro xs
    induction xs with
    | nil => intro p; rfl
    | cons x xs ih =>
      intro p
      rw [List.foldl_cons, Expo.Point.run]
      have e : (expoAgg num ln chk maxSize maxScale).update (some p) x = p.record num (fun v => Expo.ratOf (num.toF v)) ln chk x := rfl
      rw [e]
      cases p.record num (fun v => Expo.ratOf (num.toF v)) ln chk x with
      | some p' => exact ih p'
      | none =>
        show xs.foldl _ none = none
        clear ih
        induction xs with
        | nil => rfl
        | cons y ys ih => exact ih
  exact key xs _

/-- A smallest element, as the code finds it. -/
theorem foldl_least {Q : N → Prop} (lt : N → N → Bool) (hirr : ∀ a, Q a → lt a a = false)
    (htr : ∀ a b c, Q a → Q b → Q c → lt a b = true → lt b c = true → lt a c = true) (htot : ∀ a b, Q a → Q b → a = b ∨ lt a b = true ∨ lt b a = true) (z : N) (hz : Q z)
    (xs : List N) (hne : xs ≠ []) (hxs : ∀ x ∈ xs, Q x) (hle : ∀ x ∈ xs, lt z x = false) :
    xs.foldl (fun m v => if lt v m then v else m) z ∈ xs ∧ ∀ x ∈ xs, lt x (xs.foldl (fun m v => if lt v m then v else m) z) = false := by
  have key : ∀ xs : List N, (∀ x ∈ xs, Q x) → let m := xs.foldl (fun m v => if lt v m then v else m) z
      (m = z ∨ m ∈ xs) ∧ Q m ∧ (∀ x ∈ xs, lt x m = false) ∧ lt z m = false := by
    intro xs
    induction xs using List.reverseRecOn with
    | nil => intro _; exact ⟨Or.inl rfl, hz, by simp, hirr z hz⟩
    | append_singleton xs x ih =>
      intro hq
      obtain ⟨h1, h2, h3, h4⟩ := ih fun y hy => hq y (by simp [hy])
      have hx : Q x := hq x (by simp)
      simp only [List.foldl_append, List.foldl_cons, List.foldl_nil]
      generalize xs.foldl (fun m v => if lt v m then v else m) z = m at h1 h2 h3 h4 ⊢
      by_cases hl : lt x m = true
      · rw [if_pos hl]
        have hlt : ∀ y, Q y → lt y m = false → lt y x = false := fun y hy hym => by
          cases hc : lt y x with
          | false => rfl
          | true => rw [htr y x m hy hx h2 hc hl] at hym; cases hym
        refine ⟨Or.inr (by simp), hx, fun y hy => ?_, hlt z hz h4⟩
        rcases List.mem_append.1 hy with hy | hy
        · exact hlt y (hq y (by simp [hy])) (h3 y hy)
        · rw [List.mem_singleton.1 hy]; exact hirr x hx
      · rw [if_neg hl]
        refine ⟨h1.imp_right fun h => by simp [h], h2, fun y hy => ?_, h4⟩
        rcases List.mem_append.1 hy with hy | hy
        · exact h3 y hy
        · rw [List.mem_singleton.1 hy]; simpa using hl
  obtain ⟨h1, h2, h3, h4⟩ := key xs hxs
  refine ⟨?_, h3⟩
  rcases h1 with h1 | h1
  · obtain ⟨x, hx⟩ := List.exists_mem_of_ne_nil xs hne
    rw [h1] at h3 ⊢
    rcases htot x z (hxs x hx) hz with e | e | e
    · rw [← e]; exact hx
    · rw [h3 x hx] at e; cases e
    · rw [hle x hx] at e; cases e
  · exact h1

theorem bucket_start {fl : N → Rat} {b : Expo.Buckets} {s : Int} {neg : Bool} {kept : List N} (hs : s ≤ 20) (hfit : ∀ q ∈ Expo.mags fl neg kept, Expo.InDoubleRange q)
    (h : Expo.Rep b ((Expo.mags fl neg kept).map (Expo.ideal s))) : b.counts = [] ∨ (-2 ^ 31 ≤ b.startBin ∧ b.startBin < 2 ^ 31) := by
  by_cases hl : (Expo.mags fl neg kept).map (Expo.ideal s) = []
  · exact Or.inl (h.nil.2 hl)
  · obtain ⟨q, hq, he⟩ := List.mem_map.1 (h.first hl)
    obtain ⟨g1, g2⟩ := Expo.ideal20_range (-1074) q (hfit q hq).1 (hfit q hq).2
    right
    rw [← he, Expo.ideal_of_20 s hs, Expo.shiftRight_eq]
    have hp : (0 : Int) < 2 ^ (20 - s).toNat := by positivity
    generalize (2 : Int) ^ (20 - s).toNat = d at hp
    generalize Expo.ideal 20 q = x at g1 g2
    constructor
    · rw [Int.le_ediv_iff_mul_le hp]; nlinarith
    · rw [Int.ediv_lt_iff_lt_mul hp]; nlinarith

theorem read_bucket (b : Expo.Buckets) (h : b.counts = [] ∨ (-2 ^ 31 ≤ b.startBin ∧ b.startBin < 2 ^ 31)) (hsmall : ∀ n ∈ b.counts, n < 2 ^ 64) (i : Int) :
    readBucket (expoBucket b) i = b.at i := by
  rcases h with h | ⟨h1, h2⟩
  · simp [readBucket, expoBucket, Expo.Buckets.at, h]
  · have e : (BitVec.ofInt 32 b.startBin).toInt = b.startBin := by
      rw [BitVec.toInt_ofInt]
      exact Int.bmod_eq_of_le (by omega) (by omega)
    simp only [readBucket, expoBucket, Expo.Buckets.at, e]
    split
    · simp only [List.getD_eq_getElem?_getD, List.getElem?_map]
      cases hg : b.counts[(i - b.startBin).toNat]? with
      | none => rfl
      | some n =>
        have := hsmall n (List.mem_of_getElem? hg)
        simp only [Option.map_some, Option.getD_some, BitVec.toNat_ofNat]
        exact Nat.mod_eq_of_lt this
    · rfl

theorem counts_sum (b : Expo.Buckets) (hsmall : ∀ n ∈ b.counts, n < 2 ^ 64) : ((expoBucket b).counts.map BitVec.toNat).sum = b.counts.sum := by
  rw [expoBucket, List.map_map]
  congr 1
  conv_rhs => rw [← List.map_id b.counts]
  apply List.map_congr_left
  intro n hn
  simp only [Function.comp, BitVec.toNat_ofNat, id]
  exact Nat.mod_eq_of_lt (hsmall n hn)

/-- C99, exponential histograms: a received point is the exponential histogram of the values. For three buckets or more; see C41 for the conditions. -/
theorem expo_reads (cast : Cast) (k : NumKind) (toNum : N → Num) (num : NumOps N) (ln : Expo.Ln) (hln : Expo.ExactLn ln) (chk : Bool) (maxSize maxScale : Int)
    (hsize : 3 ≤ maxSize) (hscale : -10 ≤ maxScale ∧ maxScale ≤ 20) (mm rs : Bool) (Q : N → Prop) (hQ : TotalOn num Q) (htop : Q num.top) (hbot : Q num.bot) (start now : Nat)
    (kvs : List (K × Val)) (xs : List N) : xs ≠ [] → xs.length < 2 ^ 64 →
      (∀ x ∈ xs, Expo.GoodValue num x ∧ (num.toF x).isFinite = true ∧ Q x ∧ num.lt num.top x = false ∧ num.lt x num.bot = false) →
      (maxScale ≤ 19 ∨ ∀ x ∈ xs, Expo.ratOf (num.toF x) ≠ 0 → Expo.IsNormal |Expo.ratOf (num.toF x)|) →
      ∃ w, wireOf cast (expoOf (K := K) k toNum num maxSize maxScale mm rs).kind start now ((expoOf k toNum num maxSize maxScale mm rs).point kvs
          (xs.foldl (expoAgg num ln chk maxSize maxScale).update (expoAgg num ln chk maxSize maxScale).create)) = .expo w ∧
        TellsExpo cast toNum num maxSize maxScale mm rs w xs := by
  intro hne hlen hx hspan
  have hfin : Expo.finiteOf num xs = xs := List.filter_eq_self.2 fun x h => (hx x h).2.1
  have hacc : xs.filter (Expo.accepted num) = xs := List.filter_eq_self.2 fun x h => (hx x h).2.1
  obtain ⟨p, kept, h1, h2, h3, _, h5⟩ := Expo.observe_inv num ln hln chk maxSize maxScale (by omega) hscale xs (fun x h => (hx x h).1) (by rw [hfin]; exact hspan)
  have hkept := h5 hsize
  rw [hfin] at h2 hkept
  have hh := Expo.inv_histogram num maxSize maxScale p kept xs (by rw [hkept]; exact List.reverse_perm _) h3
  obtain ⟨_, s2, s3, s4, _, _⟩ := Expo.expo_summary num ln chk maxSize maxScale hscale.1 xs p h1
  rw [hfin] at s2 s3 s4
  have hrun : xs.foldl (expoAgg num ln chk maxSize maxScale).update (expoAgg num ln chk maxSize maxScale).create = some p := by
    rw [expo_fold, ← h1, Expo.observe, hacc]
  rw [hrun]
  have hrange : ∀ neg, ∀ q ∈ Expo.mags (fun v => Expo.ratOf (num.toF v)) neg kept, Expo.InDoubleRange q := by
    intro neg q hq
    obtain ⟨v, hv, rfl⟩ := List.mem_map.1 hq
    obtain ⟨hv1, hv2⟩ := List.mem_filter.1 hv
    rw [hkept, List.mem_reverse] at hv1
    have hwf := (hx v hv1).1.wf
    have hf := (hx v hv1).2.1
    refine Expo.representable_range _ ?_ ?_
    · cases hy : num.toF v with
      | fin q =>
        rw [hy] at hwf
        show Rust.F64.Representable (Expo.ratOf (num.toF v))
        rw [hy]; exact hwf
      | nan => rw [hy] at hf; cases hf
      | posInf => rw [hy] at hf; cases hf
      | negInf => rw [hy] at hf; cases hf
    · cases neg
      · simp at hv2; exact hv2.ne'
      · simp at hv2; exact hv2.ne
  have hpos := bucket_start (by have := h3.scaleLe; omega) (hrange false) h3.pos
  have hneg := bucket_start (by have := h3.scaleLe; omega) (hrange true) h3.neg
  have hle : ∀ (b : Expo.Buckets), b.counts.sum ≤ xs.length → ∀ n ∈ b.counts, n < 2 ^ 64 := fun b hb n hn =>
    Nat.lt_of_le_of_lt (Nat.le_trans (List.le_sum_of_mem hn) hb) hlen
  have htotal := hh.total
  have hp' := hle p.pos (by omega)
  have hn' := hle p.neg (by omega)
  have hscale' : ((BitVec.ofInt 8 p.scale).signExtend 32).toInt = p.scale := by
    have b1 := h3.scaleLe
    have b2 := h3.scaleGe
    rw [BitVec.toInt_signExtend_of_le (by decide), BitVec.toInt_ofInt]
    exact Int.bmod_eq_of_le (by omega) (by omega)
  have hmin := foldl_least num.lt hQ.irrefl hQ.trans hQ.total num.top htop xs hne (fun x h => (hx x h).2.2.1) fun x h => (hx x h).2.2.2.1
  have hmax := foldl_least (fun a b => num.lt b a) hQ.irrefl (fun a b c ha hb hc h1 h2 => hQ.trans c b a hc hb ha h2 h1)
    (fun a b ha hb => by rcases hQ.total a b ha hb with h | h | h; exacts [Or.inl h, Or.inr (Or.inr h), Or.inr (Or.inl h)]) num.bot hbot xs hne (fun x h => (hx x h).2.2.1)
    fun x h => (hx x h).2.2.2.2
  rw [← s3] at hmin
  rw [← s4] at hmax
  have hz : (BitVec.ofNat 64 p.zeroCount).toNat = p.zeroCount := by
    rw [BitVec.toNat_ofNat]; exact Nat.mod_eq_of_lt (by omega)
  refine ⟨_, rfl, ?_, ?_, fun i => ?_, fun i => ?_, ⟨?_, rfl⟩, ⟨?_, ?_⟩, ?_, ?_, fun hm => ?_, fun hm => ?_, fun hm => ?_⟩
  · show (BitVec.ofNat 64 p.count).toNat = _
    rw [h2, BitVec.toNat_ofNat]; exact Nat.mod_eq_of_lt hlen
  · show _ ≤ ((BitVec.ofInt 8 p.scale).signExtend 32).toInt ∧ _
    rw [hscale']; exact ⟨h3.scaleGe, by show ((BitVec.ofInt 8 p.scale).signExtend 32).toInt ≤ _; rw [hscale']; exact h3.scaleLe⟩
  · show readBucket (expoBucket p.pos) i = Expo.tallyOf _ _ ((BitVec.ofInt 8 p.scale).signExtend 32).toInt i xs
    rw [hscale', read_bucket p.pos hpos hp', hh.pos]
  · show readBucket (expoBucket p.neg) i = Expo.tallyOf _ _ ((BitVec.ofInt 8 p.scale).signExtend 32).toInt i xs
    rw [hscale', read_bucket p.neg hneg hn', hh.neg]
  · exact hz.trans hh.zero
  · show ((p.pos.counts.map _).length : Int) ≤ _
    rw [List.length_map]; exact hh.posSize
  · show ((p.neg.counts.map _).length : Int) ≤ _
    rw [List.length_map]; exact hh.negSize
  · show (BitVec.ofNat 64 p.zeroCount).toNat + ((expoBucket p.pos).counts.map BitVec.toNat).sum + ((expoBucket p.neg).counts.map BitVec.toNat).sum = _
    rw [hz, counts_sum _ hp', counts_sum _ hn', htotal]
  · show some (intoF64 cast (toNum (if rs then p.sum else num.zero))) = _
    rw [s2]
  · refine ⟨p.min, hmin.1, hmin.2, ?_⟩
    show (if mm then some (toNum p.min) else none).map _ = _
    rw [if_pos hm]; rfl
  · refine ⟨p.max, hmax.1, hmax.2, ?_⟩
    show (if mm then some (toNum p.max) else none).map _ = _
    rw [if_pos hm]; rfl
  · constructor
    · show (if mm then some (toNum p.min) else none).map _ = _
      rw [hm]; rfl
    · show (if mm then some (toNum p.max) else none).map _ = _
      rw [hm]; rfl

/-- The hypotheses of `expo_reads` are met: the values 1 and 4, with an exact logarithm. -/
example (r : Rust.F64.Rounding) (cast : Cast) (kvs : List (Nat × Val)) :
    ∃ w, wireOf cast .expoHistogram 1 2 ((expoOf (K := Nat) .f64 (fun _ => Num.f64 0) (f64Ops r) 160 19 true true).point kvs
          ([.fin 1, .fin 4].foldl (expoAgg (f64Ops r) Expo.ideal true 160 19).update (expoAgg (f64Ops r) Expo.ideal true 160 19).create)) = .expo w ∧
        TellsExpo cast (fun _ => Num.f64 0) (f64Ops r) 160 19 true true w [.fin 1, .fin 4] := by
  have e1 : Rust.F64.Representable 1 := by simpa using Expo.representable_two_zpow 0 (by norm_num) (by norm_num)
  have e4 : Rust.F64.Representable 4 := by
    have := Expo.representable_two_zpow 2 (by norm_num) (by norm_num)
    norm_num at this
    exact this
  refine expo_reads cast .f64 _ (f64Ops r) Expo.ideal Expo.exactLn_ideal true 160 19 (by norm_num) (by norm_num) true true (fun x => x ≠ .nan) (f64_total r) (by simp [f64Ops, Rust.F64.MAX])
    (by simp [f64Ops, Rust.F64.MIN]) 1 2 kvs _ (by simp) (by simp) (fun x hx => ?_) (Or.inl (by norm_num))
  simp only [List.mem_cons, List.not_mem_nil, or_false] at hx
  rcases hx with rfl | rfl
  · exact ⟨Expo.f64_good r _ e1, rfl, by simp, (f64_bounds r 1 e1).1, (f64_bounds r 1 e1).2⟩
  · exact ⟨Expo.f64_good r _ e4, rfl, by simp, (f64_bounds r 4 e4).1, (f64_bounds r 4 e4).2⟩

end Otel.EndToEnd
