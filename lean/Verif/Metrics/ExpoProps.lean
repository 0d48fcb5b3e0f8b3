import Verif.Metrics.ExpoInv
import Verif.Metrics.AggregationProps
/-!
# Property C41: exponential histograms stay within their size and keep every count

The theorems speak of `observe`, the data point of one attribute set after any list of measurements.
-/

namespace Otel.Metrics.Expo
open Rust (F64)

variable {N : Type}

/-- The finite measurements: the others are ignored. -/
def finiteOf (num : NumOps N) (ms : List N) : List N := ms.filter fun v => (num.toF v).isFinite

/-- What is assumed of a measurement: its float is a double, and its sign is that of its float. -/
structure GoodValue (num : NumOps N) (v : N) : Prop where
  wf : (num.toF v).WF
  sign : (num.toF v).isFinite = true → (num.lt v num.zero = true ↔ ratOf (num.toF v) < 0)

/-- `p` is the exponential histogram of the finite values `vs`. -/
structure IsHistogramOf (num : NumOps N) (maxSize maxScale : Int) (vs : List N) (p : Point N) : Prop where
  /-- the scale is in range -/
  scale : -10 ≤ p.scale ∧ p.scale ≤ maxScale
  /-- at most `maxSize` buckets on each side -/
  posSize : (p.pos.counts.length : Int) ≤ maxSize
  negSize : (p.neg.counts.length : Int) ≤ maxSize
  /-- zeroes are counted apart -/
  zero : p.zeroCount = (vs.filter fun v => decide (ratOf (num.toF v) = 0)).length
  /-- bucket `i` counts the values that lie in it at the reported scale -/
  pos : ∀ i, p.pos.at i = tallyOf (fun v => ratOf (num.toF v)) (0 < ·) p.scale i vs
  neg : ∀ i, p.neg.at i = tallyOf (fun v => ratOf (num.toF v)) (· < 0) p.scale i vs
  /-- nothing is lost or counted twice -/
  total : p.zeroCount + p.pos.counts.sum + p.neg.counts.sum = vs.length
  /-- no resolution is given up without need: at the next finer scale some values of one sign would be `maxSize` or more buckets apart -/
  finest : p.scale = maxScale ∨ ∃ v ∈ vs, ∃ w ∈ vs, ∃ i j, InBucket (p.scale + 1) i |ratOf (num.toF v)| ∧
    InBucket (p.scale + 1) j |ratOf (num.toF w)| ∧ maxSize ≤ i - j ∧ (0 < ratOf (num.toF v) ↔ 0 < ratOf (num.toF w))

theorem representable_range (q : Rat) (h : F64.Representable q) (hq : q ≠ 0) : InDoubleRange |q| := by
  obtain ⟨m, e, hm, he1, he2, rfl⟩ := h
  have hm0 : m ≠ 0 := by rintro rfl; simp at hq
  have hp : (0 : Rat) < 2 ^ e := by positivity
  rw [abs_mul, abs_of_pos hp, ← Int.cast_abs]
  have h1 : (1 : Rat) ≤ ((|m| : Int) : Rat) := by
    have : 1 ≤ |m| := Int.one_le_abs hm0
    exact_mod_cast this
  have h2 : ((|m| : Int) : Rat) < (2 : Rat) ^ (53 : Int) := by
    have : ((|m| : Int) : Rat) < ((2 ^ 53 : Int) : Rat) := Int.cast_lt.2 hm
    calc _ < _ := this
      _ = _ := by norm_num
  constructor
  · calc (2 : Rat) ^ (-1074 : Int) ≤ 2 ^ e := zpow_le_zpow_right₀ (by norm_num) he1
      _ = 1 * 2 ^ e := (one_mul _).symm
      _ ≤ _ := mul_le_mul_of_nonneg_right h1 hp.le
  · calc ((|m| : Int) : Rat) * 2 ^ e < 2 ^ (53 : Int) * 2 ^ e := mul_lt_mul_of_pos_right h2 hp
      _ = 2 ^ (53 + e) := (zpow_add₀ (by norm_num) _ _).symm
      _ ≤ 2 ^ (1024 : Int) := zpow_le_zpow_right₀ (by norm_num) (by omega)

open Classical in
theorem count_eq_tally (fl : N → Rat) (neg : Bool) (s i : Int) (vs : List N) :
    ((mags fl neg vs).map (ideal s)).count i = tallyOf fl (if neg then (· < 0) else (0 < ·)) s i vs := by
  unfold mags tallyOf
  induction vs with
  | nil => rfl
  | cons v vs ih =>
    cases neg
    · simp only [Bool.false_eq_true, if_false] at ih ⊢
      by_cases h : 0 < fl v
      · have habs : (0 : Rat) < |fl v| := abs_pos.2 h.ne'
        rw [List.filter_cons_of_pos (by simpa using h)]
        simp only [List.map_cons, List.count_cons]
        rw [ih]
        by_cases hb : ideal s |fl v| = i
        · rw [List.filter_cons_of_pos (by simpa using ⟨h, (inBucket_iff _ _ _ habs).2 hb⟩), if_pos (by simpa using hb)]; rfl
        · rw [List.filter_cons_of_neg (by simpa [h] using fun hi => hb ((inBucket_iff _ _ _ habs).1 hi)), if_neg (by simpa using hb)]; rfl
      · rw [List.filter_cons_of_neg (by simpa using h), List.filter_cons_of_neg (by simp; intro h'; exact absurd h' h)]
        exact ih
    · simp only [if_true] at ih ⊢
      by_cases h : fl v < 0
      · have habs : (0 : Rat) < |fl v| := abs_pos.2 h.ne
        rw [List.filter_cons_of_pos (by simpa using h)]
        simp only [List.map_cons, List.count_cons]
        rw [ih]
        by_cases hb : ideal s |fl v| = i
        · rw [List.filter_cons_of_pos (by simpa using ⟨h, (inBucket_iff _ _ _ habs).2 hb⟩), if_pos (by simpa using hb)]; rfl
        · rw [List.filter_cons_of_neg (by simpa [h] using fun hi => hb ((inBucket_iff _ _ _ habs).1 hi)), if_neg (by simpa using hb)]; rfl
      · rw [List.filter_cons_of_neg (by simpa using h), List.filter_cons_of_neg (by simp; intro h'; exact absurd h' h)]
        exact ih

theorem mags_total (fl : N → Rat) (vs : List N) :
    (vs.filter fun v => decide (fl v = 0)).length + (mags fl false vs).length + (mags fl true vs).length = vs.length := by
  unfold mags
  simp only [List.length_map]
  induction vs with
  | nil => rfl
  | cons v vs ih =>
    rcases lt_trichotomy (fl v) 0 with h | h | h
    · simp [h, h.ne, not_lt.2 h.le] at ih ⊢; omega
    · simp [h] at ih ⊢; omega
    · simp [h, h.ne', not_lt.2 h.le] at ih ⊢; omega

theorem tally_perm (fl : N → Rat) (side : Rat → Prop) (s i : Int) {a b : List N} (h : a.Perm b) : tallyOf fl side s i a = tallyOf fl side s i b := by
  unfold tallyOf; exact (h.filter _).length_eq

theorem inv_histogram (num : NumOps N) (maxSize m : Int) (p : Point N) (kept vs : List N) (hperm : kept.Perm vs)
    (h : Inv (fun v => ratOf (num.toF v)) maxSize m p kept) : IsHistogramOf num maxSize m vs p := by
  constructor
  · exact ⟨h.scaleGe, h.scaleLe⟩
  · exact h.posLen
  · exact h.negLen
  · rw [h.zero]; exact (hperm.filter _).length_eq
  · intro i
    rw [h.pos.count, count_eq_tally]
    exact tally_perm _ _ _ _ hperm
  · intro i
    rw [h.neg.count, count_eq_tally]
    exact tally_perm _ _ _ _ hperm
  · rw [rep_sum _ _ h.pos, rep_sum _ _ h.neg, h.zero, List.length_map, List.length_map, mags_total, hperm.length_eq]
  · refine h.needed.imp_right ?_
    rintro ⟨n, x, hx, y, hy, hxy⟩
    obtain ⟨v, hv, rfl⟩ := List.mem_map.1 hx
    obtain ⟨w, hw, rfl⟩ := List.mem_map.1 hy
    obtain ⟨hv1, hv2⟩ := List.mem_filter.1 hv
    obtain ⟨hw1, hw2⟩ := List.mem_filter.1 hw
    refine ⟨v, hperm.mem_iff.1 hv1, w, hperm.mem_iff.1 hw1, _, _, (inBucket_iff _ _ _ ?_).2 rfl, (inBucket_iff _ _ _ ?_).2 rfl, hxy, ?_⟩
    · cases n <;> simp at hv2 <;> exact abs_pos.2 (by first | exact hv2.ne' | exact hv2.ne)
    · cases n <;> simp at hw2 <;> exact abs_pos.2 (by first | exact hw2.ne' | exact hw2.ne)
    · cases n
      · simp at hv2 hw2; exact iff_of_true hv2 hw2
      · simp at hv2 hw2; exact iff_of_false (not_lt.2 hv2.le) (not_lt.2 hw2.le)

theorem run_inv (num : NumOps N) (fl : N → Rat) (ln : Ln) (chk : Bool) (maxSize m : Int)
    (hln : ExactLn ln) (hm : m ≤ 20) (hmax : 1 ≤ maxSize) (vs : List N) (hneg : ∀ v ∈ vs, (num.lt v num.zero = true ↔ fl v < 0))
    (hfit : AllFit fl m vs) (p : Point N) (kept : List N) (h : Inv fl maxSize m p kept) (hk : AllFit fl m kept) :
    ∃ p' kept', p.run num fl ln chk vs = some p' ∧ p'.count = p.count + vs.length ∧ Inv fl maxSize m p' (kept' ++ kept) ∧
      kept'.Sublist vs.reverse ∧ (3 ≤ maxSize → kept' = vs.reverse) := by
  induction vs generalizing p kept with
  | nil => exact ⟨p, [], rfl, rfl, h, List.Sublist.refl _, fun _ => rfl⟩
  | cons v vs ih =>
    obtain ⟨p1, h1, h2, -, h3⟩ := record_inv num fl ln chk maxSize m hln hm hmax p kept v (hneg v List.mem_cons_self) h hk (hfit v List.mem_cons_self)
    have hfit' : AllFit fl m vs := fun w hw => hfit w (List.mem_cons_of_mem _ hw)
    have hneg' : ∀ w ∈ vs, (num.lt w num.zero = true ↔ fl w < 0) := fun w hw => hneg w (List.mem_cons_of_mem _ hw)
    unfold Point.run
    rw [h1]
    dsimp only
    rw [List.reverse_cons]
    rcases h3 with h3 | ⟨hsz, h3⟩
    · have hk' : AllFit fl m (v :: kept) := by
        intro w hw
        rcases List.mem_cons.1 hw with rfl | hw
        · exact hfit w List.mem_cons_self
        · exact hk w hw
      obtain ⟨p', kept', r1, r2, r3, r4, r5⟩ := ih hneg' hfit' p1 (v :: kept) h3 hk'
      refine ⟨p', kept' ++ [v], r1, by rw [r2, h2, List.length_cons]; omega, ?_, r4.append (List.Sublist.refl _), fun h => by rw [r5 h]⟩
      rw [List.append_assoc]; exact r3
    · obtain ⟨p', kept', r1, r2, r3, r4, r5⟩ := ih hneg' hfit' p1 kept h3 hk
      exact ⟨p', kept', r1, by rw [r2, h2, List.length_cons]; omega, r3, r4.trans (List.sublist_append_left _ _), fun h => absurd h (by omega)⟩

theorem new_inv (num : NumOps N) (fl : N → Rat) (maxSize m : Int) (hm : -10 ≤ m) (hmax : 1 ≤ maxSize) :
    Inv fl maxSize m (Point.new num maxSize m) [] where
  size := rfl
  scaleLe := le_refl _
  scaleGe := hm
  pos := Rep.empty
  neg := Rep.empty
  posLen := by simp [Point.new, Buckets.empty]; omega
  negLen := by simp [Point.new, Buckets.empty]; omega
  zero := rfl
  needed := Or.inl rfl

theorem observe_inv (num : NumOps N) (ln : Ln) (hln : ExactLn ln) (chk : Bool) (maxSize maxScale : Int) (hsize : 1 ≤ maxSize)
    (hscale : -10 ≤ maxScale ∧ maxScale ≤ 20) (ms : List N) (hgood : ∀ v ∈ ms, GoodValue num v)
    (hspan : maxScale ≤ 19 ∨ ∀ v ∈ finiteOf num ms, ratOf (num.toF v) ≠ 0 → IsNormal |ratOf (num.toF v)|) :
    ∃ p kept, observe num ln chk maxSize maxScale ms = some p ∧ p.count = (finiteOf num ms).length ∧
      Inv (fun v => ratOf (num.toF v)) maxSize maxScale p kept ∧ kept.Sublist (finiteOf num ms).reverse ∧
      (3 ≤ maxSize → kept = (finiteOf num ms).reverse) := by
  have hmem : ∀ v ∈ finiteOf num ms, v ∈ ms ∧ (num.toF v).isFinite = true := fun v hv => List.mem_filter.1 hv
  have hfit : AllFit (fun v => ratOf (num.toF v)) maxScale (finiteOf num ms) := by
    intro v hv hne
    refine ⟨representable_range _ ?_ hne, hspan.imp_right fun h => h v hv hne⟩
    obtain ⟨h1, h2⟩ := hmem v hv
    have hwf := (hgood v h1).wf
    cases hx : num.toF v with
    | fin q =>
      rw [hx] at hwf
      show F64.Representable (ratOf (num.toF v))
      rw [hx]; exact hwf
    | nan => rw [hx] at h2; cases h2
    | posInf => rw [hx] at h2; cases h2
    | negInf => rw [hx] at h2; cases h2
  obtain ⟨p, kept, h1, h2, h3, h4, h5⟩ := run_inv num (fun v => ratOf (num.toF v)) ln chk maxSize maxScale hln hscale.2 hsize (finiteOf num ms)
    (fun v hv => (hgood v (hmem v hv).1).sign (hmem v hv).2) hfit _ [] (new_inv num _ maxSize maxScale hscale.1 hsize) (fun v hv => by cases hv)
  rw [List.append_nil] at h3
  exact ⟨p, kept, h1, by rw [h2]; simp [Point.new], h3, h4, h5⟩

/-- **C41.** With room for three buckets or more, any measurements whatever give the exponential histogram of the finite ones, with and
without overflow checks. Measurements are doubles; if the histogram starts at scale 20 they are not subnormal (see `span_overflow_violated`).
The logarithm of `get_bin` is assumed exact. -/
theorem expo_histogram_exact (num : NumOps N) (ln : Ln) (hln : ExactLn ln) (chk : Bool) (maxSize maxScale : Int) (hsize : 3 ≤ maxSize)
    (hscale : -10 ≤ maxScale ∧ maxScale ≤ 20) (ms : List N) (hgood : ∀ v ∈ ms, GoodValue num v)
    (hspan : maxScale ≤ 19 ∨ ∀ v ∈ finiteOf num ms, ratOf (num.toF v) ≠ 0 → IsNormal |ratOf (num.toF v)|) :
    ∃ p, observe num ln chk maxSize maxScale ms = some p ∧ p.count = (finiteOf num ms).length ∧
      IsHistogramOf num maxSize maxScale (finiteOf num ms) p := by
  obtain ⟨p, kept, h1, h2, h3, -, h5⟩ := observe_inv num ln hln chk maxSize maxScale (by omega) hscale ms hgood hspan
  refine ⟨p, h1, h2, inv_histogram num maxSize maxScale p kept _ ?_ h3⟩
  rw [h5 hsize]; exact List.reverse_perm _

/-- **C41, one or two buckets.** The data point is the exponential histogram of some of the finite measurements, while `count` counts
them all. Missing from the property: every measurement is in a bucket (`max_size_one_violated`, `max_size_two_violated`). -/
theorem expo_histogram_small_partial (num : NumOps N) (ln : Ln) (hln : ExactLn ln) (chk : Bool) (maxSize maxScale : Int) (hsize : 1 ≤ maxSize)
    (hscale : -10 ≤ maxScale ∧ maxScale ≤ 20) (ms : List N) (hgood : ∀ v ∈ ms, GoodValue num v)
    (hspan : maxScale ≤ 19 ∨ ∀ v ∈ finiteOf num ms, ratOf (num.toF v) ≠ 0 → IsNormal |ratOf (num.toF v)|) :
    ∃ p kept, observe num ln chk maxSize maxScale ms = some p ∧ kept.Sublist (finiteOf num ms) ∧
      p.count = (finiteOf num ms).length ∧ IsHistogramOf num maxSize maxScale kept p := by
  obtain ⟨p, kept, h1, h2, h3, h4, -⟩ := observe_inv num ln hln chk maxSize maxScale hsize hscale ms hgood hspan
  refine ⟨p, kept.reverse, h1, ?_, h2, inv_histogram num maxSize maxScale p kept _ (List.reverse_perm _).symm h3⟩
  have := h4.reverse
  rwa [List.reverse_reverse] at this

/-! ## Without any assumption on the logarithm -/

theorem record_frame (num : NumOps N) (fl : N → Rat) (ln : Ln) (chk : Bool) (p p' : Point N) (v : N) (h : p.record num fl ln chk v = some p') :
    p'.count = p.count + 1 ∧ p'.sum = num.add p.sum v ∧ p'.min = (if num.lt v p.min then v else p.min) ∧
    p'.max = (if num.lt p.max v then v else p.max) ∧ p'.scale ≤ p.scale ∧ (-10 ≤ p.scale → -10 ≤ p'.scale) ∧ p'.maxSize = p.maxSize := by
  unfold Point.record at h
  dsimp only at h
  split at h
  · injection h with h; subst h; exact ⟨rfl, rfl, rfl, rfl, le_refl _, id, rfl⟩
  · split at h
    · cases h
    · rename_i c _
      split at h
      · split at h
        · injection h with h; subst h; exact ⟨rfl, rfl, rfl, rfl, le_refl _, id, rfl⟩
        · rename_i hlow
          unfold Point.put at h
          split at h
          all_goals
            obtain ⟨b, hb, rfl⟩ := Option.map_eq_some_iff.1 h
            refine ⟨rfl, rfl, rfl, rfl, ?_, ?_, rfl⟩
            · show p.scale - c ≤ p.scale
              omega
            · intro _
              unfold minScaleLimit at hlow
              exact not_lt.1 hlow
      · unfold Point.put at h
        split at h
        all_goals
          obtain ⟨b, hb, rfl⟩ := Option.map_eq_some_iff.1 h
          exact ⟨rfl, rfl, rfl, rfl, le_refl _, id, rfl⟩

theorem run_frame (num : NumOps N) (fl : N → Rat) (ln : Ln) (chk : Bool) (vs : List N) (p p' : Point N) (h : p.run num fl ln chk vs = some p') :
    p'.count = p.count + vs.length ∧ p'.sum = vs.foldl num.add p.sum ∧
    p'.min = vs.foldl (fun m v => if num.lt v m then v else m) p.min ∧ p'.max = vs.foldl (fun m v => if num.lt m v then v else m) p.max ∧
    p'.scale ≤ p.scale ∧ (-10 ≤ p.scale → -10 ≤ p'.scale) := by
  induction vs generalizing p with
  | nil => injection h with h; subst h; exact ⟨rfl, rfl, rfl, rfl, le_refl _, id⟩
  | cons v vs ih =>
    unfold Point.run at h
    split at h
    · rename_i p1 h1
      obtain ⟨a1, a2, a3, a4, a5, a6, -⟩ := record_frame num fl ln chk p p1 v h1
      obtain ⟨b1, b2, b3, b4, b5, b6⟩ := ih p1 h
      refine ⟨by rw [b1, a1, List.length_cons]; omega, by rw [b2, a2]; rfl, by rw [b3, a3]; rfl, by rw [b4, a4]; rfl, by omega, fun h => b6 (a6 h)⟩
    · cases h

theorem run_append (num : NumOps N) (fl : N → Rat) (ln : Ln) (chk : Bool) (a b : List N) (p : Point N) :
    p.run num fl ln chk (a ++ b) = (p.run num fl ln chk a).bind fun q => q.run num fl ln chk b := by
  induction a generalizing p with
  | nil => rfl
  | cons v a ih =>
    rw [List.cons_append]
    simp only [Point.run]
    cases p.record num fl ln chk v with
    | none => rfl
    | some p1 => exact ih p1

/-- **C41.** Whatever the logarithm returns: if nothing panicked, the count is the number of finite measurements, the sum, minimum and
maximum are over all of them in order, and the scale is in range. -/
theorem expo_summary (num : NumOps N) (ln : Ln) (chk : Bool) (maxSize maxScale : Int) (hscale : -10 ≤ maxScale) (ms : List N) (p : Point N)
    (h : observe num ln chk maxSize maxScale ms = some p) :
    p.count = (finiteOf num ms).length ∧ p.sum = (finiteOf num ms).foldl num.add num.zero ∧
    p.min = (finiteOf num ms).foldl (fun m v => if num.lt v m then v else m) num.top ∧
    p.max = (finiteOf num ms).foldl (fun m v => if num.lt m v then v else m) num.bot ∧
    -10 ≤ p.scale ∧ p.scale ≤ maxScale := by
  obtain ⟨h1, h2, h3, h4, h5, h6⟩ := run_frame num _ ln chk _ _ _ h
  exact ⟨by rw [h1]; simp [Point.new]; rfl, h2, h3, h4, h6 hscale, h5⟩

/-- **C41.** More measurements never raise the scale. -/
theorem expo_scale_antitone (num : NumOps N) (ln : Ln) (chk : Bool) (maxSize maxScale : Int) (ms more : List N) (p p' : Point N)
    (h : observe num ln chk maxSize maxScale ms = some p) (h' : observe num ln chk maxSize maxScale (ms ++ more) = some p') :
    p'.scale ≤ p.scale := by
  unfold observe at h h'
  rw [List.filter_append, run_append, h] at h'
  exact (run_frame num _ ln chk _ _ _ h').2.2.2.2.1

/-! ## The hypotheses are met -/

/-- There is an exact logarithm. -/
theorem exactLn_ideal : ExactLn ideal := fun s q _ _ hq => (inBucket_iff s _ q hq).2 rfl

theorem f64_good (r : F64.Rounding) (v : F64) (h : v.WF) : GoodValue (f64Ops r) v where
  wf := h
  sign hf := by
    cases v with
    | fin q => simp [f64Ops, F64.lt, F64.ge, ratOf]
    | nan => cases hf
    | posInf => cases hf
    | negInf => cases hf

theorem representable_two_zpow (e : Int) (h1 : -1074 ≤ e) (h2 : e ≤ 971) : F64.Representable ((2 : Rat) ^ e) :=
  ⟨1, e, by norm_num, h1, h2, by simp⟩

theorem representable_zero : F64.Representable 0 := ⟨0, 0, by norm_num, by norm_num, by norm_num, by simp⟩

/-- The default configuration (size 160, scale 20) on 1, -4, 0, NaN and infinity. -/
example (r : F64.Rounding) : ∃ p, observe (f64Ops r) ideal false 160 20 [.fin 1, .fin (-4), .fin 0, .nan, .posInf] = some p ∧ p.count = 3 ∧
    IsHistogramOf (f64Ops r) 160 20 [.fin 1, .fin (-4), .fin 0] p := by
  have hgood : ∀ v ∈ [F64.fin 1, .fin (-4), .fin 0, .nan, .posInf], GoodValue (f64Ops r) v := by
    intro v hv
    apply f64_good
    simp only [List.mem_cons, List.not_mem_nil, or_false] at hv
    rcases hv with rfl | rfl | rfl | rfl | rfl
    · exact representable_two_zpow 0 (by norm_num) (by norm_num)
    · exact ⟨-1, 2, by norm_num, by norm_num, by norm_num, by norm_num⟩
    · exact representable_zero
    · trivial
    · trivial
  obtain ⟨p, h1, h2, h3⟩ := expo_histogram_exact (f64Ops r) ideal exactLn_ideal false 160 20 (by norm_num) (by norm_num) _ hgood (by
    right
    intro v hv hne
    have hv' : v ∈ [F64.fin 1, F64.fin (-4), F64.fin 0] := hv
    unfold IsNormal
    have hle : (2 : Rat) ^ (-1022 : Int) ≤ 2 ^ (0 : Int) := zpow_le_zpow_right₀ (by norm_num) (by norm_num)
    rw [zpow_zero] at hle
    simp only [List.mem_cons, List.not_mem_nil, or_false] at hv'
    rcases hv' with rfl | rfl | rfl
    · refine hle.trans ?_
      show (1 : Rat) ≤ |1|
      norm_num
    · refine hle.trans ?_
      show (1 : Rat) ≤ |-4|
      norm_num
    · exact absurd rfl hne)
  exact ⟨p, h1, h2, h3⟩

/-! ## Where the property fails -/

theorem getBin_two_zpow (ln : Ln) (s e : Int) (hs : s ≤ 0) : getBin ln s ((2 : Rat) ^ e) = (e - 1) >>> (-s).toNat := by
  have hx : frexpExp ((2 : Rat) ^ e) = e + 1 := by
    unfold frexpExp
    have := Int.log_zpow (R := Rat) (b := 2) (by norm_num) e
    push_cast at this
    rw [this]
  have hf : frexpFrac ((2 : Rat) ^ e) = 1 / 2 := by
    unfold frexpFrac
    rw [hx, ← zpow_sub₀ (by norm_num), show e - (e + 1) = -1 by ring]; norm_num
  unfold getBin
  rw [if_pos hs]
  dsimp only
  rw [if_pos hf, hx, show e + 1 - 2 = e - 1 by ring]

/-- Recording a power of two in a fresh point. -/
theorem observe_first (r : F64.Rounding) (ln : Ln) (chk : Bool) (maxSize maxScale e : Int) (rest : List F64) :
    observe (f64Ops r) ln chk maxSize maxScale (.fin ((2 : Rat) ^ e) :: rest) =
      Point.run (f64Ops r) (fun v => ratOf v) ln chk
        { (Point.new (f64Ops r) maxSize maxScale).tally (f64Ops r) (.fin ((2 : Rat) ^ e)) with pos := ⟨getBin ln maxScale ((2 : Rat) ^ e), [1]⟩ }
        (rest.filter (accepted (f64Ops r))) := by
  have hp : (0 : Rat) < 2 ^ e := by positivity
  unfold observe
  rw [List.filter_cons_of_pos (by rfl)]
  simp only [Point.run]
  have : (Point.new (f64Ops r) maxSize maxScale).record (f64Ops r) (fun v => ratOf ((f64Ops r).toF v)) ln chk (.fin ((2 : Rat) ^ e)) =
      some { (Point.new (f64Ops r) maxSize maxScale).tally (f64Ops r) (.fin ((2 : Rat) ^ e)) with
        pos := ⟨getBin ln maxScale ((2 : Rat) ^ e), [1]⟩ } := by
    unfold Point.record
    have hlt : (f64Ops r).lt (.fin ((2 : Rat) ^ e)) (f64Ops r).zero = false := by
      simp [f64Ops, F64.lt, F64.ge, hp.le]
    have habs : |ratOf ((f64Ops r).toF (.fin ((2 : Rat) ^ e)))| = (2 : Rat) ^ e := abs_of_pos hp
    simp only [habs, hlt]
    rw [if_neg hp.ne']
    rfl
  rw [this]
  rfl

/-- Recording a second power of two when `scale_change` asks for 31 steps: the value is dropped. -/
theorem observe_second_dropped (r : F64.Rounding) (ln : Ln) (chk : Bool) (maxSize maxScale e e' : Int) (hs : maxScale ≤ 20) (c : Nat)
    (hc : scaleChange chk maxSize (getBin ln maxScale ((2 : Rat) ^ e')) (getBin ln maxScale ((2 : Rat) ^ e)) 1 = some c)
    (hc0 : 0 < c) (hlow : maxScale - c < -10) :
    ∃ p, observe (f64Ops r) ln chk maxSize maxScale [.fin ((2 : Rat) ^ e), .fin ((2 : Rat) ^ e')] = some p ∧ p.count = 2 ∧
      p.pos.counts = [1] ∧ p.neg.counts = [] ∧ p.zeroCount = 0 := by
  have hp : (0 : Rat) < 2 ^ e' := by positivity
  rw [observe_first, List.filter_cons_of_pos (by rfl), List.filter_nil]
  refine ⟨Point.tally (f64Ops r) { (Point.new (f64Ops r) maxSize maxScale).tally (f64Ops r) (.fin ((2 : Rat) ^ e)) with
    pos := ⟨getBin ln maxScale ((2 : Rat) ^ e), [1]⟩ } (.fin ((2 : Rat) ^ e')), ?_, rfl, rfl, rfl, rfl⟩
  simp only [Point.run]
  have hrec : ∀ p : Point F64, p.pos = ⟨getBin ln maxScale ((2 : Rat) ^ e), [1]⟩ → p.scale = maxScale → p.maxSize = maxSize →
      p.record (f64Ops r) (fun v => ratOf v) ln chk (.fin ((2 : Rat) ^ e')) = some (p.tally (f64Ops r) (.fin ((2 : Rat) ^ e'))) := by
    intro p e1 e2 e3
    unfold Point.record
    have hlt : (f64Ops r).lt (.fin ((2 : Rat) ^ e')) (f64Ops r).zero = false := by
      simp [f64Ops, F64.lt, F64.ge, hp.le]
    have habs : |ratOf (.fin ((2 : Rat) ^ e'))| = (2 : Rat) ^ e' := abs_of_pos hp
    have t1 : (p.tally (f64Ops r) (.fin ((2 : Rat) ^ e'))).pos = p.pos := rfl
    have t2 : (p.tally (f64Ops r) (.fin ((2 : Rat) ^ e'))).scale = p.scale := rfl
    have t3 : (p.tally (f64Ops r) (.fin ((2 : Rat) ^ e'))).maxSize = p.maxSize := rfl
    generalize p.tally (f64Ops r) (.fin ((2 : Rat) ^ e')) = p1 at *
    have hc' : scaleChange chk maxSize (getBin ln maxScale ((2 : Rat) ^ e')) (getBin ln maxScale ((2 : Rat) ^ e)) [1].length = some c := hc
    simp only [habs, hlt]
    rw [if_neg hp.ne']
    simp only [Bool.false_eq_true, if_false]
    rw [t1, t2, t3, e1, e2, e3]
    dsimp only
    rw [hc']
    dsimp only
    rw [if_pos hc0, if_pos (show maxScale - c < minScaleLimit from hlow)]
  rw [hrec _ rfl rfl rfl]

/-- **C41 violated for one bucket.** With `max_size` 1 the values 1 and 2 give a count of 2 with a single value in the buckets. -/
theorem max_size_one_violated (r : F64.Rounding) (ln : Ln) (chk : Bool) :
    ∃ p, observe (f64Ops r) ln chk 1 0 [.fin ((2 : Rat) ^ (0 : Int)), .fin ((2 : Rat) ^ (1 : Int))] = some p ∧ p.count = 2 ∧
      p.zeroCount + p.pos.counts.sum + p.neg.counts.sum = 1 := by
  obtain ⟨p, h1, h2, h3, h4, h5⟩ := observe_second_dropped r ln chk 1 0 0 1 (by norm_num) 31
    (by rw [getBin_two_zpow _ _ _ (le_refl _), getBin_two_zpow _ _ _ (le_refl _)]; cases chk <;> rfl) (by norm_num) (by norm_num)
  exact ⟨p, h1, h2, by rw [h3, h4, h5]; rfl⟩

/-- **C41 violated for two buckets**, although the comment in the source says that this needs `max_size` 1: the smallest subnormal and 2. -/
theorem max_size_two_violated (r : F64.Rounding) (ln : Ln) (chk : Bool) :
    ∃ p, observe (f64Ops r) ln chk 2 0 [.fin ((2 : Rat) ^ (-1074 : Int)), .fin ((2 : Rat) ^ (1 : Int))] = some p ∧ p.count = 2 ∧
      p.zeroCount + p.pos.counts.sum + p.neg.counts.sum = 1 := by
  obtain ⟨p, h1, h2, h3, h4, h5⟩ := observe_second_dropped r ln chk 2 0 (-1074) 1 (by norm_num) 11
    (by rw [getBin_two_zpow _ _ _ (le_refl _), getBin_two_zpow _ _ _ (le_refl _)]; cases chk <;> rfl) (by norm_num) (by norm_num)
  exact ⟨p, h1, h2, by rw [h3, h4, h5]; rfl⟩

/-- **C41 violated without room.** `max_size` 0 is accepted: the first value makes one bucket, an equal second one is dropped. -/
theorem max_size_zero_violated (r : F64.Rounding) (ln : Ln) (chk : Bool) (maxScale e : Int) (hs : maxScale ≤ 20) :
    ∃ p, observe (f64Ops r) ln chk 0 maxScale [.fin ((2 : Rat) ^ e), .fin ((2 : Rat) ^ e)] = some p ∧ p.count = 2 ∧
      (0 : Int) < p.pos.counts.length ∧ p.zeroCount + p.pos.counts.sum + p.neg.counts.sum = 1 := by
  have hloop : ∀ fuel count low, fuel + count = 31 → scaleLoop chk 0 fuel low low count = some 31 := by
    intro fuel
    induction fuel with
    | zero => intro count low h; unfold scaleLoop; congr 1; omega
    | succ fuel ih =>
      intro count low h
      unfold scaleLoop
      rw [sub32_ok (by omega) (by omega)]
      dsimp only
      rw [if_pos (by omega)]
      split
      · rename_i hc; unfold maxScaleLimit minScaleLimit at hc; congr 1; omega
      · exact ih _ _ (by omega)
  obtain ⟨p, h1, h2, h3, h4, h5⟩ := observe_second_dropped r ln chk 0 maxScale e e hs 31
    (by
      unfold scaleChange
      rw [if_neg (by norm_num), if_pos (le_refl _)]
      push_cast
      rw [add_sub_cancel_right]
      exact hloop 31 0 _ rfl) (by norm_num) (by omega)
  exact ⟨p, h1, h2, by rw [h3]; simp, by rw [h3, h4, h5]; rfl⟩

theorem ideal_two_zpow (s : Nat) (e : Int) : ideal s ((2 : Rat) ^ e) = e * 2 ^ s - 1 := by
  unfold ideal
  rw [cast_zpow_two, ← Real.rpow_intCast, Real.logb_rpow (by norm_num) (by norm_num), zpow_natCast]
  have : (e : ℝ) * 2 ^ s = ((e * 2 ^ s : Int) : ℝ) := by push_cast; ring
  rw [this, Int.ceil_intCast]

/-- **C41 violated by wide spans.** At scale 20 and any size below `2^31`, the smallest subnormal and `2^1023` panic: with overflow checks in
`scale_change`, without them in `ExpoBuckets::record`, which asks for more memory than a vector can have. -/
theorem span_overflow_violated (r : F64.Rounding) (ln : Ln) (hln : ExactLn ln) (chk : Bool) (maxSize : Int) (hsize : 1 ≤ maxSize) :
    observe (f64Ops r) ln chk maxSize 20 [.fin ((2 : Rat) ^ (-1074 : Int)), .fin ((2 : Rat) ^ (1023 : Int))] = none := by
  have hp : (0 : Rat) < 2 ^ (1023 : Int) := by positivity
  have hb : ∀ e : Int, getBin ln 20 ((2 : Rat) ^ e) = e * 2 ^ 20 - 1 := by
    intro e
    rw [getBin_eq ln hln 20 (le_refl _) _ (by positivity)]
    exact ideal_two_zpow 20 e
  rw [observe_first, List.filter_cons_of_pos (by rfl), List.filter_nil]
  simp only [Point.run]
  have hrec : ∀ p : Point F64, p.pos = ⟨getBin ln 20 ((2 : Rat) ^ (-1074 : Int)), [1]⟩ → p.scale = 20 → p.maxSize = maxSize →
      p.record (f64Ops r) (fun v => ratOf v) ln chk (.fin ((2 : Rat) ^ (1023 : Int))) = none := by
    intro p e1 e2 e3
    unfold Point.record
    have hlt : (f64Ops r).lt (.fin ((2 : Rat) ^ (1023 : Int))) (f64Ops r).zero = false := by
      simp [f64Ops, F64.lt, F64.ge, hp.le]
    have habs : |ratOf (.fin ((2 : Rat) ^ (1023 : Int)))| = (2 : Rat) ^ (1023 : Int) := abs_of_pos hp
    have t1 : (p.tally (f64Ops r) (.fin ((2 : Rat) ^ (1023 : Int)))).pos = p.pos := rfl
    have t2 : (p.tally (f64Ops r) (.fin ((2 : Rat) ^ (1023 : Int)))).scale = p.scale := rfl
    have t3 : (p.tally (f64Ops r) (.fin ((2 : Rat) ^ (1023 : Int)))).maxSize = p.maxSize := rfl
    generalize p.tally (f64Ops r) (.fin ((2 : Rat) ^ (1023 : Int))) = p1 at *
    simp only [habs, hlt]
    rw [if_neg hp.ne']
    simp only [Bool.false_eq_true, if_false]
    rw [t1, t2, t3, e1, e2, e3]
    simp only [hb]
    cases chk
    · have hsc : scaleChange false maxSize (1023 * 2 ^ 20 - 1) (-1074 * 2 ^ 20 - 1) [1].length = some 0 := by
        unfold scaleChange
        rw [if_neg (by simp), if_neg (by norm_num)]
        unfold scaleLoop
        have : sub32 false (1023 * 2 ^ 20 - 1) (-1074 * 2 ^ 20 - 1) = some (-2096103424) := by decide
        rw [this]
        dsimp only
        rw [if_neg (by omega)]
      rw [hsc]
      dsimp only
      rw [if_neg (by omega)]
      unfold Point.put
      rw [if_neg (by simp), t1, e1, hb]
      have : Buckets.record false ⟨-1074 * 2 ^ 20 - 1, [1]⟩ (1023 * 2 ^ 20 - 1) = none := by rfl
      rw [this]; rfl
    · have hsc : scaleChange true maxSize (1023 * 2 ^ 20 - 1) (-1074 * 2 ^ 20 - 1) [1].length = none := by
        unfold scaleChange
        rw [if_neg (by simp), if_neg (by norm_num)]
        unfold scaleLoop
        have : sub32 true (1023 * 2 ^ 20 - 1) (-1074 * 2 ^ 20 - 1) = none := by decide
        rw [this]
      rw [hsc]
  rw [hrec _ rfl rfl rfl]

end Otel.Metrics.Expo
