import Mathlib.Analysis.SpecialFunctions.Log.Base
import Mathlib.Tactic.Positivity
import Mathlib.Tactic.NormNum
import Mathlib.Tactic.Linarith
import Mathlib.Tactic.FieldSimp
import Mathlib.Tactic.Ring
import Verif.Metrics.ExpoSpec
/-! Lemmas about the bucket indices of exponential histograms. -/

namespace Otel.Metrics.Expo

/-- The index of the bucket of `q` at scale `s`. -/
noncomputable def ideal (s : Int) (q : Rat) : Int := ⌈Real.logb 2 (q : ℝ) * (2 : ℝ) ^ s⌉ - 1

theorem ceil_sub_one_eq_iff (x : ℝ) (i : Int) : ⌈x⌉ - 1 = i ↔ (i : ℝ) < x ∧ x ≤ i + 1 := by
  rw [sub_eq_iff_eq_add, Int.ceil_eq_iff]
  push_cast
  constructor
  · rintro ⟨h1, h2⟩; exact ⟨by linarith, h2⟩
  · rintro ⟨h1, h2⟩; exact ⟨by linarith, h2⟩

theorem inBucket_iff (s i : Int) (q : Rat) (hq : 0 < q) : InBucket s i q ↔ ideal s q = i := by
  have hq' : (0 : ℝ) < (q : ℝ) := by exact_mod_cast hq
  have h2 : (0 : ℝ) < (2 : ℝ) ^ s := by positivity
  unfold InBucket ideal
  rw [ceil_sub_one_eq_iff, ← Real.lt_logb_iff_rpow_lt (by norm_num) hq', ← Real.logb_le_iff_le_rpow (by norm_num) hq',
    zpow_neg, ← div_eq_mul_inv, ← div_eq_mul_inv, div_lt_iff₀ h2, le_div_iff₀ h2]

theorem shiftRight_eq (a : Int) (d : Nat) : a >>> d = a / 2 ^ d := Int.shiftRight_eq_div_pow a d

theorem ideal_sub (s : Int) (d : Nat) (q : Rat) : ideal (s - d) q = ideal s q >>> d := by
  have hd : (0 : ℝ) < (2 : ℝ) ^ d := by positivity
  have hdz : (0 : Int) < 2 ^ d := by positivity
  rw [shiftRight_eq]
  generalize hc : ideal s q = c
  unfold ideal at hc ⊢
  rw [ceil_sub_one_eq_iff] at hc ⊢
  rw [zpow_sub₀ (by norm_num), zpow_natCast, ← mul_div_assoc, lt_div_iff₀ hd, div_le_iff₀ hd]
  have h1 : c / 2 ^ d * 2 ^ d ≤ c := Int.ediv_mul_le c (by omega)
  have h2 : c + 1 ≤ (c / 2 ^ d + 1) * 2 ^ d := by
    have := Int.lt_ediv_add_one_mul_self c hdz
    omega
  have h1' : ((c / 2 ^ d : Int) : ℝ) * 2 ^ d ≤ c := by exact_mod_cast h1
  have h2' : (c : ℝ) + 1 ≤ ((c / 2 ^ d : Int) + 1 : ℝ) * 2 ^ d := by exact_mod_cast h2
  constructor
  · linarith [hc.1]
  · linarith [hc.2]

theorem cast_zpow_two (e : Int) : (((2 : Rat) ^ e : Rat) : ℝ) = (2 : ℝ) ^ e := by
  rw [Rat.cast_zpow]; norm_num

theorem cast_two_le {e : Int} {q : Rat} (h : (2 : Rat) ^ e ≤ q) : (2 : ℝ) ^ e ≤ (q : ℝ) := by
  rw [← cast_zpow_two]; exact Rat.cast_le.2 h

theorem cast_lt_two {e : Int} {q : Rat} (h : q < (2 : Rat) ^ e) : (q : ℝ) < (2 : ℝ) ^ e := by
  rw [← cast_zpow_two]; exact Rat.cast_lt.2 h

theorem frexp_spec (q : Rat) (hq : 0 < q) : (2 : Rat) ^ (frexpExp q - 1) ≤ q ∧ q < 2 ^ frexpExp q := by
  unfold frexpExp
  have h1 := Int.zpow_log_le_self (R := Rat) (b := 2) (by norm_num) hq
  have h2 := Int.lt_zpow_succ_log_self (R := Rat) (b := 2) (by norm_num) q
  push_cast at h1 h2
  rw [add_sub_cancel_right]
  exact ⟨h1, h2⟩

theorem frexpFrac_half (q : Rat) (hq : 0 < q) : frexpFrac q = 1 / 2 ↔ q = 2 ^ (frexpExp q - 1) := by
  unfold frexpFrac
  have h2 : (0 : Rat) < 2 ^ frexpExp q := by positivity
  rw [div_eq_iff h2.ne', zpow_sub_one₀ (by norm_num)]
  rw [mul_comm, one_div]

theorem ideal_zero (q : Rat) (hq : 0 < q) :
    ideal 0 q = frexpExp q - (if frexpFrac q = 1 / 2 then 2 else 1) := by
  rw [← inBucket_iff _ _ _ hq]
  obtain ⟨h1, h2⟩ := frexp_spec q hq
  have h1' : ((2 : ℝ)) ^ (frexpExp q - 1) ≤ (q : ℝ) := cast_two_le h1
  have h2' : (q : ℝ) < ((2 : ℝ)) ^ frexpExp q := cast_lt_two h2
  unfold InBucket
  simp only [neg_zero, zpow_zero, mul_one]
  split
  · rename_i hf
    rw [frexpFrac_half q hq] at hf
    have hf' : (q : ℝ) = (2 : ℝ) ^ (frexpExp q - 1) := by
      rw [← cast_zpow_two]; exact congrArg _ hf
    constructor
    · rw [Real.rpow_intCast, hf']
      exact zpow_lt_zpow_right₀ (by norm_num) (by omega)
    · have : ((frexpExp q - 2 : Int) : ℝ) + 1 = ((frexpExp q - 1 : Int) : ℝ) := by push_cast; ring
      rw [this, Real.rpow_intCast, hf']
  · rename_i hf
    rw [frexpFrac_half q hq] at hf
    have hne : (q : ℝ) ≠ (2 : ℝ) ^ (frexpExp q - 1) := by
      intro he; apply hf; rw [← cast_zpow_two] at he; exact Rat.cast_injective he
    constructor
    · rw [Real.rpow_intCast]; exact lt_of_le_of_ne h1' (Ne.symm hne)
    · have : ((frexpExp q - 1 : Int) : ℝ) + 1 = ((frexpExp q : Int) : ℝ) := by push_cast; ring
      rw [this, Real.rpow_intCast]; exact h2'.le

theorem getBin_eq (ln : Ln) (hln : ExactLn ln) (s : Int) (hs : s ≤ 20) (q : Rat) (hq : 0 < q) : getBin ln s q = ideal s q := by
  unfold getBin
  split
  · rename_i h
    have := ideal_sub 0 (-s).toNat q
    rw [ideal_zero q hq] at this
    rw [show (0 : Int) - ((-s).toNat : Int) = s by omega] at this
    exact this.symm
  · rename_i h
    exact ((inBucket_iff _ _ _ hq).1 (hln s q (by omega) hs hq)).symm

/-- Every bucket index of a double at a scale up to 20 comes from its index at scale 20. -/
theorem ideal_of_20 (s : Int) (hs : s ≤ 20) (q : Rat) : ideal s q = ideal 20 q >>> (20 - s).toNat := by
  rw [← ideal_sub]; congr 1; omega

theorem ideal20_range (e : Int) (q : Rat) (h1 : (2 : Rat) ^ e ≤ q) (h2 : q < 2 ^ (1024 : Int)) :
    e * 2 ^ 20 - 1 ≤ ideal 20 q ∧ ideal 20 q ≤ 1024 * 2 ^ 20 - 1 := by
  have hq : (0 : Rat) < q := lt_of_lt_of_le (by positivity) h1
  have hq' : (0 : ℝ) < (q : ℝ) := by exact_mod_cast hq
  have h1' : (2 : ℝ) ^ e ≤ (q : ℝ) := cast_two_le h1
  have h2' : (q : ℝ) < (2 : ℝ) ^ (1024 : Int) := cast_lt_two h2
  have hl1 : (e : ℝ) ≤ Real.logb 2 q := by
    rw [Real.le_logb_iff_rpow_le (by norm_num) hq', Real.rpow_intCast]; exact h1'
  have hl2 : Real.logb 2 q ≤ ((1024 : Int) : ℝ) := by
    rw [Real.logb_le_iff_le_rpow (by norm_num) hq', Real.rpow_intCast]; exact h2'.le
  push_cast at hl2
  unfold ideal
  have h20 : (2 : ℝ) ^ (20 : Int) = 1048576 := by norm_num
  rw [h20]
  constructor
  · have : e * 2 ^ 20 ≤ ⌈Real.logb 2 q * 1048576⌉ := by
      have := Int.le_ceil (Real.logb 2 (q : ℝ) * 1048576)
      have h : ((e * 2 ^ 20 : Int) : ℝ) ≤ (⌈Real.logb 2 (q : ℝ) * 1048576⌉ : ℝ) := by
        push_cast
        nlinarith
      exact_mod_cast h
    omega
  · have : ⌈Real.logb 2 q * 1048576⌉ ≤ 1024 * 2 ^ 20 := by
      rw [Int.ceil_le]
      push_cast
      nlinarith
    omega

end Otel.Metrics.Expo
