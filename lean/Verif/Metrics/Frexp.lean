import Mathlib.Algebra.Order.Field.Rat
import Mathlib.Algebra.Order.Field.Power
import Mathlib.Tactic.Linarith
import Mathlib.Tactic.Positivity
import Mathlib.Tactic.NormNum
import Mathlib.Tactic.FieldSimp
import Mathlib.Tactic.Ring
import Verif.Metrics.ExpoLemmas
/-!
# `frexp` on the bits of a double (`exponential_histogram.rs:209-229`)

`ExpoHistogram.lean` uses the exponent and fraction of a rational. Here the bit manipulation of the source is modelled on the IEEE-754
binary64 encoding and shown to compute the same exponent and fraction, for every finite positive double, subnormals included.
-/

namespace Otel.Metrics.Expo

/-- The exponent field: `(y >> 52) & 0x7ff`. exponential_histogram.rs:211 -/
def expoField (y : BitVec 64) : Nat := ((y >>> 52) &&& 0x7ff#64).toNat

/-- The mantissa field. -/
def mantField (y : BitVec 64) : Nat := (y.extractLsb' 0 52).toNat

/-- The magnitude a finite binary64 encoding stands for (IEEE-754, table 3.5). -/
def magnitude (y : BitVec 64) : Rat :=
  if expoField y = 0 then (mantField y : Rat) * 2 ^ (-1074 : Int)
  else (2 ^ 52 + mantField y : Rat) * 2 ^ ((expoField y : Int) - 1075)

/-- Multiplication of a nonzero subnormal by `2^64`: `mulBits y` are the bits of the (exact) product. -/
structure ExactScale (mulBits : BitVec 64 → BitVec 64) : Prop where
  value : ∀ y, expoField y = 0 → mantField y ≠ 0 → magnitude (mulBits y) = magnitude y * 2 ^ (64 : Int)
  /-- the product is a normal, finite double -/
  normal : ∀ y, expoField y = 0 → mantField y ≠ 0 → expoField (mulBits y) ≠ 0 ∧ expoField (mulBits y) ≠ 0x7ff

/-- The last lines of `frexp`, for a normal double. exponential_histogram.rs:224-228 -/
def frexpNormal (y : BitVec 64) : BitVec 64 × Int :=
  ((y &&& 0x800fffffffffffff#64) ||| 0x3fe0000000000000#64, (expoField y : Int) - 0x3fe)

/-- `frexp`. The recursive call is on a normal double, so it is unfolded once. exponential_histogram.rs:209-229 -/
def frexpBits (mulBits : BitVec 64 → BitVec 64) (y : BitVec 64) : BitVec 64 × Int :=
  if expoField y = 0 then
    if mantField y ≠ 0 then
      let r := frexpNormal (mulBits y)
      (r.1, r.2 - 64)
    else (y, 0)
  else if expoField y = 0x7ff then (y, 0)
  else frexpNormal y

theorem expoField_lt (y : BitVec 64) : expoField y < 2048 := by
  unfold expoField
  rw [BitVec.toNat_and]
  exact Nat.lt_of_le_of_lt Nat.and_le_right (by decide)

theorem mantField_lt (y : BitVec 64) : mantField y < 2 ^ 52 := (y.extractLsb' 0 52).isLt

theorem mask_low : ∀ i < 52, (0x800fffffffffffff#64).getLsbD i = true ∧ (0x3fe0000000000000#64).getLsbD i = false := by decide

theorem mantField_masked (y : BitVec 64) : mantField (frexpNormal y).1 = mantField y := by
  unfold mantField frexpNormal
  congr 1
  ext i hi
  simp only [BitVec.getElem_extractLsb', BitVec.getLsbD_or, BitVec.getLsbD_and, Nat.zero_add]
  rw [(mask_low i hi).1, (mask_low i hi).2]; simp

theorem expoField_masked (y : BitVec 64) : expoField (frexpNormal y).1 = 0x3fe := by
  unfold expoField frexpNormal
  have : (((y &&& 0x800fffffffffffff#64) ||| 0x3fe0000000000000#64) >>> 52) &&& 0x7ff#64 = 0x3fe#64 := by
    ext i hi
    simp only [BitVec.getElem_and, BitVec.getElem_ushiftRight, BitVec.getLsbD_or, BitVec.getLsbD_and]
    have hc : ∀ i < 64, (((0x7ff#64).getLsbD i = false ∧ (0x3fe#64).getLsbD i = false) ∨
      ((0x7ff#64).getLsbD i = true ∧ (0x800fffffffffffff#64).getLsbD (52 + i) = false ∧ (0x3fe0000000000000#64).getLsbD (52 + i) = (0x3fe#64).getLsbD i)) := by
      decide
    rw [← BitVec.getLsbD_eq_getElem, ← BitVec.getLsbD_eq_getElem]
    rcases hc i hi with ⟨h1, h2⟩ | ⟨h1, h2, h3⟩
    · rw [h1, h2]; simp
    · rw [h1, h2, h3]; simp
  rw [this]; rfl

/-- The mask keeps the sign bit. -/
theorem sign_masked (y : BitVec 64) : (frexpNormal y).1.getLsbD 63 = y.getLsbD 63 := by
  unfold frexpNormal
  rw [BitVec.getLsbD_or, BitVec.getLsbD_and]
  simp

theorem frexpExp_unique (q f : Rat) (e : Int) (h : q = f * 2 ^ e) (h1 : 1 / 2 ≤ f) (h2 : f < 1) : frexpExp q = e ∧ frexpFrac q = f := by
  have hp : (0 : Rat) < 2 ^ e := by positivity
  have hq : 0 < q := by rw [h]; exact mul_pos (by linarith) hp
  have he : frexpExp q = e := by
    unfold frexpExp
    have hlow : (2 : Rat) ^ (e - 1) ≤ q := by
      rw [h, zpow_sub_one₀ (by norm_num), mul_comm]
      exact mul_le_mul_of_nonneg_right (by norm_num at h1 ⊢; exact h1) hp.le
    have hhigh : q < 2 ^ e := by
      rw [h]
      calc f * 2 ^ e < 1 * 2 ^ e := mul_lt_mul_of_pos_right h2 hp
        _ = _ := one_mul _
    have a : e - 1 ≤ Int.log 2 q := by
      have := (Int.zpow_le_iff_le_log (R := Rat) (b := 2) (by norm_num) (x := e - 1) hq).1 (by push_cast; exact hlow)
      exact this
    have b : Int.log 2 q < e := by
      have := (Int.lt_zpow_iff_log_lt (R := Rat) (b := 2) (by norm_num) (x := e) hq).1 (by push_cast; exact hhigh)
      exact this
    omega
  refine ⟨he, ?_⟩
  unfold frexpFrac
  rw [he, h, mul_div_assoc, div_self hp.ne', mul_one]

theorem frexpNormal_spec (y : BitVec 64) (h0 : expoField y ≠ 0) :
    magnitude y = magnitude (frexpNormal y).1 * 2 ^ (frexpNormal y).2 ∧ 1 / 2 ≤ magnitude (frexpNormal y).1 ∧ magnitude (frexpNormal y).1 < 1 := by
  have hm := mantField_lt y
  have hm' : (mantField y : Rat) < 2 ^ 52 := by exact_mod_cast hm
  have hm0 : (0 : Rat) ≤ mantField y := Nat.cast_nonneg _
  have hval : magnitude (frexpNormal y).1 = (2 ^ 52 + mantField y : Rat) * 2 ^ (-53 : Int) := by
    unfold magnitude
    rw [expoField_masked, mantField_masked, if_neg (by norm_num)]
    norm_num
  have h53 : (2 : Rat) ^ (-53 : Int) = 1 / 2 ^ 53 := by norm_num
  refine ⟨?_, ?_, ?_⟩
  · rw [hval]
    unfold magnitude
    rw [if_neg h0, mul_assoc, ← zpow_add₀ (by norm_num)]
    congr 2
    unfold frexpNormal
    dsimp only
    omega
  · rw [hval, h53, mul_one_div, le_div_iff₀ (by positivity)]
    have : (0 : Rat) ≤ mantField y := hm0
    norm_num
  · rw [hval, h53, mul_one_div, div_lt_iff₀ (by positivity)]
    have h : (2 : Rat) ^ 53 = 2 ^ 52 + 2 ^ 52 := by norm_num
    rw [h]; linarith

/-- For every positive finite double the code's bit manipulation gives the exponent and the fraction used by the model. -/
theorem frexpBits_correct (mulBits : BitVec 64 → BitVec 64) (hmul : ExactScale mulBits) (y : BitVec 64) (hpos : 0 < magnitude y)
    (hfin : expoField y ≠ 0x7ff) :
    (frexpBits mulBits y).2 = frexpExp (magnitude y) ∧ magnitude (frexpBits mulBits y).1 = frexpFrac (magnitude y) := by
  unfold frexpBits
  by_cases h0 : expoField y = 0
  · have hm : mantField y ≠ 0 := by
      intro hm
      unfold magnitude at hpos
      rw [if_pos h0, hm] at hpos
      simp at hpos
    rw [if_pos h0, if_pos hm]
    dsimp only
    obtain ⟨s1, s2, s3⟩ := frexpNormal_spec (mulBits y) (hmul.normal y h0 hm).1
    rw [hmul.value y h0 hm] at s1
    have : magnitude y = magnitude (frexpNormal (mulBits y)).1 * 2 ^ ((frexpNormal (mulBits y)).2 - 64) := by
      rw [zpow_sub₀ (by norm_num), ← mul_div_assoc, ← s1, mul_div_assoc, div_self (by positivity), mul_one]
    obtain ⟨r1, r2⟩ := frexpExp_unique _ _ _ this s2 s3
    exact ⟨r1.symm, r2.symm⟩
  · rw [if_neg h0, if_neg hfin]
    obtain ⟨s1, s2, s3⟩ := frexpNormal_spec y h0
    obtain ⟨r1, r2⟩ := frexpExp_unique _ _ _ s1 s2 s3
    exact ⟨r1.symm, r2.symm⟩

/-- The bits of `y * 2^64` for a nonzero subnormal `y`: the mantissa moves up to its leading bit. -/
def scaleBits (y : BitVec 64) : BitVec 64 :=
  let k := Nat.log2 (mantField y)
  BitVec.ofNat 64 ((13 + k) * 2 ^ 52 + (mantField y * 2 ^ (52 - k) - 2 ^ 52))

theorem fields_ofNat (e m : Nat) (he : e < 2048) (hm : m < 2 ^ 52) :
    expoField (BitVec.ofNat 64 (e * 2 ^ 52 + m)) = e ∧ mantField (BitVec.ofNat 64 (e * 2 ^ 52 + m)) = m := by
  have hlt : e * 2 ^ 52 + m < 2 ^ 64 := by omega
  constructor
  · unfold expoField
    rw [BitVec.toNat_and, BitVec.toNat_ushiftRight, BitVec.toNat_ofNat, Nat.mod_eq_of_lt hlt, Nat.shiftRight_eq_div_pow]
    rw [show (0x7ff#64).toNat = 2 ^ 11 - 1 from rfl, Nat.and_two_pow_sub_one_eq_mod]
    omega
  · unfold mantField
    rw [BitVec.extractLsb'_toNat, BitVec.toNat_ofNat, Nat.mod_eq_of_lt hlt, Nat.shiftRight_zero]
    omega

theorem scaleBits_exact : ExactScale scaleBits := by
  have key : ∀ y, mantField y ≠ 0 → expoField (scaleBits y) = 13 + Nat.log2 (mantField y) ∧
      mantField (scaleBits y) + 2 ^ 52 = mantField y * 2 ^ (52 - Nat.log2 (mantField y)) ∧ Nat.log2 (mantField y) < 52 := by
    intro y hm
    have hk : Nat.log2 (mantField y) < 52 := (Nat.log2_lt hm).2 (mantField_lt y)
    have h1 : 2 ^ Nat.log2 (mantField y) ≤ mantField y := Nat.log2_self_le hm
    have h2 : mantField y < 2 ^ (Nat.log2 (mantField y) + 1) := Nat.lt_log2_self
    have hp : 2 ^ Nat.log2 (mantField y) * 2 ^ (52 - Nat.log2 (mantField y)) = 2 ^ 52 := by rw [← pow_add]; congr 1; omega
    have h3 : 2 ^ 52 ≤ mantField y * 2 ^ (52 - Nat.log2 (mantField y)) := by
      rw [← hp]; exact Nat.mul_le_mul_right _ h1
    have h4 : mantField y * 2 ^ (52 - Nat.log2 (mantField y)) < 2 ^ 53 := by
      have : 2 ^ (Nat.log2 (mantField y) + 1) * 2 ^ (52 - Nat.log2 (mantField y)) = 2 ^ 53 := by rw [← pow_add]; congr 1; omega
      rw [← this]; exact Nat.mul_lt_mul_of_pos_right h2 (by positivity)
    obtain ⟨f1, f2⟩ := fields_ofNat (13 + Nat.log2 (mantField y)) (mantField y * 2 ^ (52 - Nat.log2 (mantField y)) - 2 ^ 52) (by omega) (by omega)
    unfold scaleBits
    dsimp only
    exact ⟨f1, by rw [f2]; omega, hk⟩
  constructor
  · intro y h0 hm
    obtain ⟨k1, k2, k3⟩ := key y hm
    unfold magnitude
    rw [if_pos h0, k1, if_neg (by omega)]
    have : (2 ^ 52 + mantField (scaleBits y) : Rat) = mantField y * 2 ^ (((52 - Nat.log2 (mantField y) : Nat) : Int)) := by
      rw [zpow_natCast, add_comm]; exact_mod_cast k2
    rw [this, mul_assoc, ← zpow_add₀ (by norm_num), mul_assoc, ← zpow_add₀ (by norm_num)]
    congr 2
    push_cast
    omega
  · intro y h0 hm
    obtain ⟨k1, k2, k3⟩ := key y hm
    rw [k1]; omega

/-- C41: zero, the infinities and NaN, which have no mantissa and exponent, come back as they are with exponent 0. -/
theorem frexpBits_special (mulBits : BitVec 64 → BitVec 64) (y : BitVec 64) (h : (expoField y = 0 ∧ mantField y = 0) ∨ expoField y = 0x7ff) :
    frexpBits mulBits y = (y, 0) := by
  unfold frexpBits
  rcases h with ⟨h1, h2⟩ | h
  · rw [if_pos h1, if_neg (by simp [h2])]
  · rw [if_neg (by rw [h]; decide), if_pos h]

example : frexpBits id 0x7ff0000000000000#64 = (0x7ff0000000000000#64, 0) := frexpBits_special _ _ (.inr (by decide))

/-- The smallest subnormal is `0.5 * 2^-1073`. -/
example : frexpBits scaleBits 1#64 = (0x3fe0000000000000#64, -1073) := by decide

/-- 1.0 is `0.5 * 2^1`. -/
example : frexpBits id 0x3ff0000000000000#64 = (0x3fe0000000000000#64, 1) := by decide

end Otel.Metrics.Expo
