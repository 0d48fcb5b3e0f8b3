import Mathlib.Algebra.Order.Field.Rat
import Mathlib.Data.Rat.Floor
import Mathlib.Algebra.Order.Field.Power
import Mathlib.Tactic.Linarith
import Mathlib.Tactic.Positivity
import Mathlib.Tactic.NormNum
/-!
# IEEE-754 doubles

A double is a NaN, an infinity or a rational number `m * 2^e` with a 53 bit `m`. The two zeroes are not distinguished here.
Arithmetic results are rounded by an unspecified function that is exact whenever the exact result is a double.
-/

namespace Rust

/-- `f64`. NaN payloads and the sign of zero are not modelled. -/
inductive F64 where
  | nan
  | negInf
  | posInf
  | fin (q : Rat)
deriving DecidableEq

namespace F64

/-- The finite doubles: at most 53 significant bits, exponent between -1074 and 971. -/
def Representable (q : Rat) : Prop :=
  ∃ m e : Int, |m| < 2 ^ 53 ∧ -1074 ≤ e ∧ e ≤ 971 ∧ q = (m : Rat) * (2 : Rat) ^ e

/-- A value that a Rust program can hold in an `f64`. -/
def WF : F64 → Prop
  | fin q => Representable q
  | _ => True

/-- A rounding of exact results: nothing is assumed but that it returns doubles and does not change doubles. -/
structure Rounding where
  rnd : Rat → F64
  wf : ∀ q, WF (rnd q)
  exact : ∀ q, Representable q → rnd q = fin q

/-- `a >= b`; comparisons with NaN are false. -/
def ge : F64 → F64 → Bool
  | nan, _ => false
  | _, nan => false
  | posInf, _ => true
  | _, negInf => true
  | negInf, _ => false
  | _, posInf => false
  | fin a, fin b => decide (b ≤ a)

/-- `f64::max` with the literal zero: a NaN gives the other operand. -/
def max0 : F64 → F64
  | nan => fin 0
  | negInf => fin 0
  | posInf => posInf
  | fin q => if q ≤ 0 then fin 0 else fin q

/-- Multiplication by a positive finite double. -/
def mulPos (r : Rounding) (k : Rat) : F64 → F64
  | nan => nan
  | negInf => negInf
  | posInf => posInf
  | fin q => r.rnd (q * k)

/-- `x as u64`: truncates towards zero and saturates; NaN gives 0. -/
def toU64 : F64 → Nat
  | nan => 0
  | negInf => 0
  | posInf => 2 ^ 64 - 1
  | fin q => min (2 ^ 64 - 1) ⌊q⌋.toNat

/-- Scaling a double of the unit interval by `2^63` is exact. -/
theorem representable_scale {q : Rat} (h : Representable q) (h0 : 0 ≤ q) (h1 : q < 1) :
    Representable (q * 2 ^ 63) := by
  obtain ⟨m, e, hm, he1, he2, rfl⟩ := h
  by_cases hz : m = 0
  · exact ⟨0, 0, by simp, by omega, by omega, by simp [hz]⟩
  · have hp : (0 : Rat) < (2 : Rat) ^ e := by positivity
    have hm0 : 0 ≤ m := by
      by_contra hneg
      have : (m : Rat) < 0 := by exact_mod_cast (by omega : m < 0)
      nlinarith
    have hm1 : (1 : Rat) ≤ m := by exact_mod_cast (by omega : 1 ≤ m)
    have hlt : (2 : Rat) ^ e < 1 := by nlinarith
    have he : e < 0 := by
      by_contra hge
      have : (1 : Rat) ≤ (2 : Rat) ^ e := one_le_zpow₀ (by norm_num) (by omega)
      linarith
    refine ⟨m, e + 63, hm, by omega, by omega, ?_⟩
    rw [mul_assoc, zpow_add₀ (by norm_num : (2 : Rat) ≠ 0)]
    norm_cast

/-- Halves of powers of two: small doubles used in examples. -/
theorem representable_half : Representable (1 / 2) := ⟨1, -1, by norm_num, by norm_num, by norm_num, by norm_num⟩

theorem representable_quarter : Representable (1 / 4) := ⟨1, -2, by norm_num, by norm_num, by norm_num, by norm_num⟩

theorem representable_zero : Representable 0 := ⟨0, 0, by norm_num, by norm_num, by norm_num, by norm_num⟩

theorem representable_one : Representable 1 := ⟨1, 0, by norm_num, by norm_num, by norm_num, by norm_num⟩

open Classical in
/-- There is such a rounding. -/
noncomputable def someRounding : Rounding where
  rnd q := if Representable q then fin q else nan
  wf q := by by_cases h : Representable q <;> simp [WF, h]
  exact q h := by simp [h]

end F64
end Rust
