import Verif.Rust.NumSpec
/-! # Printing integers in decimal, as in Rust's standard library (`{}` and `{:?}` of the integer types) -/

namespace Rust

/-- The decimal digit of `d < 10`. -/
def decDigit (d : Nat) : Char := Char.ofNat (48 + d)

/-- The digits of `n`, most significant first; `fuel > n` is enough. -/
def fmtNatF : Nat → Nat → Str
  | 0, _ => []
  | fuel + 1, n => if n < 10 then [decDigit n] else fmtNatF fuel (n / 10) ++ [decDigit (n % 10)]

/-- `format!("{}", n)` of an unsigned integer. -/
def fmtNat (n : Nat) : Str := fmtNatF (n + 1) n

/-- `format!("{}", n)` of a signed integer. -/
def fmtInt (n : Int) : Str := if n < 0 then '-' :: fmtNat n.natAbs else fmtNat n.natAbs

/-- `s` is the usual decimal text of `n`: digits that read `n`, a minus sign in front if it is negative, no leading zero. -/
def DecText (s : Str) (n : Int) : Prop :=
  ∃ ds : Str, ds ≠ [] ∧ Numeral IsDecDigit 10 ds n.natAbs ∧ s = (if n < 0 then '-' :: ds else ds) ∧ (ds.head? = some '0' → ds = ['0'])

theorem isDecDigit_decDigit {d : Nat} (h : d < 10) : IsDecDigit (decDigit d) d := by
  have : ∀ d ∈ List.range 10, "0123456789".toList[d]? = some (decDigit d) := by decide
  exact this d (List.mem_range.2 h)

theorem decDigit_zero {d : Nat} (h : d < 10) (h0 : decDigit d = '0') : d = 0 := by
  have : ∀ d ∈ List.range 10, decDigit d = '0' → d = 0 := by decide
  exact this d (List.mem_range.2 h) h0

theorem fmtNatF_spec (fuel n : Nat) (h : n < fuel) :
    fmtNatF fuel n ≠ [] ∧ Numeral IsDecDigit 10 (fmtNatF fuel n) n
      ∧ ((fmtNatF fuel n).head? = some '0' → n = 0 ∧ fmtNatF fuel n = ['0']) := by
  induction fuel generalizing n with
  | zero => omega
  | succ fuel ih =>
    unfold fmtNatF
    split
    · rename_i hn
      refine ⟨by simp, ?_, ?_⟩
      · have := (numeral_snoc (digit := IsDecDigit) (radix := 10) (n := n) (s := []) (c := decDigit n)).2
          ⟨0, n, .nil, isDecDigit_decDigit hn, by omega⟩
        simpa using this
      · intro h0
        simp only [List.head?_cons, Option.some.injEq] at h0
        have := decDigit_zero hn h0
        exact ⟨this, by rw [this]; rfl⟩
    · rename_i hn
      obtain ⟨h1, h2, h3⟩ := ih (n / 10) (by omega)
      refine ⟨by simp, numeral_snoc.2 ⟨n / 10, n % 10, h2, isDecDigit_decDigit (by omega), by omega⟩, ?_⟩
      intro h0
      rw [List.head?_append, Option.or_eq_some_iff] at h0
      have h0 : (fmtNatF fuel (n / 10)).head? = some '0' := by
        rcases h0 with h0 | ⟨h0, _⟩
        · exact h0
        · exact absurd (List.head?_eq_none_iff.1 h0) h1
      have := (h3 h0).1
      omega

theorem fmtInt_decText (n : Int) : DecText (fmtInt n) n := by
  obtain ⟨h1, h2, h3⟩ := fmtNatF_spec (n.natAbs + 1) n.natAbs (by omega)
  refine ⟨fmtNat n.natAbs, h1, h2, rfl, fun h => (h3 h).2⟩

theorem decNum_unique {s : Str} {m n : Nat} (h1 : Numeral IsDecDigit 10 s m) (h2 : Numeral IsDecDigit 10 s n) : m = n := by
  have a := (parseDigits_iff decVal_iff (radix := 10) (bound := m + n + 1) (by omega) (by omega) s m).2 ⟨h1, by omega⟩
  have b := (parseDigits_iff decVal_iff (radix := 10) (bound := m + n + 1) (by omega) (by omega) s n).2 ⟨h2, by omega⟩
  rw [a] at b; exact Option.some.inj b

example : fmtInt 340282366920938463463374607431768211455 = "340282366920938463463374607431768211455".toList := by decide +kernel
example : fmtInt (-70) = "-70".toList := by decide +kernel
example : fmtInt 0 = "0".toList := by decide +kernel

end Rust
