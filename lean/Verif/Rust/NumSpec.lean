import Verif.Rust.Num
import Mathlib.Data.List.Induction
/-! # What a hexadecimal / decimal numeral denotes, and that the parsers decide it -/

namespace Rust

/-- `c` is the digit `d` in base 16. -/
def IsHexDigit (c : Char) (d : Nat) : Prop :=
  "0123456789abcdef".toList[d]? = some c ∨ "0123456789ABCDEF".toList[d]? = some c

/-- `c` is the digit `d` in base 10. -/
def IsDecDigit (c : Char) (d : Nat) : Prop := "0123456789".toList[d]? = some c

/-- The digit string `s` denotes `n` in the positional system with the given digits and radix. -/
inductive Numeral (digit : Char → Nat → Prop) (radix : Nat) : Str → Nat → Prop
  | nil : Numeral digit radix [] 0
  | snoc {s n c d} : Numeral digit radix s n → digit c d → Numeral digit radix (s ++ [c]) (n * radix + d)

/-- What `from_str_radix(16)` accepts: one or more hexadecimal digits, possibly after one `+`. -/
def HexNum (s : Str) (n : Nat) : Prop :=
  ∃ ds, (s = ds ∨ s = '+' :: ds) ∧ ds ≠ [] ∧ Numeral IsHexDigit 16 ds n

/-- What `uN::from_str` accepts: one or more decimal digits, possibly after one `+`. -/
def DecNum (s : Str) (n : Nat) : Prop :=
  ∃ ds, (s = ds ∨ s = '+' :: ds) ∧ ds ≠ [] ∧ Numeral IsDecDigit 10 ds n

/-! ## The parsers decide these -/

theorem char_lt_128 {c : Char} {d : Char} (h : c ≤ d) (hd : d.toNat < 128) : c.toNat < 128 :=
  Nat.lt_of_le_of_lt h hd

theorem ascii_forall {c : Char} (h : c.toNat < 128) (P : Char → Prop) (hP : ∀ n ∈ List.range 128, P (Char.ofNat n)) : P c := by
  have := hP c.toNat (List.mem_range.2 h)
  rwa [Char.ofNat_toNat] at this

theorem isHexDigit_lt {c : Char} {d : Nat} (h : IsHexDigit c d) : d < 16 := by
  rcases h with h | h <;>
  · have := (List.getElem?_eq_some_iff.1 h).1
    simpa using this

instance (c d) : Decidable (IsHexDigit c d) := by unfold IsHexDigit; infer_instance
instance (c d) : Decidable (IsDecDigit c d) := by unfold IsDecDigit; infer_instance

theorem digit_table (f : Char → Option Nat) (P : Char → Nat → Prop) (r : Nat)
    (h1 : ∀ n ∈ List.range 128, ∀ d ∈ List.range r, f (Char.ofNat n) = some d ↔ P (Char.ofNat n) d)
    (h2 : ∀ n ∈ List.range 128, (f (Char.ofNat n)).all (fun d => decide (d < r)) = true)
    (h3 : ∀ c d, f c = some d → c.toNat < 128) (h4 : ∀ c d, P c d → c.toNat < 128 ∧ d < r) (c : Char) (d : Nat) :
    f c = some d ↔ P c d := by
  constructor
  · intro h
    have hc := h3 c d h
    have hd : d < r := by
      have := ascii_forall hc (fun c => (f c).all (fun d => decide (d < r)) = true) h2
      rw [h] at this; simpa using this
    exact (ascii_forall hc (fun c => ∀ d ∈ List.range r, f c = some d ↔ P c d) h1 d (List.mem_range.2 hd)).1 h
  · intro h
    obtain ⟨hc, hd⟩ := h4 c d h
    exact (ascii_forall hc (fun c => ∀ d ∈ List.range r, f c = some d ↔ P c d) h1 d (List.mem_range.2 hd)).2 h

theorem ascii_of_mem {l : Str} (hl : ∀ c ∈ l, c.toNat < 128) {d : Nat} {c : Char} (h : l[d]? = some c) : c.toNat < 128 :=
  hl c (List.mem_of_getElem? h)

theorem hexVal_iff (c : Char) (d : Nat) : hexVal c = some d ↔ IsHexDigit c d := by
  refine digit_table hexVal IsHexDigit 16 (by decide +kernel) (by decide +kernel) ?_ ?_ c d
  · intro c d h
    unfold hexVal at h
    split at h
    · rename_i hd; simp only [isAsciiDigit, Bool.and_eq_true, decide_eq_true_eq] at hd; exact char_lt_128 hd.2 (by decide)
    · split at h
      · rename_i hd; simp only [Bool.and_eq_true, decide_eq_true_eq] at hd; exact char_lt_128 hd.2 (by decide)
      · split at h
        · rename_i hd; simp only [Bool.and_eq_true, decide_eq_true_eq] at hd; exact char_lt_128 hd.2 (by decide)
        · cases h
  · intro c d h
    refine ⟨?_, isHexDigit_lt h⟩
    rcases h with h | h
    · exact ascii_of_mem (by decide) h
    · exact ascii_of_mem (by decide) h

theorem decVal_iff (c : Char) (d : Nat) : decVal c = some d ↔ IsDecDigit c d := by
  refine digit_table decVal IsDecDigit 10 (by decide +kernel) (by decide +kernel) ?_ ?_ c d
  · intro c d h
    unfold decVal at h
    split at h
    · rename_i hd; simp only [isAsciiDigit, Bool.and_eq_true, decide_eq_true_eq] at hd; exact char_lt_128 hd.2 (by decide)
    · cases h
  · intro c d h
    refine ⟨ascii_of_mem (by decide) h, ?_⟩
    have := (List.getElem?_eq_some_iff.1 h).1
    simpa using this

theorem numeral_nil {digit : Char → Nat → Prop} {radix n : Nat} : Numeral digit radix [] n ↔ n = 0 := by
  constructor
  · intro h
    generalize hs : ([] : Str) = s at h
    cases h with
    | nil => rfl
    | snoc _ _ => simp at hs
  · rintro rfl; exact .nil

theorem numeral_snoc {digit : Char → Nat → Prop} {radix n : Nat} {s : Str} {c : Char} :
    Numeral digit radix (s ++ [c]) n ↔ ∃ m d, Numeral digit radix s m ∧ digit c d ∧ n = m * radix + d := by
  constructor
  · intro h
    generalize hs : s ++ [c] = t at h
    cases h with
    | nil => simp at hs
    | snoc h1 h2 =>
      obtain ⟨rfl, hc⟩ := List.append_inj' hs rfl
      simp only [List.cons.injEq, and_true] at hc
      subst hc
      exact ⟨_, _, h1, h2, rfl⟩
  · rintro ⟨m, d, h1, h2, rfl⟩; exact .snoc h1 h2

theorem parseDigits_iff {dig : Char → Option Nat} {digit : Char → Nat → Prop} (hd : ∀ c d, dig c = some d ↔ digit c d)
    {radix bound : Nat} (hr : 0 < radix) (hb : 0 < bound) (s : Str) (n : Nat) :
    parseDigits dig radix bound 0 s = some n ↔ Numeral digit radix s n ∧ n < bound := by
  induction s using List.reverseRecOn generalizing n with
  | nil =>
    rw [numeral_nil]; simp only [parseDigits, Option.some.injEq]
    constructor
    · rintro rfl; exact ⟨rfl, hb⟩
    · rintro ⟨rfl, _⟩; rfl
  | append_singleton s c ih =>
    rw [parseDigits_append, numeral_snoc]
    simp only [Option.bind_eq_some_iff]
    constructor
    · rintro ⟨m, hm, hc⟩
      simp only [parseDigits] at hc
      obtain ⟨h1, _⟩ := (ih m).1 hm
      cases hdc : dig c with
      | none => rw [hdc] at hc; cases hc
      | some d =>
        rw [hdc] at hc
        simp only at hc
        split at hc
        · simp only [Option.some.injEq] at hc
          exact ⟨⟨m, d, h1, (hd c d).1 hdc, hc.symm⟩, by omega⟩
        · cases hc
    · rintro ⟨⟨m, d, h1, h2, rfl⟩, hlt⟩
      have hle : m ≤ m * radix := Nat.le_mul_of_pos_right _ hr
      refine ⟨m, (ih m).2 ⟨h1, by omega⟩, ?_⟩
      simp only [parseDigits, (hd c d).2 h2, hlt, if_true]

theorem parseUnsigned_iff {dig : Char → Option Nat} {digit : Char → Nat → Prop} (hd : ∀ c d, dig c = some d ↔ digit c d)
    (hplus : dig '+' = none) {radix bound : Nat} (hr : 0 < radix) (hb : 0 < bound) (s : Str) (n : Nat) :
    parseUnsigned dig radix bound s = some n ↔
      (∃ ds, (s = ds ∨ s = '+' :: ds) ∧ ds ≠ [] ∧ Numeral digit radix ds n) ∧ n < bound := by
  have hno : ∀ rest m, ¬ Numeral digit radix ('+' :: rest) m := by
    intro rest m h
    -- a larger bound makes the parser accept it, which it does not
    have := (parseDigits_iff hd hr (bound := m + 1) (by omega) ('+' :: rest) m).2 ⟨h, by omega⟩
    simp [parseDigits, hplus] at this
  unfold parseUnsigned
  split
  · constructor
    · intro h; cases h
    · rintro ⟨⟨ds, (h | h), hne, _⟩, _⟩
      · exact absurd h.symm hne
      · cases h
  · rename_i rest
    split
    · rename_i hr; subst hr
      constructor
      · intro h; cases h
      · rintro ⟨⟨ds, (rfl | h), hne, hn⟩, _⟩
        · exact absurd hn (hno _ _)
        · simp only [List.cons.injEq, true_and] at h; exact absurd h.symm hne
    · rename_i hne
      rw [parseDigits_iff hd hr hb]
      constructor
      · rintro ⟨h1, h2⟩; exact ⟨⟨rest, Or.inr rfl, hne, h1⟩, h2⟩
      · rintro ⟨⟨ds, (rfl | h), _, hn⟩, h2⟩
        · exact absurd hn (hno _ _)
        · simp only [List.cons.injEq, true_and] at h; subst h; exact ⟨hn, h2⟩
  · rename_i hnil hplus'
    rw [parseDigits_iff hd hr hb]
    constructor
    · rintro ⟨h1, h2⟩; exact ⟨⟨s, Or.inl rfl, by simpa using hnil, h1⟩, h2⟩
    · rintro ⟨⟨ds, (rfl | h), _, hn⟩, h2⟩
      · exact ⟨hn, h2⟩
      · exact absurd h (hplus' _)

theorem parseHex_iff (bits : Nat) (s : Str) (n : Nat) : parseHex bits s = some n ↔ HexNum s n ∧ n < 2 ^ bits :=
  parseUnsigned_iff hexVal_iff (by decide) (by decide) (Nat.two_pow_pos bits) s n

theorem parseDec_iff (bits : Nat) (s : Str) (n : Nat) : parseDec bits s = some n ↔ DecNum s n ∧ n < 2 ^ bits :=
  parseUnsigned_iff decVal_iff (by decide) (by decide) (Nat.two_pow_pos bits) s n

theorem hexNum_unique {s : Str} {m n : Nat} (h1 : HexNum s m) (h2 : HexNum s n) : m = n := by
  have hm : m < 2 ^ (m + n) := Nat.lt_of_le_of_lt (by omega) Nat.lt_two_pow_self
  have hn : n < 2 ^ (m + n) := Nat.lt_of_le_of_lt (by omega) Nat.lt_two_pow_self
  have a := (parseHex_iff (m + n) s m).2 ⟨h1, hm⟩
  have b := (parseHex_iff (m + n) s n).2 ⟨h2, hn⟩
  rw [a] at b; exact Option.some.inj b

end Rust
