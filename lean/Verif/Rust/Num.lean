import Verif.Rust.Str
/-! # Parsing and printing of integers, as in Rust's standard library -/

namespace Rust

/-- `char::to_digit(16)`. -/
def hexVal (c : Char) : Option Nat :=
  if isAsciiDigit c then some (c.toNat - 48)
  else if 'a' ≤ c && c ≤ 'f' then some (c.toNat - 87)
  else if 'A' ≤ c && c ≤ 'F' then some (c.toNat - 55)
  else none

/-- `char::to_digit(10)`. -/
def decVal (c : Char) : Option Nat :=
  if isAsciiDigit c then some (c.toNat - 48) else none

/-- The digit loop of `from_str_radix`: `none` on an invalid digit or when the value leaves the type (`bound` = 2^bits). -/
def parseDigits (digit : Char → Option Nat) (radix bound : Nat) : Nat → Str → Option Nat
  | acc, [] => some acc
  | acc, c :: cs =>
    match digit c with
    | none => none
    | some d => if acc * radix + d < bound then parseDigits digit radix bound (acc * radix + d) cs else none

/-- `uN::from_str_radix(s, radix)`: the empty string and a lone sign are errors, a leading `+` is skipped, a `-` is an
invalid digit. -/
def parseUnsigned (digit : Char → Option Nat) (radix bound : Nat) (s : Str) : Option Nat :=
  match s with
  | [] => none
  | '+' :: rest => if rest = [] then none else parseDigits digit radix bound 0 rest
  | _ => parseDigits digit radix bound 0 s

/-- `uN::from_str_radix(s, 16)` for an `N`-bit type. -/
def parseHex (bits : Nat) (s : Str) : Option Nat := parseUnsigned hexVal 16 (2 ^ bits) s

/-- `uN::from_str(s)`. -/
def parseDec (bits : Nat) (s : Str) : Option Nat := parseUnsigned decVal 10 (2 ^ bits) s

/-- The lowercase hexadecimal digit of `d < 16`. -/
def hexDigit (d : Nat) : Char := if d < 10 then Char.ofNat (48 + d) else Char.ofNat (87 + d)

/-- `format!("{:0wx}", n)` for `n < 16^w`: exactly `w` digits, most significant first. -/
def fmtHex : Nat → Nat → Str
  | 0, _ => []
  | w + 1, n => fmtHex w (n / 16) ++ [hexDigit (n % 16)]

/-- The lowercase hexadecimal digits `0-9a-f`. -/
def isLowerHex (c : Char) : Bool := isAsciiDigit c || ('a' ≤ c && c ≤ 'f')

/-! ## Facts about them -/

theorem hexDigit_cases {d : Nat} (h : d < 16) (P : Nat → Prop) (hp : ∀ k ∈ List.range 16, P k) : P d :=
  hp d (List.mem_range.2 h)

theorem hexVal_hexDigit {d : Nat} (h : d < 16) : hexVal (hexDigit d) = some d :=
  hexDigit_cases h (fun d => hexVal (hexDigit d) = some d) (by decide)

theorem isLowerHex_hexDigit {d : Nat} (h : d < 16) : isLowerHex (hexDigit d) = true :=
  hexDigit_cases h (fun d => isLowerHex (hexDigit d) = true) (by decide)

theorem fmtHex_length (w n : Nat) : (fmtHex w n).length = w := by
  induction w generalizing n with
  | zero => rfl
  | succ w ih => simp [fmtHex, ih]

theorem fmtHex_lower (w n : Nat) : ∀ c ∈ fmtHex w n, isLowerHex c = true := by
  induction w generalizing n with
  | zero => simp [fmtHex]
  | succ w ih =>
    intro c hc
    simp only [fmtHex, List.mem_append, List.mem_singleton] at hc
    rcases hc with hc | rfl
    · exact ih _ c hc
    · exact isLowerHex_hexDigit (Nat.mod_lt _ (by omega))

theorem isLowerHex_not {c : Char} (h : isLowerHex c = true) (P : Char → Bool)
    (hP : ∀ n ∈ List.range 128, isLowerHex (Char.ofNat n) = true → P (Char.ofNat n) = true) : P c = true := by
  have hn : c.toNat < 128 := by
    unfold isLowerHex isAsciiDigit at h
    simp only [Bool.or_eq_true, Bool.and_eq_true, decide_eq_true_eq] at h
    rcases h with ⟨_, h⟩ | ⟨_, h⟩
    · have : c.toNat ≤ '9'.toNat := h
      have e : '9'.toNat = 57 := rfl
      omega
    · have : c.toNat ≤ 'f'.toNat := h
      have e : 'f'.toNat = 102 := rfl
      omega
  have := hP c.toNat (List.mem_range.2 hn)
  rw [Char.ofNat_toNat] at this
  exact this h

theorem isLowerHex_ne {c : Char} (h : isLowerHex c = true) {d : Char} (hd : isLowerHex d = false) : c ≠ d := by
  rintro rfl; rw [h] at hd; exact absurd hd (by decide +kernel)

theorem isLowerHex_not_upper {c : Char} (h : isLowerHex c = true) : isAsciiUpper c = false := by
  have := isLowerHex_not h (fun c => !isAsciiUpper c) (by decide +kernel)
  simpa using this

theorem isLowerHex_not_ws {c : Char} (h : isLowerHex c = true) : isWhitespace c = false := by
  have := isLowerHex_not h (fun c => !isWhitespace c) (by decide +kernel)
  simpa using this

theorem parseDigits_append (digit : Char → Option Nat) (radix bound acc : Nat) (a b : Str) :
    parseDigits digit radix bound acc (a ++ b) =
      (parseDigits digit radix bound acc a).bind (fun v => parseDigits digit radix bound v b) := by
  induction a generalizing acc with
  | nil => simp [parseDigits]
  | cons c cs ih =>
    simp only [List.cons_append, parseDigits]
    cases digit c with
    | none => simp
    | some d => simp only; split
                · exact ih _
                · simp

theorem parseDigits_fmtHex {w n bound : Nat} (h : n < 16 ^ w) (hb : n < bound) :
    parseDigits hexVal 16 bound 0 (fmtHex w n) = some n := by
  induction w generalizing n with
  | zero => simp only [Nat.pow_zero, Nat.lt_one_iff] at h; subst h; rfl
  | succ w ih =>
    have h1 : n / 16 < 16 ^ w := by rw [Nat.pow_succ] at h; omega
    have h2 : n / 16 < bound := by omega
    have h3 : n / 16 * 16 + n % 16 < bound := by omega
    rw [fmtHex, parseDigits_append, ih h1 h2]
    simp only [Option.bind_some, parseDigits, hexVal_hexDigit (Nat.mod_lt n (by omega : 16 > 0)), h3, if_true]
    congr 1; omega

theorem parseUnsigned_of_no_plus {digit : Char → Option Nat} {radix bound : Nat} {s : Str} (hne : s ≠ [])
    (h : s.head? ≠ some '+') : parseUnsigned digit radix bound s = parseDigits digit radix bound 0 s := by
  unfold parseUnsigned
  split
  · exact absurd rfl hne
  · simp at h
  · rfl

/-- Parsing undoes fixed-width hexadecimal printing. -/
theorem parseHex_fmtHex {w n bits : Nat} (hw : 0 < w) (h : n < 16 ^ w) (hb : n < 2 ^ bits) :
    parseHex bits (fmtHex w n) = some n := by
  unfold parseHex
  have hlen := fmtHex_length w n
  rw [parseUnsigned_of_no_plus]
  · exact parseDigits_fmtHex h hb
  · intro e; rw [e] at hlen; simp at hlen; omega
  · intro e
    have := fmtHex_lower w n '+' (List.mem_of_mem_head? e)
    exact absurd this (by decide)

theorem parseDigits_lt {digit : Char → Option Nat} {radix bound acc v : Nat} {s : Str} (hacc : acc < bound)
    (h : parseDigits digit radix bound acc s = some v) : v < bound := by
  induction s generalizing acc with
  | nil => simp [parseDigits] at h; omega
  | cons c cs ih =>
    simp only [parseDigits] at h
    split at h
    · simp at h
    · split at h
      · exact ih ‹_› h
      · simp at h

theorem parseUnsigned_lt {digit : Char → Option Nat} {radix bound v : Nat} {s : Str} (hb : 0 < bound)
    (h : parseUnsigned digit radix bound s = some v) : v < bound := by
  unfold parseUnsigned at h
  split at h
  · simp at h
  · split at h
    · simp at h
    · exact parseDigits_lt hb h
  · exact parseDigits_lt hb h

theorem parseHex_lt {bits v : Nat} {s : Str} (h : parseHex bits s = some v) : v < 2 ^ bits :=
  parseUnsigned_lt (Nat.two_pow_pos bits) h

theorem fmtHex_inj {w m n : Nat} (hm : m < 16 ^ w) (hn : n < 16 ^ w) (h : fmtHex w m = fmtHex w n) : m = n := by
  have h1 := parseDigits_fmtHex hm (bound := 16 ^ w) hm
  have h2 := parseDigits_fmtHex hn (bound := 16 ^ w) hn
  rw [h] at h1; rw [h1] at h2; exact Option.some.inj h2

end Rust
