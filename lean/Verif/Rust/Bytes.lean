import Verif.Rust.Decimal
/-!
# Bytes as text: the crates `hex` and `base64`, and parsing of `i64`

The crates' sources are not in /repo: their documented behaviour is modelled. `hex::encode` writes lower case, `hex::decode` reads either case
and refuses an odd number of characters. `base64::encode` / `decode` are the standard alphabet with padding; decoding is strict (padding
required, unused bits zero).
-/

namespace Rust

abbrev Byte := BitVec 8

/-! ## Hexadecimal -/

/-- `hex::encode` -/
def hexEncode : List Byte → Str
  | [] => []
  | b :: bs => hexDigit (b.toNat / 16) :: hexDigit (b.toNat % 16) :: hexEncode bs

/-- `hex::decode` -/
def hexDecode : Str → Option (List Byte)
  | [] => some []
  | [_] => none
  | h :: l :: rest =>
    match hexVal h, hexVal l with
    | some x, some y => (hexDecode rest).map (BitVec.ofNat 8 (16 * x + y) :: ·)
    | _, _ => none

/-- `s` writes the bytes, two hexadecimal digits of either case each. -/
inductive HexText : Str → List Byte → Prop
  | nil : HexText [] []
  | cons {h l : Char} {x y : Nat} {b : Byte} {s : Str} {bs : List Byte} (hx : IsHexDigit h x) (hy : IsHexDigit l y)
      (hb : b.toNat = 16 * x + y) (rest : HexText s bs) : HexText (h :: l :: s) (b :: bs)

theorem isHexDigit_hexDigit {d : Nat} (h : d < 16) : IsHexDigit (hexDigit d) d := (hexVal_iff _ _).1 (hexVal_hexDigit h)

theorem hexEncode_text (bs : List Byte) : HexText (hexEncode bs) bs := by
  induction bs with
  | nil => exact .nil
  | cons b bs ih =>
    have := b.isLt
    exact .cons (isHexDigit_hexDigit (by omega)) (isHexDigit_hexDigit (by omega)) (by omega) ih

/-- `hex::decode` reads exactly the texts of bytes. -/
theorem hexDecode_iff (s : Str) (bs : List Byte) : hexDecode s = some bs ↔ HexText s bs := by
  constructor
  · intro h
    induction s using hexDecode.induct generalizing bs with
    | case1 => cases h; exact .nil
    | case2 => cases h
    | case3 c d rest x y hy hx ih =>
      rw [hexDecode, hx, hy] at h
      simp only [Option.map_eq_some_iff] at h
      obtain ⟨r, hr, rfl⟩ := h
      have h1 := (hexVal_iff _ _).1 hx
      have h2 := (hexVal_iff _ _).1 hy
      have := isHexDigit_lt h1
      have := isHexDigit_lt h2
      exact .cons h1 h2 (by rw [BitVec.toNat_ofNat]; exact Nat.mod_eq_of_lt (by omega)) (ih _ hr)
    | case4 c d rest hno =>
      rw [hexDecode] at h
      cases hx : hexVal c with
      | none => rw [hx] at h; cases h
      | some x =>
        cases hy : hexVal d with
        | none => rw [hx, hy] at h; cases h
        | some y => exact absurd hy (hno x y hx)
  · intro h
    induction h with
    | nil => rfl
    | @cons h l x y b s bs hx hy hb rest ih =>
      have h1 := (hexVal_iff _ _).2 hx
      have h2 := (hexVal_iff _ _).2 hy
      rw [hexDecode, h1, h2]
      simp only [ih, Option.map_some, Option.some.injEq, List.cons.injEq, and_true]
      apply BitVec.eq_of_toNat_eq
      rw [BitVec.toNat_ofNat, hb]
      have := b.isLt
      exact Nat.mod_eq_of_lt (by omega)

theorem hexDecode_encode (bs : List Byte) : hexDecode (hexEncode bs) = some bs := (hexDecode_iff _ _).2 (hexEncode_text bs)

/-! ## Base64 -/

/-- The standard alphabet. -/
def b64Alphabet : List Char := "ABCDEFGHIJKLMNOPQRSTUVWXYZabcdefghijklmnopqrstuvwxyz0123456789+/".toList

/-- The character of a six-bit group. -/
def b64Char (n : Nat) : Char := b64Alphabet.getD n '='

/-- The six-bit group of a character. -/
def b64Val (c : Char) : Option Nat := b64Alphabet.findIdx? (· == c)

/-- `base64::encode` -/
def b64Encode : List Byte → Str
  | [] => []
  | [a] => [b64Char (a.toNat / 4), b64Char (a.toNat % 4 * 16), '=', '=']
  | [a, b] => [b64Char (a.toNat / 4), b64Char (a.toNat % 4 * 16 + b.toNat / 16), b64Char (b.toNat % 16 * 4), '=']
  | a :: b :: c :: rest =>
    b64Char (a.toNat / 4) :: b64Char (a.toNat % 4 * 16 + b.toNat / 16) :: b64Char (b.toNat % 16 * 4 + c.toNat / 64) :: b64Char (c.toNat % 64)
      :: b64Encode rest

/-- A group of four characters that is not padded. -/
def b64Quad (w x y z : Char) : Option (List Byte) := do
  let w ← b64Val w
  let x ← b64Val x
  let y ← b64Val y
  let z ← b64Val z
  some [BitVec.ofNat 8 (w * 4 + x / 16), BitVec.ofNat 8 (x % 16 * 16 + y / 4), BitVec.ofNat 8 (y % 4 * 64 + z)]

/-- The last group, which may be padded; bits that do not belong to a byte must be zero. -/
def b64Last (w x y z : Char) : Option (List Byte) :=
  if z = '=' then
    if y = '=' then do
      let w ← b64Val w
      let x ← b64Val x
      if x % 16 = 0 then some [BitVec.ofNat 8 (w * 4 + x / 16)] else none
    else do
      let w ← b64Val w
      let x ← b64Val x
      let y ← b64Val y
      if y % 4 = 0 then some [BitVec.ofNat 8 (w * 4 + x / 16), BitVec.ofNat 8 (x % 16 * 16 + y / 4)] else none
  else b64Quad w x y z

/-- `base64::decode` -/
def b64Decode : Str → Option (List Byte)
  | [] => some []
  | [w, x, y, z] => b64Last w x y z
  | w :: x :: y :: z :: rest => do
    let a ← b64Quad w x y z
    let r ← b64Decode rest
    some (a ++ r)
  | _ => none

/-- The character stands for the six bits. RFC 4648, table 1. -/
def IsB64 (c : Char) (n : Nat) : Prop := b64Alphabet[n]? = some c

/-- `s` is the base64 text of the bytes: three bytes are one number of 24 bits, written in base 64 with four digits; one or two bytes
at the end are followed by zero bits, and by `=` for each digit that is missing. RFC 4648, section 4. -/
inductive B64Text : Str → List Byte → Prop
  | nil : B64Text [] []
  | one {w x : Char} {m n : Nat} {a : Byte} (hw : IsB64 w m) (hx : IsB64 x n) (h : a.toNat * 16 = m * 64 + n) : B64Text [w, x, '=', '='] [a]
  | two {w x y : Char} {m n p : Nat} {a b : Byte} (hw : IsB64 w m) (hx : IsB64 x n) (hy : IsB64 y p)
      (h : (a.toNat * 256 + b.toNat) * 4 = (m * 64 + n) * 64 + p) : B64Text [w, x, y, '='] [a, b]
  | three {w x y z : Char} {m n p q : Nat} {a b c : Byte} {s : Str} {bs : List Byte} (hw : IsB64 w m) (hx : IsB64 x n) (hy : IsB64 y p) (hz : IsB64 z q)
      (h : (a.toNat * 256 + b.toNat) * 256 + c.toNat = ((m * 64 + n) * 64 + p) * 64 + q) (rest : B64Text s bs) :
      B64Text (w :: x :: y :: z :: s) (a :: b :: c :: bs)

theorem isB64_char {n : Nat} (h : n < 64) : IsB64 (b64Char n) n := by
  have : ∀ n ∈ List.range 64, b64Alphabet[n]? = some (b64Char n) := by decide +kernel
  exact this n (List.mem_range.2 h)

theorem b64Val_of {c : Char} {n : Nat} (h : IsB64 c n) : b64Val c = some n ∧ n < 64 ∧ c ≠ '=' := by
  have hl : b64Alphabet.length = 64 := by decide +kernel
  have hn : n < 64 := by
    have := (List.getElem?_eq_some_iff.1 h).1
    omega
  have : ∀ n ∈ List.range 64, b64Val (b64Char n) = some n ∧ n < 64 ∧ b64Char n ≠ '=' := by decide +kernel
  have hc : c = b64Char n := by
    have := isB64_char hn
    unfold IsB64 at this h
    rw [this] at h
    exact (Option.some.inj h).symm
  rw [hc]
  exact this n (List.mem_range.2 hn)

theorem b64Encode_text (bs : List Byte) : B64Text (b64Encode bs) bs := by
  induction bs using b64Encode.induct with
  | case1 => exact .nil
  | case2 a => have := a.isLt; exact .one (isB64_char (by omega)) (isB64_char (by omega)) (by omega)
  | case3 a b =>
    have := a.isLt; have := b.isLt
    exact .two (isB64_char (by omega)) (isB64_char (by omega)) (isB64_char (by omega)) (by omega)
  | case4 a b c rest ih =>
    have := a.isLt; have := b.isLt; have := c.isLt
    exact .three (isB64_char (by omega)) (isB64_char (by omega)) (isB64_char (by omega)) (isB64_char (by omega)) (by omega) ih

theorem b64Quad_of {w x y z : Char} {m n p q : Nat} {a b c : Byte} (hw : IsB64 w m) (hx : IsB64 x n) (hy : IsB64 y p) (hz : IsB64 z q)
    (h : (a.toNat * 256 + b.toNat) * 256 + c.toNat = ((m * 64 + n) * 64 + p) * 64 + q) : b64Quad w x y z = some [a, b, c] := by
  obtain ⟨h1, l1, -⟩ := b64Val_of hw
  obtain ⟨h2, l2, -⟩ := b64Val_of hx
  obtain ⟨h3, l3, -⟩ := b64Val_of hy
  obtain ⟨h4, l4, -⟩ := b64Val_of hz
  have := a.isLt; have := b.isLt; have := c.isLt
  simp only [b64Quad, h1, h2, h3, h4, Option.bind_eq_bind, Option.bind_some, Option.some.injEq, List.cons.injEq, and_true]
  refine ⟨BitVec.eq_of_toNat_eq ?_, BitVec.eq_of_toNat_eq ?_, BitVec.eq_of_toNat_eq ?_⟩ <;> rw [BitVec.toNat_ofNat] <;> omega

/-- `base64::decode` reads every base64 text as its bytes. -/
theorem b64Decode_of {s : Str} {bs : List Byte} (h : B64Text s bs) : b64Decode s = some bs := by
  induction h with
  | nil => rfl
  | @one w x m n a hw hx h =>
    obtain ⟨h1, l1, -⟩ := b64Val_of hw
    obtain ⟨h2, l2, -⟩ := b64Val_of hx
    have := a.isLt
    have e : n % 16 = 0 := by omega
    simp only [b64Decode, b64Last, h1, h2, Option.bind_eq_bind, Option.bind_some, if_true, e]
    congr 2
    apply BitVec.eq_of_toNat_eq
    rw [BitVec.toNat_ofNat]; omega
  | @two w x y m n p a b hw hx hy h =>
    obtain ⟨h1, l1, -⟩ := b64Val_of hw
    obtain ⟨h2, l2, -⟩ := b64Val_of hx
    obtain ⟨h3, l3, hne⟩ := b64Val_of hy
    have := a.isLt; have := b.isLt
    have e : p % 4 = 0 := by omega
    simp only [b64Decode, b64Last, h1, h2, h3, hne, Option.bind_eq_bind, Option.bind_some, if_true, if_false, e]
    congr 2
    · apply BitVec.eq_of_toNat_eq
      rw [BitVec.toNat_ofNat]; omega
    · congr 1
      apply BitVec.eq_of_toNat_eq
      rw [BitVec.toNat_ofNat]; omega
  | @three w x y z m n p q a b c s bs hw hx hy hz h rest ih =>
    have hq := b64Quad_of hw hx hy hz h
    have hne := (b64Val_of hz).2.2
    match s, rest, ih with
    | [], rest, ih =>
      cases rest
      simp only [b64Decode, b64Last, if_neg hne, hq]
    | c0 :: s, rest, ih =>
      rw [b64Decode, hq, ih]
      · rfl
      · simp

theorem b64Decode_encode (bs : List Byte) : b64Decode (b64Encode bs) = some bs := b64Decode_of (b64Encode_text bs)

/-! ## Signed integers -/

/-- `i64::from_str`: an optional sign, digits, and the value in range. -/
def parseI64 (s : Str) : Option Int :=
  match s with
  | '-' :: rest => if rest = [] then none else (parseDigits decVal 10 (2 ^ 63 + 1) 0 rest).map fun n : Nat => -(n : Int)
  | _ => (parseUnsigned decVal 10 (2 ^ 63) s).map fun n : Nat => (n : Int)

theorem numeral_not_mem {c : Char} (hc : ∀ d, ¬ IsDecDigit c d) {s : Str} {n : Nat} (h : Numeral IsDecDigit 10 s n) : c ∉ s := by
  induction h with
  | nil => simp
  | snoc _ hd ih =>
    simp only [List.mem_append, List.mem_singleton, not_or]
    exact ⟨ih, fun e => hc _ (e ▸ hd)⟩

theorem not_decDigit {c : Char} (h : c ∉ "0123456789".toList) (d : Nat) : ¬ IsDecDigit c d :=
  fun hd => h (List.mem_of_getElem? hd)

theorem parseDec_text {bits n : Nat} {s : Str} (h : DecText s n) (hn : n < 2 ^ bits) : parseDec bits s = some n := by
  obtain ⟨ds, hne, hnum, hs, -⟩ := h
  have : ¬ ((n : Int) < 0) := by omega
  rw [if_neg this] at hs
  subst hs
  exact (parseDec_iff bits s n).2 ⟨⟨s, .inl rfl, hne, by simpa using hnum⟩, hn⟩

theorem parseI64_text {i : Int} {s : Str} (h : DecText s i) (h1 : -2 ^ 63 ≤ i) (h2 : i < 2 ^ 63) : parseI64 s = some i := by
  obtain ⟨ds, hne, hnum, hs, hz⟩ := h
  by_cases hi : i < 0
  · rw [if_pos hi] at hs
    subst hs
    have := (parseDigits_iff decVal_iff (radix := 10) (bound := 2 ^ 63 + 1) (by omega) (by omega) ds i.natAbs).2 ⟨hnum, by omega⟩
    have e : parseI64 ('-' :: ds) = if ds = [] then none else (parseDigits decVal 10 (2 ^ 63 + 1) 0 ds).map fun n : Nat => -(n : Int) := rfl
    rw [e, if_neg hne, this, Option.map_some]
    congr 1
    omega
  · rw [if_neg hi] at hs
    subst hs
    have hd : DecText s ((i.natAbs : Nat) : Int) := by
      have e : ((i.natAbs : Nat) : Int) = i := by omega
      rw [e]
      exact ⟨s, hne, hnum, by rw [if_neg hi], hz⟩
    have hp : parseUnsigned decVal 10 (2 ^ 63) s = some i.natAbs := parseDec_text (bits := 63) hd (by omega)
    have hh := numeral_not_mem (c := '-') (not_decDigit (by decide)) hnum
    unfold parseI64
    split
    · rename_i rest
      exact absurd (List.mem_cons_self ..) hh
    · rw [hp]
      simp only [Option.map_some, Option.some.injEq]
      omega

example : b64Encode [0x4D#8, 0x61#8, 0x6E#8, 0x20#8] = "TWFuIA==".toList := by decide +kernel
example : b64Decode "TWFuIA==".toList = some [0x4D#8, 0x61#8, 0x6E#8, 0x20#8] := by decide +kernel
example : b64Decode "TWFuIB==".toList = none := by decide +kernel
example : hexDecode "0aFf".toList = some [0x0A#8, 0xFF#8] := by decide +kernel
example : parseI64 "-9223372036854775808".toList = some (-9223372036854775808) := by decide +kernel
example : parseI64 "9223372036854775808".toList = none := by decide +kernel

end Rust
