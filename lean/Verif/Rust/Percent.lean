import Verif.Rust.Str
/-! # UTF-8 and percent encoding

`str::as_bytes`, `str::from_utf8`, and the functions of the `percent_encoding` crate used by the baggage propagator. The
crate's source is not in /repo: its documented behaviour is modelled. -/

namespace Rust

/-- `str::as_bytes`. -/
def utf8 (s : Str) : List UInt8 := s.flatMap String.utf8EncodeChar

/-- `str::from_utf8`. -/
def fromUtf8 (bs : List UInt8) : Option Str := bs.toByteArray.utf8Decode?.map Array.toList

/-- Upper case hexadecimal digit. -/
def upperHex (n : Nat) : Char := if n < 10 then Char.ofNat (48 + n) else Char.ofNat (55 + n)

/-- `percent_encode_byte`: `%XX`. -/
def pctByte (b : UInt8) : Str := ['%', upperHex (b.toNat / 16), upperHex (b.toNat % 16)]

/-- `utf8_percent_encode(s, set)`: bytes of the set and all non-ASCII bytes are escaped. -/
def pctEncode (set : UInt8 → Bool) (s : Str) : Str :=
  (utf8 s).flatMap (fun b => if 0x80 ≤ b.toNat ∨ set b = true then pctByte b else [Char.ofNat b.toNat])

/-- Value of a hexadecimal digit byte (`char::to_digit(16)`). -/
def hexByteVal (b : UInt8) : Option Nat :=
  let n := b.toNat
  if 48 ≤ n ∧ n ≤ 57 then some (n - 48)
  else if 65 ≤ n ∧ n ≤ 70 then some (n - 55)
  else if 97 ≤ n ∧ n ≤ 102 then some (n - 87)
  else none

/-- `percent_decode`: `%` followed by two hexadecimal digits is the byte they denote; any other byte is itself. -/
def pctDecodeBytes : List UInt8 → List UInt8
  | [] => []
  | [b] => [b]
  | [b, c] => [b, c]
  | b :: h :: l :: rest =>
    if b = 0x25 then
      match hexByteVal h, hexByteVal l with
      | some x, some y => UInt8.ofNat (16 * x + y) :: pctDecodeBytes rest
      | _, _ => b :: pctDecodeBytes (h :: l :: rest)
    else b :: pctDecodeBytes (h :: l :: rest)

/-- `percent_decode_str(s).decode_utf8()`. -/
def pctDecode (s : Str) : Option Str := fromUtf8 (pctDecodeBytes (utf8 s))

/-- Hexadecimal digit, either case. -/
def isHexDigit (c : Char) : Bool := ('0' ≤ c && c ≤ '9') || ('A' ≤ c && c ≤ 'F') || ('a' ≤ c && c ≤ 'f')

/-- The text starts with two hexadecimal digits. -/
def hex2 : Str → Bool
  | h :: l :: _ => isHexDigit h && isHexDigit l
  | _ => false

/-- The text contains no `%` followed by two hexadecimal digits. -/
def noEscape : Str → Bool
  | [] => true
  | c :: s => !(c == '%' && hex2 s) && noEscape s

/-! ## Lemmas -/

theorem fromUtf8_utf8 (s : Str) : fromUtf8 (utf8 s) = some s := by
  have := List.utf8Decode?_utf8Encode (l := s)
  unfold List.utf8Encode at this
  simp [fromUtf8, utf8, this]

theorem utf8_append (a b : Str) : utf8 (a ++ b) = utf8 a ++ utf8 b := by simp [utf8]

theorem utf8_cons (c : Char) (s : Str) : utf8 (c :: s) = String.utf8EncodeChar c ++ utf8 s := by simp [utf8]

theorem utf8Char_ascii {c : Char} (h : c.toNat ≤ 127) : String.utf8EncodeChar c = [UInt8.ofNat c.toNat] := by
  unfold String.utf8EncodeChar
  have : c.val.toNat ≤ 127 := h
  simp only [this, if_true]; rfl

theorem utf8Char_high {c : Char} (h : 127 < c.toNat) : ∀ b ∈ String.utf8EncodeChar c, 0x80 ≤ b.toNat := by
  have : ¬ c.val.toNat ≤ 127 := by have : c.val.toNat = c.toNat := rfl; omega
  unfold String.utf8EncodeChar
  simp only [this, if_false]
  intro b hb
  split at hb
  · simp only [List.mem_cons, List.not_mem_nil, or_false] at hb
    rcases hb with rfl | rfl <;> simp only [UInt8.toNat_ofNat'] <;> omega
  · split at hb
    · simp only [List.mem_cons, List.not_mem_nil, or_false] at hb
      rcases hb with rfl | rfl | rfl <;> simp only [UInt8.toNat_ofNat'] <;> omega
    · simp only [List.mem_cons, List.not_mem_nil, or_false] at hb
      rcases hb with rfl | rfl | rfl | rfl <;> simp only [UInt8.toNat_ofNat'] <;> omega

/-- A byte is a hexadecimal digit. -/
def hexB (b : UInt8) : Bool := (hexByteVal b).isSome

/-- The bytes start with two hexadecimal digits. -/
def hex2B : List UInt8 → Bool
  | h :: l :: _ => hexB h && hexB l
  | _ => false

/-- No `%XX` in the bytes. -/
def noEscB : List UInt8 → Bool
  | [] => true
  | b :: bs => !(b == 0x25 && hex2B bs) && noEscB bs

theorem pctDecodeBytes_cons {b : UInt8} {bs : List UInt8} (h : (b == 0x25 && hex2B bs) = false) :
    pctDecodeBytes (b :: bs) = b :: pctDecodeBytes bs := by
  match bs with
  | [] => rfl
  | [_] => rfl
  | x :: y :: rest =>
    simp only [pctDecodeBytes]
    split
    · rename_i hb
      subst hb
      simp only [hex2B, hexB, beq_self_eq_true, Bool.true_and, Bool.and_eq_false_iff] at h
      split
      · rename_i h1 h2; simp [h1, h2] at h
      · rfl
    · rfl

theorem pctDecodeBytes_raw {bs : List UInt8} (h : noEscB bs = true) : pctDecodeBytes bs = bs := by
  induction bs with
  | nil => rfl
  | cons b bs ih =>
    simp only [noEscB, Bool.and_eq_true, Bool.not_eq_true'] at h
    rw [pctDecodeBytes_cons h.1, ih h.2]

theorem hexByteVal_upperHex : ∀ n < 16, hexByteVal (UInt8.ofNat (upperHex n).toNat) = some n := by decide

theorem upperHex_ascii : ∀ n < 16, (upperHex n).toNat ≤ 127 := by decide

theorem utf8_pctByte (b : UInt8) :
    utf8 (pctByte b) = [0x25, UInt8.ofNat (upperHex (b.toNat / 16)).toNat, UInt8.ofNat (upperHex (b.toNat % 16)).toNat] := by
  have h1 : b.toNat / 16 < 16 := by have := b.toNat_lt; omega
  have h2 : b.toNat % 16 < 16 := by omega
  unfold pctByte
  rw [utf8_cons, utf8_cons, utf8_cons, utf8Char_ascii (c := '%') (by decide), utf8Char_ascii (upperHex_ascii _ h1),
    utf8Char_ascii (upperHex_ascii _ h2)]
  rfl

theorem pctDecodeBytes_pctByte (b : UInt8) (bs : List UInt8) :
    pctDecodeBytes (utf8 (pctByte b) ++ bs) = b :: pctDecodeBytes bs := by
  have h1 : b.toNat / 16 < 16 := by have := b.toNat_lt; omega
  have h2 : b.toNat % 16 < 16 := by omega
  rw [utf8_pctByte]
  simp only [List.cons_append, List.nil_append, pctDecodeBytes, if_true, hexByteVal_upperHex _ h1, hexByteVal_upperHex _ h2]
  have : 16 * (b.toNat / 16) + b.toNat % 16 = b.toNat := by omega
  rw [this, UInt8.ofNat_toNat]

theorem toNat_ofNat_small {n : Nat} (h : n < 128) : (Char.ofNat n).toNat = n := by
  have hv : n.isValidChar := Or.inl (by omega)
  simp [Char.ofNat, hv, Char.toNat, Char.ofNatAux]

/-- One byte of `pctEncode`. -/
def encByte (set : UInt8 → Bool) (b : UInt8) : Str :=
  if 0x80 ≤ b.toNat ∨ set b = true then pctByte b else [Char.ofNat b.toNat]

theorem utf8_raw_byte {b : UInt8} (h : ¬ 0x80 ≤ b.toNat) : utf8 [Char.ofNat b.toNat] = [b] := by
  have h0 := toNat_ofNat_small (n := b.toNat) (by omega)
  rw [utf8_cons, utf8Char_ascii (by omega), h0, UInt8.ofNat_toNat]; rfl

theorem hexB_pct : hexB 0x25 = false := by decide

theorem hex2B_enc {set : UInt8 → Bool} {bs : List UInt8} (h : hex2B (utf8 (bs.flatMap (encByte set))) = true) : hex2B bs = true := by
  match bs with
  | [] => simp [utf8, hex2B] at h
  | a :: bs =>
    rw [List.flatMap_cons, utf8_append] at h
    unfold encByte at h
    split at h
    · rw [utf8_pctByte] at h; simp [hex2B, hexB_pct] at h
    · rename_i ha
      rw [utf8_raw_byte (fun h => ha (Or.inl h))] at h
      match bs with
      | [] => simp [utf8, hex2B] at h
      | b :: bs =>
        rw [List.flatMap_cons, utf8_append] at h
        split at h
        · rw [utf8_pctByte] at h; simp [hex2B, hexB_pct] at h
        · rename_i hb
          rw [utf8_raw_byte (fun h => hb (Or.inl h))] at h
          simpa [hex2B] using h

theorem pctDecodeBytes_enc {set : UInt8 → Bool} {bs : List UInt8} (h : noEscB bs = true) :
    pctDecodeBytes (utf8 (bs.flatMap (encByte set))) = bs := by
  induction bs with
  | nil => rfl
  | cons b bs ih =>
    simp only [noEscB, Bool.and_eq_true, Bool.not_eq_true'] at h
    rw [List.flatMap_cons, utf8_append]
    by_cases hb : 0x80 ≤ b.toNat ∨ set b = true
    · rw [encByte, if_pos hb, pctDecodeBytes_pctByte, ih h.2]
    · rw [encByte, if_neg hb, utf8_raw_byte (fun h => hb (Or.inl h)), List.cons_append, List.nil_append, pctDecodeBytes_cons, ih h.2]
      rcases Bool.and_eq_false_iff.1 h.1 with h1 | h1
      · simp [h1]
      · cases hh : hex2B (utf8 (bs.flatMap (encByte set)))
        · simp
        · rw [hex2B_enc hh] at h1; cases h1

theorem hexB_high {b : UInt8} (h : 0x80 ≤ b.toNat) : hexB b = false := by
  unfold hexB hexByteVal
  simp only
  rw [if_neg (by omega), if_neg (by omega), if_neg (by omega)]; rfl

theorem isHexDigit_iff (c : Char) : isHexDigit c = true ↔
    (48 ≤ c.toNat ∧ c.toNat ≤ 57) ∨ (65 ≤ c.toNat ∧ c.toNat ≤ 70) ∨ (97 ≤ c.toNat ∧ c.toNat ≤ 102) := by
  unfold isHexDigit
  simp only [Bool.or_eq_true, Bool.and_eq_true, decide_eq_true_eq, or_assoc]
  rfl

theorem isHexDigit_high {c : Char} (h : 127 < c.toNat) : isHexDigit c = false := by
  cases hc : isHexDigit c
  · rfl
  · have := (isHexDigit_iff c).1 hc; omega

theorem hexB_ascii {c : Char} (h : c.toNat ≤ 127) : hexB (UInt8.ofNat c.toNat) = isHexDigit c := by
  have hn : (UInt8.ofNat c.toNat).toNat = c.toNat := by rw [UInt8.toNat_ofNat']; omega
  rw [Bool.eq_iff_iff, isHexDigit_iff]
  unfold hexB hexByteVal
  simp only [hn]
  split
  · simp_all
  · split
    · simp_all
    · split
      · simp_all
      · simp; omega

theorem hex2B_utf8 (s : Str) : hex2B (utf8 s) = hex2 s := by
  match s with
  | [] => rfl
  | c :: s =>
    rw [utf8_cons]
    by_cases hc : c.toNat ≤ 127
    · rw [utf8Char_ascii hc]
      match s with
      | [] => rfl
      | d :: s =>
        rw [utf8_cons]
        by_cases hd : d.toNat ≤ 127
        · rw [utf8Char_ascii hd]
          simp only [List.cons_append, List.nil_append, hex2B, hex2, hexB_ascii hc, hexB_ascii hd]
        · have hh := utf8Char_high (c := d) (by omega)
          obtain ⟨x, xs, hx⟩ := List.exists_cons_of_ne_nil (String.utf8EncodeChar_ne_nil (c := d))
          rw [hx]
          simp only [List.cons_append, List.nil_append, hex2B, hex2, isHexDigit_high (c := d) (by omega),
            hexB_high (hh x (by simp [hx])), Bool.and_false]
    · have hh := utf8Char_high (c := c) (by omega)
      obtain ⟨x, xs, hx⟩ := List.exists_cons_of_ne_nil (String.utf8EncodeChar_ne_nil (c := c))
      rw [hx]
      have h1 := hexB_high (hh x (by simp [hx]))
      have h2 := isHexDigit_high (c := c) (by omega)
      rw [List.cons_append]
      have e1 : ∀ l, hex2B (x :: l) = false := by intro l; cases l <;> simp [hex2B, h1]
      have e2 : hex2 (c :: s) = false := by cases s <;> simp [hex2, h2]
      rw [e1, e2]

theorem noEscB_append_high {xs bs : List UInt8} (h : ∀ x ∈ xs, 0x80 ≤ x.toNat) : noEscB (xs ++ bs) = noEscB bs := by
  induction xs with
  | nil => rfl
  | cons x xs ih =>
    have hx := h x (by simp)
    have : (x == 0x25) = false := by
      apply beq_false_of_ne; intro e; subst e; revert hx; decide
    rw [List.cons_append, noEscB, ih (fun y hy => h y (by simp [hy])), this]; rfl

theorem noEscB_utf8 (s : Str) : noEscB (utf8 s) = noEscape s := by
  induction s with
  | nil => rfl
  | cons c s ih =>
    rw [utf8_cons]
    by_cases hc : c.toNat ≤ 127
    · rw [utf8Char_ascii hc, List.cons_append, List.nil_append, noEscB, noEscape, hex2B_utf8, ih]
      congr 3
      rw [Bool.eq_iff_iff]
      simp only [beq_iff_eq]
      constructor
      · intro h
        have : (UInt8.ofNat c.toNat).toNat = 0x25 := by rw [h]; rfl
        rw [UInt8.toNat_ofNat'] at this
        apply Char.toNat_inj.1
        have h25 : '%'.toNat = 37 := rfl
        omega
      · rintro rfl; rfl
    · rw [noEscB_append_high (utf8Char_high (by omega)), ih, noEscape]
      have : (c == '%') = false := by
        apply beq_false_of_ne; rintro rfl; exact hc (by decide)
      rw [this]; rfl

/-- Decoding what was percent-encoded gives it back, provided the text has no `%XX` in it. -/
theorem pctDecode_pctEncode {set : UInt8 → Bool} {s : Str} (h : noEscape s = true) : pctDecode (pctEncode set s) = some s := by
  unfold pctDecode
  have : pctEncode set s = (utf8 s).flatMap (encByte set) := rfl
  rw [this, pctDecodeBytes_enc (by rw [noEscB_utf8]; exact h), fromUtf8_utf8]

/-- Decoding text without `%XX` changes nothing. -/
theorem pctDecode_raw {s : Str} (h : noEscape s = true) : pctDecode s = some s := by
  unfold pctDecode
  rw [pctDecodeBytes_raw (by rw [noEscB_utf8]; exact h), fromUtf8_utf8]

theorem upperHex_mem : ∀ n < 16, upperHex n ∈ "0123456789ABCDEF".toList := by decide

/-- A character of the escaped text is `%`, an upper case hexadecimal digit, or an ASCII character outside of the set. -/
theorem mem_pctEncode {set : UInt8 → Bool} {s : Str} {c : Char} (h : c ∈ pctEncode set s) :
    c = '%' ∨ c ∈ "0123456789ABCDEF".toList ∨ (c.toNat ≤ 127 ∧ set (UInt8.ofNat c.toNat) = false) := by
  unfold pctEncode at h
  obtain ⟨b, _, hb⟩ := List.mem_flatMap.1 h
  split at hb
  · have h1 : b.toNat / 16 < 16 := by have := b.toNat_lt; omega
    have h2 : b.toNat % 16 < 16 := by omega
    simp only [pctByte, List.mem_cons, List.not_mem_nil, or_false] at hb
    rcases hb with rfl | rfl | rfl
    · exact Or.inl rfl
    · exact Or.inr (Or.inl (upperHex_mem _ h1))
    · exact Or.inr (Or.inl (upperHex_mem _ h2))
  · rename_i hn
    rw [not_or] at hn
    simp only [List.mem_singleton] at hb
    subst hb
    rw [toNat_ofNat_small (by omega), UInt8.ofNat_toNat]
    exact Or.inr (Or.inr ⟨by omega, by simpa using hn.2⟩)

end Rust
