import Verif.Rust.Str
/-!
# Instrument names and units (`opentelemetry-sdk/src/metrics/meter.rs`) (C46)
-/

namespace Otel.Metrics
open Rust

/-- `char::is_ascii_alphabetic` -/
def isAsciiAlphabetic (c : Char) : Bool := isAsciiLower c || isAsciiUpper c

/-- `char::is_ascii_alphanumeric` -/
def isAsciiAlphanumeric (c : Char) : Bool := isAsciiAlphabetic c || isAsciiDigit c

/-- `char::is_ascii` -/
def isAscii (c : Char) : Bool := c.toNat ≤ 0x7F

/-- `INSTRUMENT_NAME_ALLOWED_NON_ALPHANUMERIC_CHARS`. meter.rs:28 -/
def allowedNonAlphanumeric : List Char := ['_', '.', '-', '/']

/-- The reasons for refusing a name or a unit. meter.rs:31-41 -/
inductive NameError where
  | nameEmpty | nameLength | nameFirstAlphabetic | nameInvalidChar | unitLength | unitInvalidChar
deriving DecidableEq

/-- `validate_instrument_name` without the feature that disables it. meter.rs:593-618 -/
def validateName (name : Str) : Except NameError Unit :=
  if name.isEmpty then .error .nameEmpty
  else if byteLen name > 255 then .error .nameLength
  else if (match name with | c :: _ => !isAsciiAlphabetic c | [] => false) then .error .nameFirstAlphabetic
  else if name.any (fun c => !isAsciiAlphanumeric c && !allowedNonAlphanumeric.contains c) then .error .nameInvalidChar
  else .ok ()

/-- `validate_instrument_unit`. meter.rs:620-634 -/
def validateUnit (unit : Option Str) : Except NameError Unit :=
  match unit with
  | some u =>
    if byteLen u > 63 then .error .unitLength
    else if u.any (fun c => !isAscii c) then .error .unitInvalidChar
    else .ok ()
  | none => .ok ()

/-- `validate_instrument_config`. meter.rs:560-562 -/
def validateConfig (name : Str) (unit : Option Str) : Except NameError Unit :=
  match validateName name with
  | .ok () => validateUnit unit
  | .error e => .error e

/-! ## Specification

<https://github.com/open-telemetry/opentelemetry-specification/blob/main/specification/metrics/api.md#instrument-name-syntax>:
`instrument-name = ALPHA 0*254 ("_" / "." / "-" / "/" / ALPHA / DIGIT)`; a unit is at most 63 ASCII characters. -/

/-- `ALPHA` of RFC 5234: code points 0x41-0x5A and 0x61-0x7A. -/
def Alpha (c : Char) : Prop := (0x41 ≤ c.toNat ∧ c.toNat ≤ 0x5A) ∨ (0x61 ≤ c.toNat ∧ c.toNat ≤ 0x7A)
/-- `DIGIT` of RFC 5234. -/
def Digit (c : Char) : Prop := 0x30 ≤ c.toNat ∧ c.toNat ≤ 0x39

/-- A valid instrument name. -/
def ValidName (s : Str) : Prop :=
  ∃ c t, s = c :: t ∧ Alpha c ∧ t.length ≤ 254 ∧ ∀ d ∈ t, d = '_' ∨ d = '.' ∨ d = '-' ∨ d = '/' ∨ Alpha d ∨ Digit d

/-- A valid unit. -/
def ValidUnit (s : Str) : Prop := s.length ≤ 63 ∧ ∀ c ∈ s, c.toNat < 128

theorem char_le_iff (a b : Char) : a ≤ b ↔ a.toNat ≤ b.toNat := by
  rw [Char.le_def, UInt32.le_iff_toNat_le]; rfl

theorem alphabetic_iff (c : Char) : isAsciiAlphabetic c = true ↔ Alpha c := by
  unfold isAsciiAlphabetic isAsciiLower isAsciiUpper Alpha
  simp only [Bool.or_eq_true, Bool.and_eq_true, decide_eq_true_eq, char_le_iff]
  rw [show 'a'.toNat = 0x61 from rfl, show 'z'.toNat = 0x7A from rfl, show 'A'.toNat = 0x41 from rfl, show 'Z'.toNat = 0x5A from rfl]
  exact Or.comm

theorem digit_iff (c : Char) : isAsciiDigit c = true ↔ Digit c := by
  unfold isAsciiDigit Digit
  simp only [Bool.and_eq_true, decide_eq_true_eq, char_le_iff]
  exact Iff.rfl

theorem utf8Size_ascii (c : Char) (h : c.toNat < 128) : c.utf8Size = 1 := by
  unfold Char.utf8Size
  have : c.val ≤ 0x7F := by rw [UInt32.le_iff_toNat_le]; exact Nat.le_of_lt_succ h
  simp [this]

theorem byteLen_ascii (s : Str) (h : ∀ c ∈ s, c.toNat < 128) : byteLen s = s.length := by
  induction s with
  | nil => rfl
  | cons c s ih =>
    rw [byteLen_cons, utf8Size_ascii c (h c List.mem_cons_self), ih (fun d hd => h d (List.mem_cons_of_mem _ hd)), List.length_cons]
    omega

/-- The characters accepted anywhere in a name. -/
theorem nameChar_iff (c : Char) : (!isAsciiAlphanumeric c && !allowedNonAlphanumeric.contains c) = false ↔
    (c = '_' ∨ c = '.' ∨ c = '-' ∨ c = '/' ∨ Alpha c ∨ Digit c) := by
  unfold isAsciiAlphanumeric allowedNonAlphanumeric
  rw [← alphabetic_iff, ← digit_iff]
  cases isAsciiAlphabetic c <;> cases isAsciiDigit c <;> simp
  by_cases h1 : c = '_' <;> by_cases h2 : c = '.' <;> by_cases h3 : c = '-' <;> simp [h1, h2, h3]

theorem nameChar_ascii (c : Char) (h : c = '_' ∨ c = '.' ∨ c = '-' ∨ c = '/' ∨ Alpha c ∨ Digit c) : c.toNat < 128 := by
  rcases h with rfl | rfl | rfl | rfl | (h | h) | h
  · decide
  · decide
  · decide
  · decide
  · omega
  · omega
  · unfold Digit at h; omega

/-- **C46.** A name is accepted exactly when it follows the naming syntax. -/
theorem name_valid_iff (s : Str) : validateName s = .ok () ↔ ValidName s := by
  unfold validateName ValidName
  cases s with
  | nil => simp
  | cons c t =>
    simp only [List.isEmpty_cons, Bool.false_eq_true, if_false]
    constructor
    · intro h
      split at h
      · cases h
      · rename_i hlen
        split at h
        · cases h
        · rename_i ha
          split at h
          · cases h
          · rename_i hany
            have hall : ∀ d ∈ c :: t, d = '_' ∨ d = '.' ∨ d = '-' ∨ d = '/' ∨ Alpha d ∨ Digit d := by
              intro d hd
              rw [← nameChar_iff]
              cases hx : (!isAsciiAlphanumeric d && !allowedNonAlphanumeric.contains d) with
              | false => rfl
              | true => exact absurd (List.any_eq_true.2 ⟨d, hd, hx⟩) hany
            refine ⟨c, t, rfl, (alphabetic_iff c).1 (by simpa using ha), ?_, fun d hd => hall d (List.mem_cons_of_mem _ hd)⟩
            rw [byteLen_ascii _ (fun d hd => nameChar_ascii d (hall d hd)), List.length_cons] at hlen
            omega
    · rintro ⟨c', t', he, ha, hlen, hall⟩
      obtain ⟨rfl, rfl⟩ := List.cons.inj he
      have hall' : ∀ d ∈ c :: t, d = '_' ∨ d = '.' ∨ d = '-' ∨ d = '/' ∨ Alpha d ∨ Digit d := by
        intro d hd
        rcases List.mem_cons.1 hd with rfl | hd
        · exact Or.inr (Or.inr (Or.inr (Or.inr (Or.inl ha))))
        · exact hall d hd
      rw [if_neg (by rw [byteLen_ascii _ (fun d hd => nameChar_ascii d (hall' d hd)), List.length_cons]; omega)]
      rw [if_neg (by rw [(alphabetic_iff c).2 ha]; simp)]
      rw [if_neg]
      intro hany
      obtain ⟨d, hd, hx⟩ := List.any_eq_true.1 hany
      rw [(nameChar_iff d).2 (hall' d hd)] at hx
      cases hx

/-- **C46.** A unit is accepted exactly when it has at most 63 ASCII characters; no unit is accepted too. -/
theorem unit_valid_iff (u : Option Str) : validateUnit u = .ok () ↔ ∀ s, u = some s → ValidUnit s := by
  cases u with
  | none => simp [validateUnit]
  | some s =>
    unfold validateUnit ValidUnit
    have hasc : ∀ c, isAscii c = true ↔ c.toNat < 128 := by
      intro c; unfold isAscii; rw [decide_eq_true_eq]; omega
    constructor
    · intro h s' hs'
      obtain rfl := Option.some.inj hs'
      dsimp only at h
      split at h
      · cases h
      · rename_i hlen
        split at h
        · cases h
        · rename_i hany
          have hall : ∀ c ∈ s, c.toNat < 128 := by
            intro c hc
            rw [← hasc]
            cases hx : isAscii c with
            | true => rfl
            | false => exact absurd (List.any_eq_true.2 ⟨c, hc, by rw [hx]; rfl⟩) hany
          rw [byteLen_ascii s hall] at hlen
          exact ⟨by omega, hall⟩
    · intro h
      obtain ⟨hlen, hall⟩ := h s rfl
      dsimp only
      rw [if_neg (by rw [byteLen_ascii s hall]; omega), if_neg]
      intro hany
      obtain ⟨c, hc, hx⟩ := List.any_eq_true.1 hany
      rw [(hasc c).2 (hall c hc)] at hx
      cases hx

/-- **C46.** Both together. -/
theorem config_valid_iff (name : Str) (unit : Option Str) :
    validateConfig name unit = .ok () ↔ ValidName name ∧ ∀ s, unit = some s → ValidUnit s := by
  rw [← name_valid_iff, ← unit_valid_iff]
  unfold validateConfig
  cases h : validateName name with
  | ok u => simp
  | error e => simp

/-- The default names of the documentation are valid, a leading digit is not, a space is not. -/
example : ValidName "http.server/request-duration_1".toList := (name_valid_iff _).1 (by decide)
example : ¬ ValidName "1abc".toList := fun h => absurd ((name_valid_iff _).2 h) (by decide)
example : ¬ ValidName "a b".toList := fun h => absurd ((name_valid_iff _).2 h) (by decide)
example : ValidName ('a' :: List.replicate 254 '/') := (name_valid_iff _).1 (by decide +kernel)
example : ¬ ValidName ('a' :: List.replicate 255 '/') := fun h => absurd ((name_valid_iff _).2 h) (by decide +kernel)

end Otel.Metrics
