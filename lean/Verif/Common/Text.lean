import Verif.Common.Attr
import Verif.Rust.Decimal
/-!
# The texts of attribute values (`opentelemetry/src/common.rs`), C102

`Value`'s `Display`, `Value::as_str` and the conversion into `StringValue` give the text that Prometheus labels, Zipkin tags and baggage entries have for an attribute.
-/

namespace Otel.Common
open Rust (Str)

/-- `Display` of `f64` in the standard library: not modelled digit by digit. What is used: texts have none of the characters of arrays, and tell numbers apart; all NaNs are `NaN`. -/
structure FloatText where
  text : BitVec 64 → Str
  ne : ∀ w, text w ≠ []
  plain : ∀ w, ∀ c ∈ text w, c ≠ ',' ∧ c ≠ ']'
  apart : ∀ v w, text v = text w → v = w ∨ (isNan v = true ∧ isNan w = true)

/-! ## Model -/

/-- `Display` of `bool`. -/
def boolText (b : Bool) : Str := if b then "true".toList else "false".toList

/-- The loop over the items: a comma before each but the first (`i > 0`). common.rs:188-197 -/
def itemsText : Nat → List Str → Str
  | _, [] => []
  | i, t :: ts => (if i > 0 then [','] else []) ++ t ++ itemsText (i + 1) ts

/-- `display_array_str`. common.rs:188-197 -/
def arrayText (ts : List Str) : Str := '[' :: itemsText 0 ts ++ [']']

/-- `Display` of `Array`; strings in quotes, as they are. common.rs:168-186 -/
def Arr.text (f : FloatText) : Arr → Str
  | .bools l => arrayText (l.map boolText)
  | .ints l => arrayText (l.map fun i => Rust.fmtInt i.toInt)
  | .floats l => arrayText (l.map f.text)
  | .strs l => arrayText (l.map fun s => '"' :: s.toList ++ ['"'])

/-- `Display` of `Value`. common.rs:378-388 -/
def Val.text (f : FloatText) : Val → Str
  | .bool b => boolText b
  | .int i => Rust.fmtInt i.toInt
  | .float w => f.text w
  | .str s => s.toList
  | .arr a => a.text f

/-- `Value::as_str`. common.rs:318-331 -/
def Val.asStr (f : FloatText) : Val → Str
  | .bool b => boolText b
  | .int i => Rust.fmtInt i.toInt
  | .float w => f.text w
  | .str s => s.toList
  | .arr a => a.text f

/-- `StringValue::from(Value)`. common.rs:306-316 -/
def Val.intoString (f : FloatText) : Val → Str
  | .bool b => boolText b
  | .int i => Rust.fmtInt i.toInt
  | .float w => f.text w
  | .str s => s.toList
  | .arr a => a.text f

/-! ## Specification -/

/-- Two doubles that no text tells apart. -/
def SameFloat (v w : BitVec 64) : Prop := v = w ∨ (isNan v = true ∧ isNan w = true)

/-- Both values are of the same type. -/
def SameType : Val → Val → Prop
  | .bool _, .bool _ | .int _, .int _ | .float _, .float _ | .str _, .str _ => True
  | .arr (.bools _), .arr (.bools _) | .arr (.ints _), .arr (.ints _) | .arr (.floats _), .arr (.floats _) | .arr (.strs _), .arr (.strs _) => True
  | _, _ => False

/-- The same value, NaNs taken as equal. -/
def SameValue : Val → Val → Prop
  | .float v, .float w => SameFloat v w
  | .arr (.floats l), .arr (.floats l') => List.Forall₂ SameFloat l l'
  | a, b => a = b

/-- No string of an array of strings has a quotation mark. -/
def NoQuotes : Val → Prop
  | .arr (.strs l) => ∀ s ∈ l, '"' ∉ s.toList
  | _ => True

/-! ## Proofs -/

/-- Follows an item: a comma or the end. -/
def Next (r : Str) : Prop := ∃ c r', r = c :: r' ∧ (c = ',' ∨ c = ']')

/-- The text of an item shows where it ends. -/
def Ends {α : Type} (e : α → Str) (P : α → Prop) (R : α → α → Prop) : Prop :=
  (∀ a, P a → ∃ c t, e a = c :: t ∧ c ≠ ']' ∧ c ≠ ',') ∧ ∀ a b r r', P a → P b → Next r → Next r' → e a ++ r = e b ++ r' → R a b ∧ r = r'

theorem items_next {α : Type} (e : α → Str) (i : Nat) (l : List α) : Next (itemsText (i + 1) (l.map e) ++ [']']) := by
  cases l with
  | nil => exact ⟨']', [], rfl, .inr rfl⟩
  | cons a l => exact ⟨',', _, rfl, .inl rfl⟩

theorem items_later {α : Type} {e : α → Str} {P : α → Prop} {R : α → α → Prop} (h : Ends e P R) (l l' : List α) (hl : ∀ a ∈ l, P a) (hl' : ∀ a ∈ l', P a) (i j : Nat)
    (he : itemsText (i + 1) (l.map e) ++ [']'] = itemsText (j + 1) (l'.map e) ++ [']']) : List.Forall₂ R l l' := by
  induction l generalizing l' i j with
  | nil =>
    cases l' with
    | nil => exact .nil
    | cons b l' =>
      have : (']' : Char) = ',' := (List.cons.inj he).1
      exact absurd this (by decide)
  | cons a l ih =>
    cases l' with
    | nil =>
      have : (',' : Char) = ']' := (List.cons.inj he).1
      exact absurd this (by decide)
    | cons b l' =>
      have he' : e a ++ (itemsText (i + 1 + 1) (l.map e) ++ [']']) = e b ++ (itemsText (j + 1 + 1) (l'.map e) ++ [']']) := by
        have := (List.cons.inj he).2
        simpa [itemsText] using this
      obtain ⟨h1, h2⟩ := h.2 a b _ _ (hl a (by simp)) (hl' b (by simp)) (items_next e _ l) (items_next e _ l') he'
      exact .cons h1 (ih l' (fun a ha => hl a (by simp [ha])) (fun a ha => hl' a (by simp [ha])) _ _ h2)

theorem array_items {α : Type} {e : α → Str} {P : α → Prop} {R : α → α → Prop} (h : Ends e P R) (l l' : List α) (hl : ∀ a ∈ l, P a) (hl' : ∀ a ∈ l', P a)
    (he : arrayText (l.map e) = arrayText (l'.map e)) : List.Forall₂ R l l' := by
  have he := (List.cons.inj he).2
  cases l with
  | nil =>
    cases l' with
    | nil => exact .nil
    | cons b l' =>
      obtain ⟨c, t, hc, hne, _⟩ := h.1 b (hl' b (by simp))
      simp only [List.map_cons, itemsText, hc] at he
      exact absurd (List.cons.inj he).1.symm hne
  | cons a l =>
    cases l' with
    | nil =>
      obtain ⟨c, t, hc, hne, _⟩ := h.1 a (hl a (by simp))
      simp only [List.map_cons, itemsText, hc] at he
      exact absurd (List.cons.inj he).1 hne
    | cons b l' =>
      have he' : e a ++ (itemsText (0 + 1) (l.map e) ++ [']']) = e b ++ (itemsText (0 + 1) (l'.map e) ++ [']']) := by simpa [itemsText] using he
      obtain ⟨h1, h2⟩ := h.2 a b _ _ (hl a (by simp)) (hl' b (by simp)) (items_next e _ l) (items_next e _ l') he'
      exact .cons h1 (items_later h l l' (fun a ha => hl a (by simp [ha])) (fun a ha => hl' a (by simp [ha])) _ _ h2)

/-- Two texts without a set of characters, each followed by one of them. -/
theorem split_at (Q : Char → Prop) {s t r r' : Str} (hs : ∀ c ∈ s, ¬ Q c) (ht : ∀ c ∈ t, ¬ Q c) (hr : ∃ c r0, r = c :: r0 ∧ Q c) (hr' : ∃ c r0, r' = c :: r0 ∧ Q c)
    (h : s ++ r = t ++ r') : s = t ∧ r = r' := by
  induction s generalizing t with
  | nil =>
    cases t with
    | nil => exact ⟨rfl, h⟩
    | cons c t =>
      obtain ⟨d, r0, rfl, hd⟩ := hr
      have := (List.cons.inj h).1
      exact absurd hd (this ▸ ht c (by simp))
  | cons c s ih =>
    cases t with
    | nil =>
      obtain ⟨d, r0, rfl, hd⟩ := hr'
      have := (List.cons.inj h).1
      exact absurd hd (this ▸ hs c (by simp))
    | cons d t =>
      obtain ⟨h1, h2⟩ := List.cons.inj h
      obtain ⟨h3, h4⟩ := ih (fun x hx => hs x (by simp [hx])) (fun x hx => ht x (by simp [hx])) h2
      exact ⟨by rw [h1, h3], h4⟩

theorem ends_plain {α : Type} (e : α → Str) (R : α → α → Prop) (hne : ∀ a, e a ≠ []) (hp : ∀ a, ∀ c ∈ e a, c ≠ ',' ∧ c ≠ ']') (hR : ∀ a b, e a = e b → R a b) :
    Ends e (fun _ => True) R := by
  refine ⟨fun a _ => ?_, fun a b r r' _ _ hr hr' h => ?_⟩
  · cases he : e a with
    | nil => exact absurd he (hne a)
    | cons c t => exact ⟨c, t, rfl, (hp a c (by rw [he]; simp)).2, (hp a c (by rw [he]; simp)).1⟩
  · obtain ⟨h1, h2⟩ := split_at (fun c => c = ',' ∨ c = ']') (fun c hc hq => hq.elim (hp a c hc).1 (hp a c hc).2) (fun c hc hq => hq.elim (hp b c hc).1 (hp b c hc).2) hr hr' h
    exact ⟨hR a b h1, h2⟩

theorem fmtNatF_digits (fuel n : Nat) : ∀ c ∈ Rust.fmtNatF fuel n, c ∈ "0123456789".toList := by
  have hd : ∀ d, d < 10 → Rust.decDigit d ∈ "0123456789".toList := fun d h => List.mem_of_getElem? (Rust.isDecDigit_decDigit h)
  induction fuel generalizing n with
  | zero => intro c hc; cases hc
  | succ fuel ih =>
    intro c hc
    unfold Rust.fmtNatF at hc
    split at hc
    · rename_i hn
      rw [List.mem_singleton.1 hc]; exact hd n hn
    · rcases List.mem_append.1 hc with hc | hc
      · exact ih _ c hc
      · rw [List.mem_singleton.1 hc]; exact hd _ (by omega)

theorem fmtInt_chars (i : Int) : ∀ c ∈ Rust.fmtInt i, c ∈ "-0123456789".toList := by
  intro c hc
  unfold Rust.fmtInt at hc
  have key : ∀ n, c ∈ Rust.fmtNat n → c ∈ "-0123456789".toList := fun n h => List.mem_cons.2 (.inr (fmtNatF_digits _ n c h))
  split at hc
  · rcases List.mem_cons.1 hc with rfl | hc
    · decide
    · exact key _ hc
  · exact key _ hc

theorem fmtInt_ne (i : Int) : Rust.fmtInt i ≠ [] := by
  obtain ⟨ds, h1, _, h3, _⟩ := Rust.fmtInt_decText i
  rw [h3]; split
  · simp
  · exact h1

theorem fmtInt_inj {i j : Int} (h : Rust.fmtInt i = Rust.fmtInt j) : i = j := by
  obtain ⟨ds, h1, h2, h3, _⟩ := Rust.fmtInt_decText i
  obtain ⟨es, g1, g2, g3, _⟩ := Rust.fmtInt_decText j
  have hdig : ∀ n, '-' ∉ Rust.fmtNat n := fun n hc => by have := fmtNatF_digits _ n _ hc; exact absurd this (by decide)
  unfold Rust.fmtInt at h h3 g3
  by_cases hi : i < 0 <;> by_cases hj : j < 0
  · simp only [hi, hj, if_true] at h h3 g3
    have hd := (List.cons.inj h3).2
    have he := (List.cons.inj g3).2
    have := Rust.decNum_unique (hd ▸ h2) ((List.cons.inj h).2 ▸ (he ▸ g2))
    omega
  · simp only [hi, hj, if_true, if_false] at h
    exact absurd (h ▸ List.mem_cons_self) (hdig j.natAbs)
  · simp only [hi, hj, if_true, if_false] at h
    exact absurd (h ▸ List.mem_cons_self) (hdig i.natAbs)
  · simp only [hi, hj, if_false] at h h3 g3
    have := Rust.decNum_unique (h3 ▸ h2) (h ▸ (g3 ▸ g2))
    omega

theorem forall₂_eq {α : Type} {l l' : List α} (h : List.Forall₂ (fun a b => a = b) l l') : l = l' := by
  induction h with
  | nil => rfl
  | cons h _ ih => rw [h, ih]

theorem ends_bool : Ends boolText (fun _ => True) fun a b => a = b := by
  refine ends_plain _ _ ?_ ?_ ?_ <;> decide

theorem ends_int : Ends (fun i : BitVec 64 => Rust.fmtInt i.toInt) (fun _ => True) fun a b => a = b := by
  refine ends_plain _ _ (fun _ => fmtInt_ne _) (fun a c hc => ?_) fun a b h => BitVec.eq_of_toInt_eq (fmtInt_inj h)
  have : ∀ c ∈ "-0123456789".toList, c ≠ ',' ∧ c ≠ ']' := by decide
  exact this c (fmtInt_chars _ c hc)

theorem ends_quoted : Ends (fun s : String => '"' :: s.toList ++ ['"']) (fun s => '"' ∉ s.toList) fun a b => a = b := by
  refine ⟨fun a _ => ⟨'"', _, rfl, by decide, by decide⟩, fun a b r r' ha hb _ _ h => ?_⟩
  have h : (a.toList ++ ['"']) ++ r = (b.toList ++ ['"']) ++ r' := (List.cons.inj h).2
  rw [List.append_assoc, List.append_assoc] at h
  obtain ⟨h1, h2⟩ := split_at (fun c => c = '"') (fun c hc hq => ha (hq ▸ hc)) (fun c hc hq => hb (hq ▸ hc)) ⟨'"', _, rfl, rfl⟩ ⟨'"', _, rfl, rfl⟩ h
  exact ⟨String.toList_inj.1 h1, (List.cons.inj h2).2⟩

/-- **C102.** The text of an integer is its usual decimal numeral, that of a truth value `true` or `false`, that of a string the string; the three ways to get the text agree. -/
theorem value_texts (f : FloatText) (v : Val) : v.asStr f = v.text f ∧ v.intoString f = v.text f ∧
    (∀ i, v = .int i → Rust.DecText (v.text f) i.toInt) ∧ (∀ b, v = .bool b → v.text f = (if b then "true".toList else "false".toList)) ∧
    ∀ s, v = .str s → v.text f = s.toList := by
  refine ⟨by cases v <;> rfl, by cases v <;> rfl, ?_, ?_, ?_⟩
  · rintro i rfl; exact Rust.fmtInt_decText _
  · rintro b rfl; rfl
  · rintro s rfl; rfl

/-- **C102.** Values of one type with the same text are the same; for arrays of strings, if no string has a quotation mark. -/
theorem text_tells_values_partial (f : FloatText) {v w : Val} (ht : SameType v w) (hv : NoQuotes v) (hw : NoQuotes w) (h : v.text f = w.text f) : SameValue v w := by
  cases v with
  | bool a => cases w with
    | bool b => show Val.bool a = Val.bool b; cases a <;> cases b <;> first | rfl | cases h
    | _ => cases ht
  | int a => cases w with
    | int b => exact congrArg Val.int (BitVec.eq_of_toInt_eq (fmtInt_inj h))
    | _ => cases ht
  | float a => cases w with
    | float b => exact f.apart a b h
    | _ => cases ht
  | str a => cases w with
    | str b => exact congrArg Val.str (String.toList_inj.1 h)
    | _ => cases ht
  | arr a => cases w with
    | arr b => cases a with
      | bools l => cases b with
        | bools l' => exact congrArg (fun l => Val.arr (.bools l)) (forall₂_eq (array_items ends_bool l l' (fun _ _ => trivial) (fun _ _ => trivial) h))
        | _ => cases ht
      | ints l => cases b with
        | ints l' => exact congrArg (fun l => Val.arr (.ints l)) (forall₂_eq (array_items ends_int l l' (fun _ _ => trivial) (fun _ _ => trivial) h))
        | _ => cases ht
      | floats l => cases b with
        | floats l' => exact array_items (ends_plain f.text SameFloat f.ne f.plain f.apart) l l' (fun _ _ => trivial) (fun _ _ => trivial) h
        | _ => cases ht
      | strs l => cases b with
        | strs l' => exact congrArg (fun l => Val.arr (.strs l)) (forall₂_eq (array_items ends_quoted l l' hv hw h))
        | _ => cases ht
    | _ => cases a <;> cases ht

/-- **C102 (finding).** Strings in arrays are not escaped: an array of one string has the text of an array of two. -/
theorem string_array_violated (f : FloatText) : ∃ v w : Val, SameType v w ∧ ¬ SameValue v w ∧ v.text f = w.text f ∧ v.text f = "[\"a\",\"b\"]".toList := by
  refine ⟨.arr (.strs ["a\",\"b"]), .arr (.strs ["a", "b"]), trivial, ?_, rfl, rfl⟩
  intro h
  have := Arr.strs.inj (Val.arr.inj h)
  exact absurd this (by decide)

/-- **C102 (finding).** Texts do not tell types apart: 1 and `"1"`, and empty arrays of any type. -/
theorem text_types_violated (f : FloatText) : (Val.int 1).text f = (Val.str "1").text f ∧ (Val.bool true).text f = (Val.str "true").text f ∧
    (Val.arr (.ints [])).text f = (Val.arr (.strs [])).text f ∧ (Val.arr (.ints [1])).text f = (Val.str "[1]").text f := by
  exact ⟨rfl, rfl, rfl, rfl⟩

/-- Beside `text_tells_values_partial`: an array with its text. -/
example (f : FloatText) : (Val.arr (.strs ["a,b", ""])).text f = "[\"a,b\",\"\"]".toList ∧ NoQuotes (.arr (.strs ["a,b", ""])) := by
  refine ⟨rfl, ?_⟩
  intro s hs
  simp only [List.mem_cons, List.not_mem_nil, or_false] at hs
  rcases hs with rfl | rfl <;> decide

end Otel.Common
