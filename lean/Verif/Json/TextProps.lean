import Verif.Json.Text
/-!
# What is written as JSON text is read as it was (C119)
-/

namespace Otel.JsonText
open Rust Otel.Otlp.Json

/-! ## Specification -/

/-- The text of a double is a number with a fraction or an exponent. -/
def FloatText (t : Str) : Prop :=
  (∀ c ∈ t, numChar c = true) ∧ (let u := if t.head? = some '-' then t.tail else t
    intPart (u.takeWhile isAsciiDigit) = true ∧ fracExp (u.dropWhile isAsciiDigit) = true)

mutual
/-- The doubles of a document. -/
def floats : Json → List (BitVec 64)
  | .float f => [f]
  | .arr xs => floatsList xs
  | .obj fs => floatsObj fs
  | .null => []
  | .bool _ => []
  | .int _ => []
  | .str _ => []
def floatsList : List Json → List (BitVec 64)
  | [] => []
  | x :: xs => floats x ++ floatsList xs
def floatsObj : List (String × Json) → List (BitVec 64)
  | [] => []
  | (_, x) :: fs => floats x ++ floatsObj fs
end

/-- A layout that adds white space only. -/
structure Spacing (L : Layout) : Prop where
  nl : ∀ n, ∀ c ∈ L.nl n, isWs c = true
  colon : ∃ s, L.colon = ':' :: s ∧ ∀ c ∈ s, isWs c = true

theorem spacing_compact : Spacing compact := ⟨by simp [compact], [], rfl, by simp⟩

theorem spacing_pretty : Spacing pretty := by
  refine ⟨fun n c hc => ?_, [' '], rfl, by decide⟩
  simp only [pretty, List.mem_cons, List.mem_replicate] at hc
  rcases hc with rfl | ⟨_, rfl⟩ <;> decide

/-! ## Lemmas -/

theorem ws_skip {a : Str} (h : ∀ c ∈ a, isWs c = true) (s : Str) : ws (a ++ s) = ws s := by
  unfold ws
  rw [List.dropWhile_append_of_pos h]

theorem ws_stop {c : Char} (h : isWs c = false) (s : Str) : ws (c :: s) = c :: s := by
  unfold ws
  rw [List.dropWhile_cons, h]; simp

/-- No character of a string is taken for the end of the string, and each is read as it was. -/
theorem stringBody_escape (s rest : Str) (fuel : Nat) (h : s.length < fuel) : stringBody fuel (s.flatMap escape ++ '"' :: rest) = some (s, rest) := by
  induction s generalizing fuel with
  | nil =>
    cases fuel with
    | zero => simp at h
    | succ fuel => simp [stringBody]
  | cons c s ih =>
    cases fuel with
    | zero => simp at h
    | succ fuel =>
      have ih := ih fuel (by simp only [List.length_cons] at h; omega)
      have back : ∀ (e : Char) (es : Str), escape c = '\\' :: e :: es → (∀ r, escaped (e :: es ++ r) = some (c, r)) →
          stringBody (fuel + 1) (escape c ++ (s.flatMap escape ++ '"' :: rest)) = some (c :: s, rest) := by
        intro e es he hr
        rw [he]
        simp only [List.cons_append, stringBody]
        rw [if_neg (by decide), if_pos trivial]
        have := hr (s.flatMap escape ++ '"' :: rest)
        simp only [List.cons_append] at this
        rw [this]
        simp only [Option.bind_eq_bind, Option.bind_some, ih]
      rw [List.flatMap_cons, List.append_assoc]
      have low : ∀ n < 0x20, escape (Char.ofNat n) = '\\' :: (escape (Char.ofNat n)).tail ∧ (escape (Char.ofNat n)).tail ≠ [] ∧
          ∀ r, escaped ((escape (Char.ofNat n)).tail ++ r) = some (Char.ofNat n, r) := by
        intro n hn
        have : n ∈ List.range 0x20 := List.mem_range.2 hn
        simp only [List.range, List.range.loop, List.mem_cons, List.not_mem_nil, or_false] at this
        refine ⟨?_, ?_, fun r => ?_⟩ <;>
        (rcases this with rfl | rfl | rfl | rfl | rfl | rfl | rfl | rfl | rfl | rfl | rfl | rfl | rfl | rfl | rfl | rfl | rfl | rfl | rfl | rfl | rfl | rfl | rfl | rfl | rfl | rfl | rfl | rfl | rfl | rfl | rfl | rfl <;> first | rfl | decide)
      by_cases hq : c = '"'
      · subst hq; exact back '"' [] rfl fun r => rfl
      by_cases hb : c = '\\'
      · subst hb; exact back '\\' [] rfl fun r => rfl
      by_cases hl : c.toNat < 0x20
      · obtain ⟨h1, h2, h3⟩ := low c.toNat hl
        rw [Char.ofNat_toNat] at h1 h2 h3
        cases ht : (escape c).tail with
        | nil => exact absurd ht h2
        | cons e es =>
          rw [ht] at h1 h3
          exact back e es h1 h3
      · have he : escape c = [c] := by
          unfold escape
          rw [if_neg hq, if_neg hb, if_neg (by omega), if_neg (by omega), if_neg (by omega), if_neg (by omega), if_neg (by omega), if_neg hl]
        rw [he]
        simp only [List.cons_append, List.nil_append, stringBody]
        rw [if_neg hq, if_neg hb, if_neg hl, ih]
        rfl

theorem length_flatMap_escape (s : Str) : s.length ≤ (s.flatMap escape).length := by
  induction s with
  | nil => simp
  | cons c s ih =>
    rw [List.flatMap_cons, List.length_append, List.length_cons]
    have : 1 ≤ (escape c).length := by
      unfold escape
      repeat' split
      all_goals simp
    omega

theorem isAsciiDigit_decDigit {d : Nat} (h : d < 10) : isAsciiDigit (decDigit d) = true ∧ (decDigit d).toNat - 48 = d := by
  have : ∀ d ∈ List.range 10, isAsciiDigit (decDigit d) = true ∧ (decDigit d).toNat - 48 = d := by decide
  exact this d (List.mem_range.2 h)

theorem fmtNatF_digits (fuel n : Nat) (h : n < fuel) : (∀ c ∈ fmtNatF fuel n, isAsciiDigit c = true) ∧ decimal (fmtNatF fuel n) = n := by
  induction fuel generalizing n with
  | zero => omega
  | succ fuel ih =>
    unfold fmtNatF
    split
    · rename_i hn
      have := isAsciiDigit_decDigit hn
      refine ⟨by simpa using this.1, ?_⟩
      simp only [decimal, List.foldl_cons, List.foldl_nil]
      omega
    · have h1 := ih (n / 10) (by omega)
      have h2 := isAsciiDigit_decDigit (d := n % 10) (by omega)
      refine ⟨fun c hc => ?_, ?_⟩
      · rcases List.mem_append.1 hc with hc | hc
        · exact h1.1 c hc
        · simp only [List.mem_singleton] at hc; rw [hc]; exact h2.1
      · have h3 := h1.2
        unfold decimal at h3 ⊢
        rw [List.foldl_append, h3]
        simp only [List.foldl_cons, List.foldl_nil]
        omega

theorem numChar_digit {c : Char} (h : isAsciiDigit c = true) : numChar c = true := by simp [numChar, h]

theorem takeWhile_all {p : Char → Bool} {a : Str} (h : ∀ c ∈ a, p c = true) : a.takeWhile p = a ∧ a.dropWhile p = [] := by
  have h1 := List.takeWhile_append_of_pos (l₂ := []) h
  have h2 := List.dropWhile_append_of_pos (l₂ := []) h
  simp only [List.append_nil, List.takeWhile_nil, List.dropWhile_nil] at h1 h2
  exact ⟨h1, h2⟩

theorem number_int (rf : Str → BitVec 64) (i : Int) : number rf (fmtInt i) = some (.int i) ∧ fmtInt i ≠ [] ∧ ∀ c ∈ fmtInt i, numChar c = true := by
  obtain ⟨h1, h2⟩ := fmtNatF_digits (i.natAbs + 1) i.natAbs (by omega)
  obtain ⟨h3, _, h4⟩ := fmtNatF_spec (i.natAbs + 1) i.natAbs (by omega)
  have hip : intPart (fmtNat i.natAbs) = true := by
    unfold intPart digits1
    rw [Bool.and_eq_true, Bool.and_eq_true]
    refine ⟨⟨by rw [Bool.not_eq_true', List.isEmpty_eq_false_iff]; exact h3, List.all_eq_true.2 h1⟩, ?_⟩
    by_cases h0 : (fmtNat i.natAbs).head? = some '0'
    · rw [Bool.or_eq_true]; right
      have := (h4 h0).2
      unfold fmtNat; rw [this]; rfl
    · simp [h0]
  have hw := takeWhile_all (p := isAsciiDigit) (a := fmtNat i.natAbs) h1
  have hd : decimal (fmtNat i.natAbs) = i.natAbs := h2
  have hne : (fmtNat i.natAbs).head? ≠ some '-' := by
    intro h
    cases hf : fmtNat i.natAbs with
    | nil => rw [hf] at h; simp at h
    | cons c t =>
      rw [hf] at h
      simp only [List.head?_cons, Option.some.injEq] at h
      have := h1 c (by show c ∈ fmtNat i.natAbs; rw [hf]; simp)
      rw [h] at this
      exact absurd this (by decide)
  unfold fmtInt
  split
  · rename_i hneg
    refine ⟨?_, by simp, ?_⟩
    · simp only [number, List.head?_cons, if_true, List.tail_cons, hw.1, hw.2, hip, List.isEmpty_nil, hd]
      congr 2; omega
    · intro c hc
      rcases List.mem_cons.1 hc with rfl | hc
      · decide
      · exact numChar_digit (h1 c hc)
  · rename_i hneg
    refine ⟨?_, h3, fun c hc => numChar_digit (h1 c hc)⟩
    simp only [number, if_neg hne, hw.1, hw.2, hip, List.isEmpty_nil, hd, if_true]
    congr 2; omega

theorem number_float (rf : Str → BitVec 64) {t : Str} (h : FloatText t) : number rf t = some (.float (rf t)) ∧ t ≠ [] := by
  obtain ⟨_, h1, h2⟩ := h
  refine ⟨?_, ?_⟩
  · unfold number
    simp only [h1, h2, if_true]
    rw [if_neg]
    intro h3
    rw [List.isEmpty_iff] at h3
    rw [h3] at h2
    exact absurd h2 (by decide)
  · rintro rfl
    exact absurd h1 (by decide)

/-- The text that follows a value does not go on with a number. -/
def Ends (r : Str) : Prop := ∀ c, r.head? = some c → numChar c = false

theorem takeWhile_ends {p : Char → Bool} {a r : Str} (h : ∀ c ∈ a, p c = true) (hr : ∀ c, r.head? = some c → p c = false) :
    (a ++ r).takeWhile p = a ∧ (a ++ r).dropWhile p = r := by
  rw [List.takeWhile_append_of_pos h, List.dropWhile_append_of_pos h]
  cases r with
  | nil => simp
  | cons c r =>
    have := hr c rfl
    simp [this]

/-- A text that starts like a number is read as one. -/
theorem value_number (rf : Str → BitVec 64) {t rest : Str} {j : Json} (fuel : Nat) (ht : ∀ c ∈ t, numChar c = true) (hne : t ≠ []) (hn : number rf t = some j)
    (hr : Ends rest) : value rf (fuel + 1) (t ++ rest) = some (j, rest) := by
  obtain ⟨h1, h2⟩ := takeWhile_ends ht hr
  cases t with
  | nil => exact absurd rfl hne
  | cons c t =>
    have hc := ht c (by simp)
    have hws : isWs c = false := by
      by_contra h
      rw [Bool.not_eq_false] at h
      simp only [isWs, Bool.or_eq_true, beq_iff_eq] at h
      rcases h with ((rfl | rfl) | rfl) | rfl <;> exact absurd hc (by decide)
    have no : ∀ d, numChar d = false → c ≠ d := fun d hd h => by rw [h, hd] at hc; simp at hc
    simp only [List.cons_append] at h1 h2 ⊢
    simp only [value]
    rw [ws_stop hws]
    simp only
    rw [if_neg (no _ (by decide)), if_neg (no _ (by decide)), if_neg (no _ (by decide)), if_neg (no _ (by decide)), if_neg (no _ (by decide)), if_neg (no _ (by decide)), h1, h2, hn]
    rfl

theorem value_ws (rf : Str → BitVec 64) (fuel : Nat) {a : Str} (h : ∀ c ∈ a, isWs c = true) (s : Str) : value rf fuel (a ++ s) = value rf fuel s := by
  cases fuel with
  | zero => simp only [value]
  | succ fuel => simp only [value, ws_skip h]

theorem after_append (p r : Str) : after p (p ++ r) = some r := by
  induction p with
  | nil => rfl
  | cons c p ih => simp [after, ih]

theorem starts_cons (c : Char) (s : Str) : starts c (c :: s) = true := by simp [starts]

theorem starts_ne {c d : Char} (h : d ≠ c) (s : Str) : starts c (d :: s) = false := by simp [starts, h]

/-- The first character of a written value: neither white space nor the end of an array or object. -/
theorem write_head {L : Layout} {wf : BitVec 64 → Str} (n : Nat) (j : Json) (hf : ∀ f ∈ floats j, FloatText (wf f)) :
    ∃ c t, write L wf n j = c :: t ∧ isWs c = false ∧ c ≠ ']' ∧ c ≠ '}' := by
  have num : ∀ t : Str, t ≠ [] → (∀ c ∈ t, numChar c = true) → ∃ c u, t = c :: u ∧ isWs c = false ∧ c ≠ ']' ∧ c ≠ '}' := by
    intro t hne h
    cases t with
    | nil => exact absurd rfl hne
    | cons c u =>
      have hc := h c (by simp)
      refine ⟨c, u, rfl, ?_, ?_, ?_⟩
      · by_contra h
        rw [Bool.not_eq_false] at h
        simp only [isWs, Bool.or_eq_true, beq_iff_eq] at h
        rcases h with ((rfl | rfl) | rfl) | rfl <;> exact absurd hc (by decide)
      · rintro rfl; exact absurd hc (by decide)
      · rintro rfl; exact absurd hc (by decide)
  match j with
  | .null => exact ⟨'n', _, by rw [write]; rfl, by decide, by decide, by decide⟩
  | .bool true => exact ⟨'t', _, by rw [write]; rfl, by decide, by decide, by decide⟩
  | .bool false => exact ⟨'f', _, by rw [write]; rfl, by decide, by decide, by decide⟩
  | .int i => rw [write]; exact num _ (number_int (fun _ => 0) i).2.1 (number_int (fun _ => 0) i).2.2
  | .float f =>
    have h := hf f (by simp [floats])
    rw [write]; exact num _ (number_float (fun _ => 0) h).2 h.1
  | .str s => exact ⟨'"', _, by rw [write, writeStr]; rfl, by decide, by decide, by decide⟩
  | .arr [] => exact ⟨'[', _, by rw [write]; rfl, by decide, by decide, by decide⟩
  | .arr (x :: xs) => exact ⟨'[', _, by rw [write], by decide, by decide, by decide⟩
  | .obj [] => exact ⟨'{', _, by rw [write]; rfl, by decide, by decide, by decide⟩
  | .obj ((k, x) :: fs) => exact ⟨'{', _, by rw [write], by decide, by decide, by decide⟩

theorem ends_ws {a r : Str} (ha : ∀ c ∈ a, isWs c = true) (hr : Ends r) : Ends (a ++ r) := by
  intro c hc
  cases a with
  | nil => exact hr c hc
  | cons d a =>
    simp only [List.cons_append, List.head?_cons, Option.some.injEq] at hc
    have := ha d (by simp)
    rw [hc] at this
    simp only [isWs, Bool.or_eq_true, beq_iff_eq] at this
    rcases this with ((rfl | rfl) | rfl) | rfl <;> decide

theorem ends_cons {c : Char} (h : numChar c = false) (r : Str) : Ends (c :: r) := by
  intro d hd
  simp only [List.head?_cons, Option.some.injEq] at hd
  rw [← hd]; exact h

/-- A key with the colon after it. -/
theorem key_read {L : Layout} (hL : Spacing L) (k r : Str) :
    starts '"' (ws (writeStr k ++ (L.colon ++ r))) = true ∧
    stringBody ((ws (writeStr k ++ (L.colon ++ r))).length + 1) (ws (writeStr k ++ (L.colon ++ r))).tail = some (k, L.colon ++ r) ∧
    starts ':' (ws (L.colon ++ r)) = true ∧ ∃ s, (∀ c ∈ s, isWs c = true) ∧ (ws (L.colon ++ r)).tail = s ++ r := by
  have hq : ws (writeStr k ++ (L.colon ++ r)) = '"' :: (k.flatMap escape ++ '"' :: (L.colon ++ r)) := by
    unfold writeStr
    simp only [List.cons_append, List.append_assoc, List.nil_append]
    rw [ws_stop (by decide)]
  obtain ⟨s, hs, hw⟩ := hL.colon
  have hc : ws (L.colon ++ r) = ':' :: (s ++ r) := by
    rw [hs, List.cons_append, ws_stop (by decide)]
  refine ⟨by rw [hq]; exact starts_cons _ _, ?_, by rw [hc]; exact starts_cons _ _, s, hw, by rw [hc]; rfl⟩
  rw [hq, List.tail_cons]
  refine stringBody_escape k _ _ ?_
  have := length_flatMap_escape k
  simp only [List.length_cons, List.length_append]
  omega

mutual
/-- A written value is read as it was, whatever follows it. -/
theorem value_write {L : Layout} (hL : Spacing L) {wf : BitVec 64 → Str} (rf : Str → BitVec 64) :
    ∀ (j : Json) (n fuel : Nat) (rest : Str), (∀ f ∈ floats j, FloatText (wf f)) → (write L wf n j).length ≤ fuel → Ends rest →
      value rf fuel (write L wf n j ++ rest) = some (reparse (fun f => rf (wf f)) j, rest)
  | .null, n, fuel, rest, _, hl, _ => by
    rw [write] at hl ⊢
    obtain ⟨m, rfl⟩ : ∃ m, fuel = m + 1 := ⟨fuel - 1, by have : "null".toList.length = 4 := rfl; omega⟩
    show value rf (m + 1) ('n' :: ("ull".toList ++ rest)) = _
    simp only [value, ws_stop (show isWs 'n' = false by decide)]
    rw [if_neg (by decide), if_neg (by decide), if_neg (by decide), if_neg (by decide), if_neg (by decide), if_pos trivial, literal, after_append]
    simp [reparse]
  | .bool true, n, fuel, rest, _, hl, _ => by
    rw [write] at hl ⊢
    obtain ⟨m, rfl⟩ : ∃ m, fuel = m + 1 := ⟨fuel - 1, by have : "true".toList.length = 4 := rfl; omega⟩
    show value rf (m + 1) ('t' :: ("rue".toList ++ rest)) = _
    simp only [value, ws_stop (show isWs 't' = false by decide)]
    rw [if_neg (by decide), if_neg (by decide), if_neg (by decide), if_pos trivial, literal, after_append]
    simp [reparse]
  | .bool false, n, fuel, rest, _, hl, _ => by
    rw [write] at hl ⊢
    obtain ⟨m, rfl⟩ : ∃ m, fuel = m + 1 := ⟨fuel - 1, by have : "false".toList.length = 5 := rfl; omega⟩
    show value rf (m + 1) ('f' :: ("alse".toList ++ rest)) = _
    simp only [value, ws_stop (show isWs 'f' = false by decide)]
    rw [if_neg (by decide), if_neg (by decide), if_neg (by decide), if_neg (by decide), if_pos trivial, literal, after_append]
    simp [reparse]
  | .int i, n, fuel, rest, _, hl, hr => by
    rw [write] at hl ⊢
    obtain ⟨h1, h2, h3⟩ := number_int rf i
    obtain ⟨m, rfl⟩ : ∃ m, fuel = m + 1 := ⟨fuel - 1, by have := List.length_pos_iff.2 h2; omega⟩
    rw [value_number rf m h3 h2 h1 hr, reparse]
  | .float f, n, fuel, rest, hf, hl, hr => by
    have ht := hf f (by simp [floats])
    obtain ⟨h1, h2⟩ := number_float rf ht
    rw [write] at hl ⊢
    obtain ⟨m, rfl⟩ : ∃ m, fuel = m + 1 := ⟨fuel - 1, by have := List.length_pos_iff.2 h2; omega⟩
    rw [value_number rf m ht.1 h2 h1 hr, reparse]
  | .str s, n, fuel, rest, _, hl, _ => by
    rw [write, writeStr] at hl ⊢
    obtain ⟨m, rfl⟩ : ∃ m, fuel = m + 1 := ⟨fuel - 1, by simp only [List.cons_append, List.length_cons] at hl; omega⟩
    simp only [List.cons_append, List.append_assoc, List.nil_append]
    simp only [value, ws_stop (show isWs '"' = false by decide)]
    rw [if_neg (by decide), if_neg (by decide), if_pos trivial, stringBody_escape]
    · simp [reparse]
    · have := length_flatMap_escape s
      simp only [List.length_append, List.length_cons]
      omega
  | .arr [], n, fuel, rest, _, hl, _ => by
    rw [write] at hl ⊢
    obtain ⟨m, rfl⟩ : ∃ m, fuel = m + 1 := ⟨fuel - 1, by have : "[]".toList.length = 2 := rfl; omega⟩
    show value rf (m + 1) ('[' :: ']' :: rest) = _
    simp only [value, ws_stop (show isWs '[' = false by decide), ws_stop (show isWs ']' = false by decide)]
    rw [if_neg (by decide), if_pos trivial, if_pos (starts_cons _ _)]
    simp [reparse, reparseList]
  | .arr (x :: xs), n, fuel, rest, hf, hl, hr => by
    simp only [floats, floatsList, List.mem_append] at hf
    rw [write] at hl ⊢
    simp only [List.length_cons, List.length_append, List.length_nil] at hl
    obtain ⟨m, rfl⟩ : ∃ m, fuel = m + 1 := ⟨fuel - 1, by omega⟩
    obtain ⟨c, t, hc, hcw, hc1, _⟩ := write_head (L := L) (n + 1) x fun f h => hf f (.inl h)
    have he := elements_write hL rf x xs (n + 1) m (L.nl n) rest (fun f h => hf f h) (by omega) (hL.nl n)
    simp only [List.cons_append, List.append_assoc, List.nil_append]
    simp only [value, ws_stop (show isWs '[' = false by decide)]
    rw [if_neg (by decide), if_pos trivial]
    have hstart : starts ']' (ws (L.nl (n + 1) ++ (write L wf (n + 1) x ++ (writeMore L wf (n + 1) xs ++ (L.nl n ++ ']' :: rest))))) = false := by
      rw [ws_skip (hL.nl _), hc, List.cons_append, ws_stop hcw, starts_ne hc1]
    rw [hstart, if_neg (by simp)]
    have hsk : elements rf m (L.nl (n + 1) ++ (write L wf (n + 1) x ++ (writeMore L wf (n + 1) xs ++ (L.nl n ++ ']' :: rest)))) =
        elements rf m (write L wf (n + 1) x ++ (writeMore L wf (n + 1) xs ++ (L.nl n ++ ']' :: rest))) := by
      cases m with
      | zero => simp only [elements]
      | succ m => simp only [elements, value_ws rf m (hL.nl (n + 1))]
    rw [hsk, he]
    simp [reparse]
  | .obj [], n, fuel, rest, _, hl, _ => by
    rw [write] at hl ⊢
    obtain ⟨m, rfl⟩ : ∃ m, fuel = m + 1 := ⟨fuel - 1, by have : "{}".toList.length = 2 := rfl; omega⟩
    show value rf (m + 1) ('{' :: '}' :: rest) = _
    simp only [value, ws_stop (show isWs '{' = false by decide), ws_stop (show isWs '}' = false by decide)]
    rw [if_pos trivial, if_pos (starts_cons _ _)]
    simp [reparse, reparseObj]
  | .obj ((k, x) :: fs), n, fuel, rest, hf, hl, hr => by
    simp only [floats, floatsObj, List.mem_append] at hf
    rw [write] at hl ⊢
    simp only [List.length_cons, List.length_append, List.length_nil] at hl
    obtain ⟨m, rfl⟩ : ∃ m, fuel = m + 1 := ⟨fuel - 1, by omega⟩
    have he := members_write hL rf k x fs (n + 1) m (L.nl n) rest (fun f h => hf f h) (by omega) (hL.nl n)
    simp only [List.cons_append, List.append_assoc, List.nil_append]
    simp only [value, ws_stop (show isWs '{' = false by decide)]
    rw [if_pos trivial]
    have hstart : starts '}' (ws (L.nl (n + 1) ++ (writeStr k.toList ++ (L.colon ++ (write L wf (n + 1) x ++ (writeFields L wf (n + 1) fs ++ (L.nl n ++ '}' :: rest))))))) = false := by
      rw [ws_skip (hL.nl _), writeStr, List.cons_append, List.cons_append, ws_stop (by decide), starts_ne (by decide)]
    rw [hstart, if_neg (by simp)]
    have hsk : ∀ s, members rf m (L.nl (n + 1) ++ s) = members rf m s := by
      intro s
      cases m with
      | zero => simp only [members]
      | succ m => simp only [members, ws_skip (hL.nl (n + 1))]
    rw [hsk, he]
    simp [reparse]
termination_by j => sizeOf j
/-- The elements of a written array are read as they were, up to its end. -/
theorem elements_write {L : Layout} (hL : Spacing L) {wf : BitVec 64 → Str} (rf : Str → BitVec 64) :
    ∀ (x : Json) (xs : List Json) (n fuel : Nat) (a r : Str), (∀ f, f ∈ floats x ∨ f ∈ floatsList xs → FloatText (wf f)) →
      1 + (write L wf n x).length + (writeMore L wf n xs).length ≤ fuel → (∀ c ∈ a, isWs c = true) →
      elements rf fuel (write L wf n x ++ (writeMore L wf n xs ++ (a ++ ']' :: r))) = some (reparseList (fun f => rf (wf f)) (x :: xs), r)
  | x, [], n, fuel, a, r, hf, hl, ha => by
    obtain ⟨m, rfl⟩ : ∃ m, fuel = m + 1 := ⟨fuel - 1, by omega⟩
    rw [writeMore] at hl ⊢
    simp only [List.length_nil] at hl
    rw [List.nil_append, elements, value_write hL rf x n m _ (fun f h => hf f (.inl h)) (by omega) (ends_ws ha (ends_cons (by decide) r))]
    simp only
    rw [ws_skip ha, ws_stop (by decide), starts_ne (by decide), if_neg (by simp), if_pos (starts_cons _ _)]
    simp [reparseList]
  | x, y :: ys, n, fuel, a, r, hf, hl, ha => by
    obtain ⟨m, rfl⟩ : ∃ m, fuel = m + 1 := ⟨fuel - 1, by omega⟩
    rw [writeMore] at hl ⊢
    simp only [List.length_cons, List.length_append] at hl
    simp only [floatsList, List.mem_append] at hf
    have he := elements_write hL rf y ys n m a r (fun f h => hf f (.inr h)) (by omega) ha
    simp only [List.cons_append, List.append_assoc]
    rw [elements, value_write hL rf x n m _ (fun f h => hf f (.inl h)) (by omega) (ends_cons (by decide) _)]
    simp only
    rw [ws_stop (by decide), if_pos (starts_cons _ _), List.tail_cons]
    have hsk : ∀ s, elements rf m (L.nl n ++ s) = elements rf m s := by
      intro s
      cases m with
      | zero => simp only [elements]
      | succ m => simp only [elements, value_ws rf m (hL.nl n)]
    rw [hsk, he]
    simp [reparseList]
termination_by x xs => 1 + sizeOf x + sizeOf xs
/-- The entries of a written object are read as they were, up to its end. -/
theorem members_write {L : Layout} (hL : Spacing L) {wf : BitVec 64 → Str} (rf : Str → BitVec 64) :
    ∀ (k : String) (x : Json) (fs : List (String × Json)) (n fuel : Nat) (a r : Str), (∀ f, f ∈ floats x ∨ f ∈ floatsObj fs → FloatText (wf f)) →
      1 + (write L wf n x).length + (writeFields L wf n fs).length ≤ fuel → (∀ c ∈ a, isWs c = true) →
      members rf fuel (writeStr k.toList ++ (L.colon ++ (write L wf n x ++ (writeFields L wf n fs ++ (a ++ '}' :: r))))) =
        some (reparseObj (fun f => rf (wf f)) ((k, x) :: fs), r)
  | k, x, [], n, fuel, a, r, hf, hl, ha => by
    obtain ⟨m, rfl⟩ : ∃ m, fuel = m + 1 := ⟨fuel - 1, by omega⟩
    rw [writeFields] at hl ⊢
    simp only [List.length_nil] at hl
    obtain ⟨k1, k2, k3, s, hs, k4⟩ := key_read hL k.toList (write L wf n x ++ ([] ++ (a ++ '}' :: r)))
    rw [members, if_pos k1, k2]
    simp only
    rw [if_pos k3, k4, value_ws rf m hs, List.nil_append,
      value_write hL rf x n m _ (fun f h => hf f (.inl h)) (by omega) (ends_ws ha (ends_cons (by decide) r))]
    simp only
    rw [ws_skip ha, ws_stop (by decide), starts_ne (by decide), if_neg (by simp), if_pos (starts_cons _ _)]
    simp [reparseObj]
  | k, x, (k', y) :: fs, n, fuel, a, r, hf, hl, ha => by
    obtain ⟨m, rfl⟩ : ∃ m, fuel = m + 1 := ⟨fuel - 1, by omega⟩
    rw [writeFields] at hl ⊢
    simp only [List.length_cons, List.length_append] at hl
    simp only [floatsObj, List.mem_append] at hf
    have he := members_write hL rf k' y fs n m a r (fun f h => hf f (.inr h)) (by omega) ha
    simp only [List.cons_append, List.append_assoc]
    obtain ⟨k1, k2, k3, s, hs, k4⟩ := key_read hL k.toList
      (write L wf n x ++ ',' :: (L.nl n ++ (writeStr k'.toList ++ (L.colon ++ (write L wf n y ++ (writeFields L wf n fs ++ (a ++ '}' :: r)))))))
    rw [members, if_pos k1, k2]
    simp only
    rw [if_pos k3, k4, value_ws rf m hs, value_write hL rf x n m _ (fun f h => hf f (.inl h)) (by omega) (ends_cons (by decide) _)]
    simp only
    rw [ws_stop (by decide), if_pos (starts_cons _ _), List.tail_cons]
    have hsk : ∀ s, members rf m (L.nl n ++ s) = members rf m s := by
      intro s
      cases m with
      | zero => simp only [members]
      | succ m => simp only [members, ws_skip (hL.nl n)]
    rw [hsk, he]
    simp [reparseObj]
termination_by _ x fs => 1 + sizeOf x + sizeOf fs
end

/-! ## C119 -/

/-- C119. What is written, on one line or on many, a reader of JSON takes for the document that was written: whatever characters names and texts have, whatever is
nested in what. Only a double can come back as another double, the one that its text is read as. -/
theorem text_read_back {L : Layout} (hL : L = compact ∨ L = pretty) (wf : BitVec 64 → Str) (rf : Str → BitVec 64) (j : Json)
    (hf : ∀ f ∈ floats j, FloatText (wf f)) : parse rf (write L wf 0 j) = some (reparse (fun f => rf (wf f)) j) := by
  have hs : Spacing L := by
    rcases hL with rfl | rfl
    · exact spacing_compact
    · exact spacing_pretty
  have h := value_write hs rf j 0 ((write L wf 0 j).length + 1) [] hf (by omega) (by intro c hc; simp at hc)
  rw [List.append_nil] at h
  rw [parse, h]
  rfl

mutual
theorem reparse_exact {g : BitVec 64 → BitVec 64} : ∀ j : Json, (∀ f ∈ floats j, g f = f) → reparse g j = j
  | .null, _ => by rw [reparse]
  | .bool _, _ => by rw [reparse]
  | .int _, _ => by rw [reparse]
  | .float f, h => by rw [reparse, h f (by simp [floats])]
  | .str _, _ => by rw [reparse]
  | .arr xs, h => by rw [reparse, reparseList_exact xs (by simpa only [floats] using h)]
  | .obj fs, h => by rw [reparse, reparseObj_exact fs (by simpa only [floats] using h)]
theorem reparseList_exact {g : BitVec 64 → BitVec 64} : ∀ xs : List Json, (∀ f ∈ floatsList xs, g f = f) → reparseList g xs = xs
  | [], _ => by rw [reparseList]
  | x :: xs, h => by
    simp only [floatsList, List.mem_append] at h
    rw [reparseList, reparse_exact x (fun f hf => h f (.inl hf)), reparseList_exact xs (fun f hf => h f (.inr hf))]
theorem reparseObj_exact {g : BitVec 64 → BitVec 64} : ∀ fs : List (String × Json), (∀ f ∈ floatsObj fs, g f = f) → reparseObj g fs = fs
  | [], _ => by rw [reparseObj]
  | (k, x) :: fs, h => by
    simp only [floatsObj, List.mem_append] at h
    rw [reparseObj, reparse_exact x (fun f hf => h f (.inl hf)), reparseObj_exact fs (fun f hf => h f (.inr hf))]
end

/-- C119. Different documents have different texts, if different doubles have. -/
theorem text_injective {L : Layout} (hL : L = compact ∨ L = pretty) (wf : BitVec 64 → Str) (rf : Str → BitVec 64) (i j : Json)
    (hi : ∀ f ∈ floats i, FloatText (wf f) ∧ rf (wf f) = f) (hj : ∀ f ∈ floats j, FloatText (wf f) ∧ rf (wf f) = f)
    (h : write L wf 0 i = write L wf 0 j) : i = j := by
  have h1 := text_read_back hL wf rf i fun f hf => (hi f hf).1
  have h2 := text_read_back hL wf rf j fun f hf => (hj f hf).1
  rw [h, h2, reparse_exact i (fun f hf => (hi f hf).2), reparse_exact j (fun f hf => (hj f hf).2)] at h1
  exact (Option.some.inj h1).symm

/-- A document with all kinds of values, also with quotes, backslashes and control characters in its texts. -/
def sample : Json := .obj [("a\"\n", .arr [.int (-20), .str "\u0000\u001f\\ é😀\"".toList, .bool true, .null, .arr [], .obj []]), ("", .obj [("b", .bool false)])]

/-- It meets the hypotheses; its texts. -/
example : (∀ f ∈ floats sample, FloatText ((fun _ => []) f)) ∧
    write compact (fun _ => []) 0 sample = "{\"a\\\"\\n\":[-20,\"\\u0000\\u001f\\\\ é😀\\\"\",true,null,[],{}],\"\":{\"b\":false}}".toList ∧
    write pretty (fun _ => []) 0 (.obj [("a", .arr [.int 1, .int 2]), ("b", .arr [])]) = "{\n  \"a\": [\n    1,\n    2\n  ],\n  \"b\": []\n}".toList := by
  refine ⟨by simp [sample, floats, floatsList, floatsObj], by decide +kernel, by decide +kernel⟩

/-- The reader reads what RFC 8259 allows and the writer does not write: white space, other escapes, surrogate pairs, exponents. -/
example : (parse (fun t => if t = "-1.5E+3".toList then 7 else 0) " { \"a\\u00E9\\ud83d\\ude00\" : [ 1 , -1.5E+3 ,\"\\/\" ] } ".toList).map (write compact (fun f => fmtNat f.toNat) 0) =
    some "{\"aé😀\":[1,7,\"/\"]}".toList := by decide +kernel

/-- What it refuses: a comma too many, a leading zero, a control character in a string, half a surrogate pair, something after the document. -/
example : ["[1,]", "[01]", "\"a\nb\"", "\"\\ud83d\"", "1 2", "[1", "{\"a\" 1}", "nul"].map (fun s => (parse (fun _ => 0) s.toList).isNone) = List.replicate 8 true := by decide +kernel

end Otel.JsonText
