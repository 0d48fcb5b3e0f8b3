/-! # The Rust `str` operations the code relies on

Rust's standard library is not in `/repo`; these definitions are the trusted reading of its documentation. A `str` is a
list of Unicode scalar values. -/

namespace Rust

deriving instance DecidableEq for Except

/-- `str` / `String`. -/
abbrev Str := List Char

/-- `str::len`: length in UTF-8 bytes. -/
def byteLen (s : Str) : Nat := (s.map Char.utf8Size).sum

/-- `char::is_whitespace` (Unicode White_Space). -/
def isWhitespace (c : Char) : Bool :=
  let n := c.toNat
  (9 ≤ n && n ≤ 13) || n == 0x20 || n == 0x85 || n == 0xA0 || n == 0x1680 || (0x2000 ≤ n && n ≤ 0x200A) ||
  n == 0x2028 || n == 0x2029 || n == 0x202F || n == 0x205F || n == 0x3000

/-- `char::is_ascii_lowercase`. -/
def isAsciiLower (c : Char) : Bool := 'a' ≤ c && c ≤ 'z'

/-- `char::is_ascii_uppercase`. -/
def isAsciiUpper (c : Char) : Bool := 'A' ≤ c && c ≤ 'Z'

/-- `char::is_ascii_digit`. -/
def isAsciiDigit (c : Char) : Bool := '0' ≤ c && c ≤ '9'

/-- `str::trim_start_matches(p)`. -/
def trimStart (p : Char → Bool) (s : Str) : Str := s.dropWhile p

/-- `str::trim_end_matches(p)`. -/
def trimEnd (p : Char → Bool) (s : Str) : Str := (s.reverse.dropWhile p).reverse

/-- `str::trim`. -/
def trim (s : Str) : Str := trimEnd isWhitespace (trimStart isWhitespace s)

/-- `str::split(c)` for a character `c`: always at least one piece. -/
def split (c : Char) : Str → List Str
  | [] => [[]]
  | x :: xs =>
    if x = c then [] :: split c xs
    else match split c xs with
      | [] => [[x]]
      | h :: t => (x :: h) :: t

/-- `str::split_terminator(c)`: `split`, except that an empty last piece is skipped. -/
def splitTerminator (c : Char) (s : Str) : List Str :=
  if (split c s).getLast? = some [] then (split c s).dropLast else split c s

/-- `str::split_once(c)` / `find(c)` + `split_at`: the text before the first `c` and the text from `c` on (including it). -/
def breakAt (c : Char) (s : Str) : Option (Str × Str) :=
  match s with
  | [] => none
  | x :: xs => if x = c then some ([], x :: xs) else
    match breakAt c xs with
    | none => none
    | some (a, b) => some (x :: a, b)

/-- `[String]::join(sep)`. -/
def join (sep : Str) : List Str → Str
  | [] => []
  | [a] => a
  | a :: b :: r => a ++ sep ++ join sep (b :: r)

/-! ## Facts about them -/

theorem join_cons_cons (sep a b : Str) (r : List Str) : join sep (a :: b :: r) = a ++ sep ++ join sep (b :: r) := rfl

theorem split_ne_nil (c : Char) (s : Str) : split c s ≠ [] := by
  cases s with
  | nil => simp [split]
  | cons x xs => simp only [split]; split <;> (try split) <;> simp

theorem split_eq_self {c : Char} {s : Str} (h : c ∉ s) : split c s = [s] := by
  induction s with
  | nil => rfl
  | cons x xs ih =>
    simp only [List.mem_cons, not_or] at h
    simp only [split, ih h.2]
    rw [if_neg (fun e => h.1 e.symm)]

theorem split_append_sep {c : Char} {a b : Str} (h : c ∉ a) : split c (a ++ c :: b) = a :: split c b := by
  induction a with
  | nil => simp [split]
  | cons x xs ih =>
    simp only [List.mem_cons, not_or] at h
    simp only [List.cons_append, split, ih h.2]
    rw [if_neg (fun e => h.1 e.symm)]

/-- Splitting undoes joining when no piece contains the separator. -/
theorem split_join {c : Char} {ps : List Str} (hne : ps ≠ []) (h : ∀ p ∈ ps, c ∉ p) : split c (join [c] ps) = ps := by
  induction ps with
  | nil => exact absurd rfl hne
  | cons a r ih =>
    cases r with
    | nil => exact split_eq_self (h a (by simp))
    | cons b r =>
      rw [join_cons_cons, List.append_assoc, List.singleton_append, split_append_sep (h a (by simp)),
        ih (by simp) (fun p hp => h p (List.mem_cons_of_mem _ hp))]

theorem sep_not_mem_split {c : Char} {s : Str} : ∀ p ∈ split c s, c ∉ p := by
  induction s with
  | nil => simp [split]
  | cons x xs ih =>
    simp only [split]
    split
    · intro p hp
      rcases List.mem_cons.1 hp with rfl | hp
      · simp
      · exact ih p hp
    · rename_i hx
      split
      · intro p hp; simp at hp; subst hp; simp; exact fun e => hx e.symm
      · rename_i h t heq
        rw [heq] at ih
        intro p hp
        rcases List.mem_cons.1 hp with rfl | hp
        · simp only [List.mem_cons, not_or]
          exact ⟨fun e => hx e.symm, ih h (by simp)⟩
        · exact ih p (List.mem_cons_of_mem _ hp)

/-- Joining undoes splitting. -/
theorem join_split (c : Char) (s : Str) : join [c] (split c s) = s := by
  induction s with
  | nil => rfl
  | cons x xs ih =>
    simp only [split]
    split
    · rename_i hx; subst hx
      have := split_ne_nil x xs
      cases h : split x xs with
      | nil => exact absurd h this
      | cons a r => rw [join_cons_cons, ← h, ih]; rfl
    · split
      · rename_i h; exact absurd h (split_ne_nil c xs)
      · rename_i h t heq
        rw [heq] at ih
        cases t with
        | nil => simp only [join] at *; rw [ih]
        | cons b r => rw [join_cons_cons] at *; rw [← ih]; rfl

theorem splitTerminator_join {c : Char} {ps : List Str} (hne : ps ≠ []) (h : ∀ p ∈ ps, c ∉ p)
    (hl : ps.getLast? ≠ some []) : splitTerminator c (join [c] ps) = ps := by
  unfold splitTerminator
  rw [split_join hne h, if_neg hl]

theorem splitTerminator_nil (c : Char) : splitTerminator c [] = [] := by
  simp [splitTerminator, split]

theorem breakAt_append {c : Char} {a b : Str} (h : c ∉ a) : breakAt c (a ++ c :: b) = some (a, c :: b) := by
  induction a with
  | nil => simp [breakAt]
  | cons x xs ih =>
    simp only [List.mem_cons, not_or] at h
    simp only [List.cons_append, breakAt, ih h.2]
    rw [if_neg (fun e => h.1 e.symm)]

theorem breakAt_some {c : Char} {s a b : Str} (h : breakAt c s = some (a, b)) : c ∉ a ∧ ∃ t, b = c :: t ∧ s = a ++ c :: t := by
  induction s generalizing a b with
  | nil => simp [breakAt] at h
  | cons x xs ih =>
    simp only [breakAt] at h
    split at h
    · rename_i hx; subst hx
      simp only [Option.some.injEq, Prod.mk.injEq] at h
      obtain ⟨rfl, rfl⟩ := h
      exact ⟨by simp, xs, rfl, rfl⟩
    · rename_i hx
      cases hb : breakAt c xs with
      | none => rw [hb] at h; simp at h
      | some p =>
        obtain ⟨a', b'⟩ := p
        rw [hb] at h
        simp only [Option.some.injEq, Prod.mk.injEq] at h
        obtain ⟨rfl, rfl⟩ := h
        obtain ⟨h1, t, rfl, rfl⟩ := ih hb
        exact ⟨by simp only [List.mem_cons, not_or]; exact ⟨fun e => hx e.symm, h1⟩, t, rfl, rfl⟩

theorem breakAt_none {c : Char} {s : Str} : breakAt c s = none ↔ c ∉ s := by
  induction s with
  | nil => simp [breakAt]
  | cons x xs ih =>
    simp only [breakAt, List.mem_cons, not_or]
    split
    · rename_i h; simp [h]
    · rename_i h
      cases hb : breakAt c xs with
      | none => rw [hb] at ih; simp at ih; exact ⟨fun _ => ⟨fun e => h e.symm, ih⟩, fun _ => rfl⟩
      | some p => rw [hb] at ih; simp only [reduceCtorEq, false_iff] at ih ⊢; intro hh; exact ih hh.2

theorem trimStart_of_head {p : Char → Bool} {s : Str} (h : ∀ c, s.head? = some c → p c = false) : trimStart p s = s := by
  cases s with
  | nil => rfl
  | cons x xs => simp [trimStart, List.dropWhile, h x rfl]

theorem trimEnd_of_last {p : Char → Bool} {s : Str} (h : ∀ c, s.getLast? = some c → p c = false) : trimEnd p s = s := by
  unfold trimEnd
  have : s.reverse.dropWhile p = s.reverse := by
    have := @trimStart_of_head p s.reverse (by intro c hc; rw [List.head?_reverse] at hc; exact h c hc)
    exact this
  rw [this, List.reverse_reverse]

theorem trim_of_ends {s : Str} (h1 : ∀ c, s.head? = some c → isWhitespace c = false)
    (h2 : ∀ c, s.getLast? = some c → isWhitespace c = false) : trim s = s := by
  unfold trim
  rw [trimStart_of_head h1, trimEnd_of_last h2]

theorem byteLen_append (a b : Str) : byteLen (a ++ b) = byteLen a + byteLen b := by
  simp [byteLen]

theorem byteLen_cons (c : Char) (s : Str) : byteLen (c :: s) = c.utf8Size + byteLen s := by
  simp [byteLen]

theorem length_le_byteLen (s : Str) : s.length ≤ byteLen s := by
  induction s with
  | nil => simp [byteLen]
  | cons x xs ih =>
    rw [byteLen_cons]; simp only [List.length_cons]
    have : 1 ≤ x.utf8Size := Char.utf8Size_pos x
    omega

end Rust
