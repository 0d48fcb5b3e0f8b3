/-! # The log attribute array (`opentelemetry-sdk/src/growable_array.rs`) -/

namespace Otel.Logs

/-- `GrowableArray<T, M>`. `inline` is an array of fixed length `M`, initially all defaults. growable_array.rs:14-23 -/
structure GrowableArray (T : Type) where
  inline : List T
  overflow : Option (List T)
  count : Nat

variable {T : Type}

/-- `default`, `new`. 25-49 -/
def GrowableArray.empty [Inhabited T] (M : Nat) : GrowableArray T := ⟨List.replicate M default, none, 0⟩

/-- `push`. `none`: the index is outside the inline array, a panic. 55-66 -/
def GrowableArray.push? (M : Nat) (a : GrowableArray T) (v : T) : Option (GrowableArray T) :=
  if a.count < M then
    if a.count < a.inline.length then some { a with inline := a.inline.set a.count v, count := a.count + 1 } else none
  else some { a with overflow := some (a.overflow.getD [] ++ [v]) }

/-- `get`; the outer `none` is a panic (index outside the inline array, or `index - M` below zero). 73-81 -/
def GrowableArray.get? (M : Nat) (a : GrowableArray T) (i : Nat) : Option (Option T) :=
  if i < a.count then a.inline[i]?.map some
  else match a.overflow with
    | some o => if M ≤ i then some o[i - M]? else none
    | none => some none

/-- `len`. 86-88 -/
def GrowableArray.len (a : GrowableArray T) : Nat := a.count + (a.overflow.map List.length).getD 0

/-- `iter`, and `into_iter`, which has the same shape. 98-109, 135-156 -/
def GrowableArray.iter (a : GrowableArray T) : List T :=
  match a.overflow with
  | none => a.inline.take a.count
  | some [] => a.inline.take a.count
  | some (x :: o) => a.inline.take a.count ++ (x :: o)

/-- A sequence of pushes onto a new array. -/
def GrowableArray.pushAll? [Inhabited T] (M : Nat) (vs : List T) : Option (GrowableArray T) :=
  vs.foldlM (GrowableArray.push? M) (GrowableArray.empty M)

/-! ## C31 -/

/-- The array stands for this list. -/
structure Represents (M : Nat) (a : GrowableArray T) (vs : List T) : Prop where
  len : a.inline.length = M
  count : a.count = min M vs.length
  inline : a.inline.take a.count = vs.take M
  overflow : a.overflow.getD [] = vs.drop M
  someOf : a.overflow.isSome = decide (M < vs.length)

theorem represents_empty [Inhabited T] (M : Nat) : Represents M (GrowableArray.empty M : GrowableArray T) [] :=
  ⟨by simp [GrowableArray.empty], by simp [GrowableArray.empty], by simp [GrowableArray.empty], by simp [GrowableArray.empty],
    by simp [GrowableArray.empty]⟩

theorem represents_push {M : Nat} {a : GrowableArray T} {vs : List T} (h : Represents M a vs) (v : T) :
    ∃ a', a.push? M v = some a' ∧ Represents M a' (vs ++ [v]) := by
  obtain ⟨h1, h2, h3, h4, h5⟩ := h
  unfold GrowableArray.push?
  by_cases hc : a.count < M
  · rw [if_pos hc, if_pos (by omega)]
    have hlen : a.count = vs.length := by omega
    have hlt : vs.length < M := by omega
    refine ⟨_, rfl, by simpa using h1, by simp; omega, ?_, ?_, ?_⟩
    · show (a.inline.set a.count v).take (a.count + 1) = (vs ++ [v]).take M
      rw [List.take_add_one, List.take_set_of_le (Nat.le_refl _), h3, List.getElem?_set_self (by omega),
        List.take_of_length_le (by omega), List.take_of_length_le (by simp; omega)]
      rfl
    · show a.overflow.getD [] = (vs ++ [v]).drop M
      rw [h4, List.drop_eq_nil_of_le (by omega), List.drop_eq_nil_of_le (by simp; omega)]
    · show a.overflow.isSome = _
      rw [h5]; simp; omega
  · rw [if_neg hc]
    have hge : M ≤ vs.length := by omega
    refine ⟨_, rfl, h1, by simp; omega, ?_, ?_, ?_⟩
    · show a.inline.take a.count = _
      rw [h3, List.take_append_of_le_length hge]
    · simp only [Option.getD_some]
      rw [h4, List.drop_append_of_le_length hge]
    · simp; omega

theorem represents_pushAll [Inhabited T] (M : Nat) (vs : List T) :
    ∃ a, GrowableArray.pushAll? M vs = some a ∧ Represents M a vs := by
  have : ∀ (ws vs : List T) (a : GrowableArray T), Represents M a vs →
      ∃ a', ws.foldlM (GrowableArray.push? M) a = some a' ∧ Represents M a' (vs ++ ws) := by
    intro ws
    induction ws with
    | nil => intro vs a h; exact ⟨a, rfl, by simpa using h⟩
    | cons w ws ih =>
      intro vs a h
      obtain ⟨a1, h1, h2⟩ := represents_push h w
      obtain ⟨a2, h3, h4⟩ := ih _ _ h2
      exact ⟨a2, by simp [List.foldlM, h1, h3], by simpa using h4⟩
  exact this vs [] _ (represents_empty M)

/-- **C31** Whatever is pushed, and whatever the inline capacity: no panic, iteration gives exactly the pushed values in order, the
length is theirs, and access by any index (also beyond the end) agrees with the list and does not panic. -/
theorem growable_is_list [Inhabited T] (M : Nat) (vs : List T) :
    ∃ a, GrowableArray.pushAll? M vs = some a ∧ a.iter = vs ∧ a.len = vs.length ∧ ∀ i, a.get? M i = some vs[i]? := by
  obtain ⟨a, ha, h1, h2, h3, h4, h5⟩ := represents_pushAll M vs
  refine ⟨a, ha, ?_, ?_, ?_⟩
  · unfold GrowableArray.iter
    split
    · rename_i ho
      rw [ho] at h4; simp at h4
      rw [h3, List.take_of_length_le h4]
    · rename_i ho
      rw [ho] at h4; simp at h4
      rw [h3, List.take_of_length_le h4]
    · rename_i x o ho
      rw [ho] at h4; simp at h4
      rw [h3, h4, List.take_append_drop]
  · unfold GrowableArray.len
    have : (a.overflow.map List.length).getD 0 = (a.overflow.getD []).length := by cases a.overflow <;> rfl
    rw [this, h4, h2]; simp; omega
  · intro i
    unfold GrowableArray.get?
    split
    · rename_i hi
      have : a.inline[i]? = (a.inline.take a.count)[i]? := by rw [List.getElem?_take_of_lt hi]
      rw [this, h3, List.getElem?_take_of_lt (by omega), List.getElem?_eq_getElem (by omega)]
      rfl
    · rename_i hi
      split
      · rename_i o ho
        rw [ho] at h4 h5; simp at h4 h5
        rw [if_pos (by omega), h4, List.getElem?_drop]
        congr 2; omega
      · rename_i ho
        rw [ho] at h5
        have h6 : vs.length ≤ M := by simpa using h5
        rw [List.getElem?_eq_none (by omega)]

example : ((GrowableArray.pushAll? 2 [10, 20, 30]).map fun a => (a.iter, a.len, a.get? 2 2)) = some ([10, 20, 30], 3, some (some 30)) := by
  decide

end Otel.Logs
