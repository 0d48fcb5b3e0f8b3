import Verif.Baggage.Spec
import Mathlib.Data.List.Induction
/-! # Property theorems: baggage as a bounded map (C11, C12) -/

namespace Otel.Baggage
open Rust

/-! ## Lemmas -/

theorem isKeyValid_iff (k : Str) : isKeyValid k = true ↔ Token k := by
  unfold isKeyValid Token
  have hg : ∀ c : Char, isAsciiGraphic c = true ↔ 0x21 ≤ c.toNat ∧ c.toNat ≤ 0x7e := by
    intro c; simp only [isAsciiGraphic, Bool.and_eq_true, decide_eq_true_eq]; rfl
  have hl : invalidKeyChars = "(),/:;<=>?@[\\]{}\"".toList := by decide
  rw [Bool.and_eq_true, List.all_eq_true]
  refine and_congr (by cases k <;> simp) ?_
  refine forall_congr' (fun c => forall_congr' (fun _ => ?_))
  rw [Bool.and_eq_true, hg, hl]
  simp [and_assoc]

theorem find_some {k : Str} {es : List Entry} {e : Entry} (h : find k es = some e) : e ∈ es ∧ e.key = k := by
  induction es with
  | nil => cases h
  | cons x xs ih =>
    simp only [find] at h
    split at h
    · cases h; exact ⟨by simp, ‹_›⟩
    · exact ⟨List.mem_cons_of_mem _ (ih h).1, (ih h).2⟩

theorem find_none {k : Str} {es : List Entry} : find k es = none ↔ ∀ e ∈ es, e.key ≠ k := by
  induction es with
  | nil => simp [find]
  | cons x xs ih =>
    simp only [find]
    split
    · simp_all
    · simp_all

theorem any_iff_find {k : Str} {es : List Entry} : es.any (fun e => e.key = k) = (find k es).isSome := by
  induction es with
  | nil => rfl
  | cons x xs ih =>
    simp only [List.any_cons, find, ih]
    split <;> simp_all

theorem replace_eq_map {k v m : Str} {es : List Entry} (hn : (es.map Entry.key).Nodup) :
    replace k v m es = es.map (fun e => if e.key = k then ⟨k, v, m⟩ else e) := by
  induction es with
  | nil => rfl
  | cons x xs ih =>
    simp only [List.map_cons, List.nodup_cons] at hn
    simp only [replace, List.map_cons]
    split
    · rename_i hk
      subst hk
      congr 1
      conv_lhs => rw [← List.map_id xs]
      apply List.map_congr_left
      intro e he
      rw [if_neg]; · rfl
      intro e'; exact hn.1 (e' ▸ List.mem_map_of_mem he)
    · rw [ih hn.2]

theorem replace_keys {k v m : Str} {es : List Entry} : (replace k v m es).map Entry.key = es.map Entry.key := by
  induction es with
  | nil => rfl
  | cons x xs ih =>
    simp only [replace]; split
    · rename_i h; simp
    · simp [ih]

theorem totalSize_cons (e : Entry) (es : List Entry) :
    totalSize (e :: es) = byteLen e.key + byteLen e.value + byteLen e.info + totalSize es := by
  simp [totalSize]

theorem totalSize_append (a b : List Entry) : totalSize (a ++ b) = totalSize a + totalSize b := by
  simp [totalSize]

theorem totalSize_replace {k v m : Str} {es : List Entry} {e : Entry} (h : find k es = some e) :
    totalSize (replace k v m es) + bytesSize k e.value e.info = totalSize es + bytesSize k v m := by
  induction es with
  | nil => cases h
  | cons x xs ih =>
    simp only [find] at h
    simp only [replace]
    split at h
    · rename_i hk
      cases h
      rw [if_pos hk, totalSize_cons, totalSize_cons]
      simp only [bytesSize, hk]; omega
    · rename_i hk
      rw [if_neg hk, totalSize_cons, totalSize_cons]
      have := ih h; omega

theorem totalSize_filter_le (p : Entry → Bool) (es : List Entry) : totalSize (es.filter p) ≤ totalSize es := by
  induction es with
  | nil => simp
  | cons x xs ih =>
    rw [List.filter_cons]
    split
    · rw [totalSize_cons, totalSize_cons]; omega
    · rw [totalSize_cons]; omega

theorem find_replace {k k' v m : Str} {es : List Entry} {e : Entry} (h : find k es = some e) :
    find k' (replace k v m es) = if k' = k then some ⟨k, v, m⟩ else find k' es := by
  induction es with
  | nil => cases h
  | cons x xs ih =>
    simp only [find] at h
    simp only [replace]
    split at h
    · rename_i hk
      rw [if_pos hk]
      subst hk
      simp only [find]
      by_cases hkk : k' = x.key
      · simp [hkk]
      · simp [hkk, Ne.symm hkk]
    · rename_i hk
      rw [if_neg hk]
      simp only [find, ih h]
      by_cases hkk : k' = k
      · subst hkk; simp [hk]
      · simp [hkk]

theorem find_append {k' : Str} {es : List Entry} {e : Entry} (h : find e.key es = none) :
    find k' (es ++ [e]) = if k' = e.key then some e else find k' es := by
  induction es with
  | nil => simp only [List.nil_append, find, eq_comm]
  | cons x xs ih =>
    simp only [find] at h
    split at h
    · cases h
    · rename_i hk
      simp only [List.cons_append, find, ih h]
      by_cases hkk : k' = e.key
      · subst hkk; simp [hk]
      · simp [hkk]

theorem find_filter {k k' : Str} (es : List Entry) :
    find k' (es.filter (fun e => e.key ≠ k)) = if k' = k then none else find k' es := by
  induction es with
  | nil => simp [find]
  | cons x xs ih =>
    rw [List.filter_cons]
    by_cases hx : x.key = k
    · simp only [hx, ne_eq, not_true_eq_false, decide_false, Bool.false_eq_true, if_false, ih, find]
      by_cases hkk : k' = k
      · simp [hkk]
      · simp [hkk, Ne.symm hkk]
    · simp only [ne_eq, hx, not_false_eq_true, decide_true, if_true, find, ih]
      by_cases hkk : k' = k
      · subst hkk; simp [hx]
      · simp [hkk]

/-- The invariant of every reachable baggage. -/
structure Inv (b : Bag) : Prop where
  count : b.inner.length ≤ 64
  size : totalSize b.inner ≤ b.contentLen
  len : b.contentLen ≤ 8192
  keys : ∀ e ∈ b.inner, Token e.key
  nodup : (b.inner.map Entry.key).Nodup

theorem inv_new : Inv Bag.new := ⟨by simp [Bag.new], by simp [Bag.new, totalSize], by simp [Bag.new], by simp [Bag.new], by simp [Bag.new]⟩

theorem inv_insert {b : Bag} (h : Inv b) (k v m : Str) : Inv (b.insert k v m).1 := by
  unfold Bag.insert
  split
  · rename_i e he
    simp only
    split
    · exact h
    · rename_i hlen
      have hsz := totalSize_replace (v := v) (m := m) he
      have := h.size
      refine ⟨?_, ?_, by simpa using hlen, ?_, ?_⟩
      · have : (replace k v m b.inner).length = b.inner.length := by
          have := congrArg List.length (replace_keys (k := k) (v := v) (m := m) (es := b.inner)); simpa using this
        rw [this]; exact h.count
      · simp only; omega
      · intro x hx
        have : x.key ∈ (replace k v m b.inner).map Entry.key := List.mem_map_of_mem hx
        rw [replace_keys] at this
        obtain ⟨y, hy, hyk⟩ := List.mem_map.1 this
        rw [← hyk]; exact h.keys y hy
      · simp only [replace_keys]; exact h.nodup
  · rename_i hf
    split
    · exact h
    · rename_i hk
      split
      · exact h
      · rename_i hc
        simp only
        split
        · exact h
        · rename_i hlen
          have hkv : Token k := (isKeyValid_iff k).1 (by simpa using hk)
          simp only [beq_iff_eq] at hc
          have := h.count; have := h.size
          refine ⟨by simp; unfold maxPairs at hc; omega, ?_, by simpa using hlen, ?_, ?_⟩
          · simp only [totalSize_append, totalSize_cons, bytesSize]; simp [totalSize]; simp [totalSize] at *; omega
          · intro e he
            rcases List.mem_append.1 he with he | he
            · exact h.keys e he
            · simp only [List.mem_singleton] at he; subst he; exact hkv
          · simp only [List.map_append, List.map_cons, List.map_nil]
            rw [List.nodup_append]
            refine ⟨h.nodup, by simp, ?_⟩
            intro a ha x hx
            simp only [List.mem_singleton] at hx; subst hx
            obtain ⟨e, he, rfl⟩ := List.mem_map.1 ha
            exact find_none.1 hf e he

theorem inv_remove {b : Bag} (h : Inv b) (k : Str) : Inv (b.remove k).1 := by
  unfold Bag.remove
  refine ⟨?_, ?_, h.len, ?_, ?_⟩
  · exact Nat.le_trans (List.length_filter_le _ _) h.count
  · exact Nat.le_trans (totalSize_filter_le _ _) h.size
  · intro e he; exact h.keys e (List.mem_filter.1 he).1
  · exact h.nodup.sublist (List.Sublist.map _ List.filter_sublist)

theorem inv_run (ops : List Op) : Inv (run ops) := by
  unfold run
  suffices ∀ b, Inv b → Inv (ops.foldl Bag.step b) from this _ inv_new
  induction ops with
  | nil => intro b h; exact h
  | cons op ops ih =>
    intro b h
    rw [List.foldl_cons]
    apply ih
    cases op with
    | insert k v m => exact inv_insert h k v m
    | remove k => exact inv_remove h k

/-! ## C11 -/

/-- **C11.** After any history of inserts and removes: at most 64 entries, at most 8192 bytes, distinct keys, every key a
token. -/
theorem baggage_limits (ops : List Op) :
    (run ops).inner.length ≤ 64 ∧ totalSize (run ops).inner ≤ 8192 ∧ ((run ops).inner.map Entry.key).Nodup ∧
    ∀ e ∈ (run ops).inner, Token e.key :=
  have h := inv_run ops
  ⟨h.count, Nat.le_trans h.size h.len, h.nodup, h.keys⟩

example : (run [.insert "k".toList "v".toList [], .insert "bad key".toList "v".toList [], .insert "k2".toList "v2".toList "p".toList,
    .remove "k".toList]).inner = [⟨"k2".toList, "v2".toList, "p".toList⟩] := by decide

/-! ## C12 -/

/-- **C12 (insert).** In every reachable baggage an insert either takes effect — the key reads back the new value and
metadata, every other key is unaffected, and the previous value is returned — or changes nothing at all. It never takes
effect for a key that is not a token. -/
theorem insert_effect (ops : List Op) (k v m : Str) :
    (Token k ∧ ((run ops).insert k v m).2 = (run ops).get k ∧
      ∀ k', ((run ops).insert k v m).1.get k' = if k' = k then some (v, m) else (run ops).get k') ∨
    (run ops).insert k v m = (run ops, none) := by
  have hinv := inv_run ops
  generalize run ops = b at hinv
  unfold Bag.insert
  split
  · rename_i e he
    simp only
    split
    · exact Or.inr rfl
    · left
      obtain ⟨hm, hk⟩ := find_some he
      refine ⟨hk ▸ hinv.keys e hm, ?_, ?_⟩
      · simp [Bag.get, he]
      · intro k'
        simp only [Bag.get, find_replace he]
        split <;> simp
  · rename_i hf
    split
    · exact Or.inr rfl
    · rename_i hk
      split
      · exact Or.inr rfl
      · simp only
        split
        · exact Or.inr rfl
        · left
          refine ⟨(isKeyValid_iff k).1 (by simpa using hk), by simp [Bag.get, hf], ?_⟩
          intro k'
          simp only [Bag.get, find_append (e := ⟨k, v, m⟩) hf]
          split <;> simp

/-- **C12 (remove).** Remove deletes exactly its key and returns what it had. -/
theorem remove_effect (b : Bag) (k : Str) :
    (b.remove k).2 = b.get k ∧ ∀ k', (b.remove k).1.get k' = if k' = k then none else b.get k' := by
  refine ⟨rfl, fun k' => ?_⟩
  simp only [Bag.remove, Bag.get, find_filter]
  split <;> simp

theorem setEntry_of_some {es : List Entry} {k v m : Str} {e : Entry} (hn : (es.map Entry.key).Nodup) (h : find k es = some e) :
    setEntry es k v m = replace k v m es := by
  unfold setEntry; rw [any_iff_find, h, replace_eq_map hn]; rfl

theorem setEntry_of_none {es : List Entry} {k v m : Str} (h : find k es = none) :
    setEntry es k v m = es ++ [⟨k, v, m⟩] := by
  unfold setEntry; rw [any_iff_find, h]; rfl

/-- The byte counter has not drifted. -/
def Exact (b : Bag) : Prop := b.contentLen = totalSize b.inner

theorem insert_accept_iff {b : Bag} (hinv : Inv b) (hx : Exact b) (k v m : Str) :
    (Fits b.inner k v m → (b.insert k v m).1.inner = setEntry b.inner k v m) ∧
    (¬ Fits b.inner k v m → b.insert k v m = (b, none)) ∧ Exact (b.insert k v m).1 := by
  unfold Exact at hx
  unfold Bag.insert
  split
  · rename_i e he
    obtain ⟨hm, hk⟩ := find_some he
    have hsz := totalSize_replace (v := v) (m := m) he
    have hlen : (replace k v m b.inner).length = b.inner.length := by
      have := congrArg List.length (replace_keys (k := k) (v := v) (m := m) (es := b.inner)); simpa using this
    have hfit : Fits b.inner k v m ↔ totalSize (replace k v m b.inner) ≤ 8192 := by
      unfold Fits
      rw [setEntry_of_some hinv.nodup he, hlen]
      exact ⟨fun h => h.2.2, fun h => ⟨hk ▸ hinv.keys e hm, hinv.count, h⟩⟩
    have hnew : b.contentLen + bytesSize k v m - bytesSize k e.value e.info = totalSize (replace k v m b.inner) := by omega
    simp only [hnew]
    rw [hfit, setEntry_of_some hinv.nodup he]
    split
    · rename_i h; simp only [maxLen] at h
      exact ⟨fun h' => absurd h' (by omega), fun _ => rfl, hx⟩
    · rename_i h; simp only [maxLen] at h
      exact ⟨fun _ => rfl, fun h' => absurd (by omega) h', rfl⟩
  · rename_i hf
    have hse : totalSize (setEntry b.inner k v m) = b.contentLen + bytesSize k v m := by
      rw [setEntry_of_none hf, totalSize_append, totalSize_cons, hx]; simp [totalSize, bytesSize]
    have hsl : (setEntry b.inner k v m).length = b.inner.length + 1 := by rw [setEntry_of_none hf]; simp
    have hcount := hinv.count
    unfold Fits
    rw [hsl, hse, setEntry_of_none hf]
    split
    · rename_i hk
      have hnt : ¬ Token k := by
        rw [← isKeyValid_iff]; simpa using hk
      exact ⟨fun h => absurd h.1 hnt, fun _ => rfl, hx⟩
    · rename_i hk
      have ht : Token k := (isKeyValid_iff k).1 (by simpa using hk)
      split
      · rename_i hc
        simp only [beq_iff_eq] at hc
        exact ⟨fun h => absurd h.2.1 (by rw [hc]; unfold maxPairs; omega), fun _ => rfl, hx⟩
      · rename_i hc
        simp only [beq_iff_eq] at hc
        simp only
        split
        · rename_i h; simp only [maxLen] at h
          exact ⟨fun h' => absurd h'.2.2 (by omega), fun _ => rfl, hx⟩
        · rename_i h; simp only [maxLen] at h
          refine ⟨fun _ => rfl, fun h' => absurd ⟨ht, by unfold maxPairs at hc; omega, by omega⟩ h', ?_⟩
          simp only [Exact]
          rw [totalSize_append, totalSize_cons, hx]; simp [totalSize, bytesSize]

/-- **C12 (acceptance), the part that holds.** In histories without `remove`, an insert takes effect exactly when the
resulting content is within the limits and the key is a token. Missing: histories with `remove` (see below). -/
theorem insert_accepted_iff_fits_partial (ops : List Op) (hops : ∀ op ∈ ops, ∃ k v m, op = .insert k v m) (k v m : Str) :
    (Fits (run ops).inner k v m → ((run ops).insert k v m).1.inner = setEntry (run ops).inner k v m) ∧
    (¬ Fits (run ops).inner k v m → (run ops).insert k v m = (run ops, none)) := by
  have hx : Exact (run ops) := by
    induction ops using List.reverseRecOn with
    | nil => rfl
    | append_singleton ops op ih =>
      obtain ⟨k, v, m, rfl⟩ := hops op (by simp)
      have h1 := ih (fun op h => hops op (by simp [h]))
      have : run (ops ++ [.insert k v m]) = ((run ops).insert k v m).1 := by simp [run, Bag.step]
      rw [this]
      exact (insert_accept_iff (inv_run ops) h1 k v m).2.2
  have := insert_accept_iff (inv_run ops) hx k v m
  exact ⟨this.1, this.2.1⟩

/-- The full statement of C12's last clause. -/
def RejectedOnlyIfTooBig : Prop :=
  ∀ (ops : List Op) (k v m : Str), Fits (run ops).inner k v m → ((run ops).insert k v m).1.get k = some (v, m)

theorem byteLen_replicate (n : Nat) : byteLen (List.replicate n 'x') = n := by
  simp [byteLen]; exact Nat.mul_one n

/-- **C12's last clause is violated**: after inserting and removing a value of 8000 bytes the baggage is empty, yet an
insert of 8000 bytes is rejected, because `remove` does not give the bytes back. -/
theorem rejected_after_remove_violated : ¬ RejectedOnlyIfTooBig := by
  intro h
  have hk : isKeyValid ['k'] = true := by decide
  have b1 : byteLen ['k'] = 1 := by decide
  have b0 : byteLen [] = 0 := by decide
  obtain ⟨x, hx⟩ : ∃ x : Str, byteLen x = 8000 := ⟨_, byteLen_replicate 8000⟩
  have hrun : run [.insert ['k'] x [], .remove ['k']] = ⟨[], 8001⟩ := by
    simp [run, Bag.step, Bag.insert, Bag.new, find, hk, bytesSize, hx, b1, b0, Bag.remove, maxLen, maxPairs]
  have hempty := h [.insert ['k'] x [], .remove ['k']] ['k'] x [] (by
    rw [hrun]
    refine ⟨(isKeyValid_iff _).1 hk, by simp [setEntry], ?_⟩
    simp [setEntry, totalSize, hx, b1, b0])
  rw [hrun] at hempty
  simp [Bag.insert, find, hk, bytesSize, hx, b1, b0, Bag.get, maxLen, maxPairs] at hempty

/-- What the drift can do at worst: an insert whose content fits is rejected only if something was removed before, never
the other way round (nothing too big is ever accepted). -/
theorem accepted_only_if_fits (ops : List Op) (k v m : Str) (h : (run ops).insert k v m ≠ (run ops, none)) :
    Fits (run ops).inner k v m := by
  have hinv := inv_run ops
  have hinv' := inv_insert hinv k v m
  generalize run ops = b at *
  have : (b.insert k v m).1.inner = setEntry b.inner k v m ∧ Token k := by
    unfold Bag.insert at h ⊢
    split
    · rename_i e he
      obtain ⟨hm, hk⟩ := find_some he
      simp only [he] at h ⊢
      split
      · rename_i hc; rw [if_pos hc] at h; exact absurd rfl h
      · exact ⟨(setEntry_of_some hinv.nodup he).symm, hk ▸ hinv.keys e hm⟩
    · rename_i hf
      simp only [hf] at h ⊢
      split
      · rename_i hc; rw [if_pos hc] at h; exact absurd rfl h
      · rename_i hk
        rw [if_neg hk] at h
        split
        · rename_i hc; rw [if_pos hc] at h; exact absurd rfl h
        · rename_i hc
          rw [if_neg hc] at h
          split
          · rename_i hc2; rw [if_pos hc2] at h; exact absurd rfl h
          · exact ⟨(setEntry_of_none hf).symm, (isKeyValid_iff k).1 (by simpa using hk)⟩
  refine ⟨this.2, ?_, ?_⟩
  · rw [← this.1]; exact hinv'.count
  · rw [← this.1]; exact Nat.le_trans hinv'.size hinv'.len

example : (run []).insert "k".toList "v".toList [] ≠ (run [], none) := by decide

end Otel.Baggage
