import Verif.Trace.TraceState
import Verif.Trace.TraceStateSpec
/-! # Helper lemmas for trace state -/

namespace Otel.TraceState
open Rust TraceStateSpec

theorem lower_iff (c : Char) : isAsciiLower c = true ↔ ('a' ≤ c ∧ c ≤ 'z') := by simp [isAsciiLower]
theorem digit_iff (c : Char) : isAsciiDigit c = true ↔ ('0' ≤ c ∧ c ≤ '9') := by simp [isAsciiDigit]
theorem special_iff (c : Char) : allowedSpecial c = true ↔ c ∈ ['_', '-', '*', '/'] := by
  simp [allowedSpecial, or_assoc]

theorem start_iff (c : Char) : (isAsciiLower c || isAsciiDigit c) = true ↔ StartChar c := by
  rw [Bool.or_eq_true, lower_iff, digit_iff]; rfl

theorem keychar_iff (c : Char) : (isAsciiLower c || isAsciiDigit c || allowedSpecial c) = true ↔ KeyChar c := by
  rw [Bool.or_eq_true, Bool.or_eq_true, lower_iff, digit_iff, special_iff, or_assoc]; rfl

theorem start_iff' (c : Char) : (!isAsciiLower c && !isAsciiDigit c) = false ↔ StartChar c := by
  rw [← start_iff]; cases isAsciiLower c <;> cases isAsciiDigit c <;> simp

theorem not_keychar_at : ¬ KeyChar '@' := by
  rw [← keychar_iff]; decide

theorem loop_some (len i st : Nat) (rest : Str) (hi : st < i) :
    validKeyLoop len i (some st) rest = true ↔
      (∀ c ∈ rest, KeyChar c) ∧ (i = st + 1 → ∀ c r, rest = c :: r → StartChar c) := by
  induction rest generalizing i with
  | nil => simp [validKeyLoop]
  | cons b rest ih =>
    have hi0 : (i == 0) = false := by simp; omega
    unfold validKeyLoop
    rw [hi0, Bool.false_and, if_neg (by decide : ¬ (false = true))]
    by_cases hat : b = '@'
    · subst hat
      simp only [List.mem_cons, forall_eq_or_imp, not_keychar_at, false_and, iff_false]
      simp
    · have hat' : (b == '@') = false := by simpa using hat
      rw [hat', Bool.or_false]
      by_cases hk : KeyChar b
      · rw [(keychar_iff b).2 hk]
        simp only [Bool.not_true, Bool.false_eq_true, if_false, List.mem_cons, forall_eq_or_imp, hk, true_and]
        by_cases hs : i = st + 1
        · subst hs
          by_cases hb : StartChar b
          · rw [(start_iff b).2 hb]
            simp only [BEq.rfl, Bool.not_true, Bool.and_false, Bool.false_eq_true, if_false]
            rw [ih (st + 1 + 1) (by omega)]
            constructor
            · rintro ⟨h1, _⟩
              refine ⟨h1, fun _ c r e => ?_⟩
              simp only [List.cons.injEq] at e; rw [← e.1]; exact hb
            · rintro ⟨h1, _⟩
              exact ⟨h1, fun e => by omega⟩
          · have hb' : (isAsciiLower b || isAsciiDigit b) = false := by
              rw [← start_iff] at hb; simpa using hb
            rw [hb']
            simp only [BEq.rfl, Bool.not_false, Bool.and_true, if_true, Bool.false_eq_true, false_iff, not_and]
            intro _ h
            exact hb (h trivial b rest rfl)
        · have hs' : (i == st + 1) = false := by simpa using hs
          rw [hs', Bool.false_and]
          simp only [Bool.false_eq_true, if_false]
          rw [ih (i + 1) (by omega)]
          constructor
          · rintro ⟨h1, _⟩
            exact ⟨h1, fun e => absurd e hs⟩
          · rintro ⟨h1, _⟩
            exact ⟨h1, fun e => by omega⟩
      · have hk' : (isAsciiLower b || isAsciiDigit b || allowedSpecial b) = false := by
          rw [← keychar_iff] at hk; simpa using hk
        rw [hk']
        simp [hk]

theorem loop_none (len i : Nat) (rest : Str) :
    validKeyLoop len i Option.none rest = true ↔
      (∀ c ∈ rest, KeyChar c ∨ c = '@') ∧ (i = 0 → ∀ c r, rest = c :: r → StartChar c) ∧
      ∀ a b, rest = a ++ '@' :: b → '@' ∉ b ∧ len ≤ i + a.length + 14 ∧ ∀ c r, b = c :: r → StartChar c := by
  induction rest generalizing i with
  | nil => simp [validKeyLoop]
  | cons b rest ih =>
    unfold validKeyLoop
    by_cases hok : KeyChar b ∨ b = '@'
    · have hok' : (isAsciiLower b || isAsciiDigit b || allowedSpecial b || b == '@') = true := by
        rw [Bool.or_eq_true, keychar_iff]; simpa using hok
      rw [hok']
      simp only [Bool.not_true, Bool.false_eq_true, if_false]
      by_cases hfirst : i = 0 ∧ ¬ StartChar b
      · have hf : (!isAsciiLower b && !isAsciiDigit b) = true := by
          have := hfirst.2; rw [← start_iff'] at this; simpa using this
        rw [hfirst.1, hf]
        simp only [BEq.rfl, Bool.and_true, if_true, Bool.false_eq_true, false_iff, not_and]
        intro _ h
        exact absurd (h trivial b rest rfl) hfirst.2
      · have hf : (i == 0 && (!isAsciiLower b && !isAsciiDigit b)) = false := by
          by_cases h0 : i = 0
          · have : StartChar b := by
              by_cases hs : StartChar b
              · exact hs
              · exact absurd ⟨h0, hs⟩ hfirst
            rw [(start_iff' b).2 this, Bool.and_false]
          · simp [h0]
        rw [hf]
        simp only [Bool.false_eq_true, if_false]
        have hfirst' : i = 0 → StartChar b := by
          intro h0
          by_cases hs : StartChar b
          · exact hs
          · exact absurd ⟨h0, hs⟩ hfirst
        by_cases hat : b = '@'
        · subst hat
          simp only [BEq.rfl, if_true, Option.isSome_none, Bool.false_or, decide_eq_true_eq]
          by_cases hlen : i + 14 < len
          · simp only [hlen, if_true, Bool.false_eq_true, false_iff, not_and]
            intro _ _ h
            have := (h [] rest rfl).2.1
            simp at this; omega
          · simp only [hlen, if_false]
            rw [loop_some _ _ _ _ (by omega : i < i + 1)]
            constructor
            · rintro ⟨h1, h2⟩
              refine ⟨?_, ?_, ?_⟩
              · intro c hc
                rcases List.mem_cons.1 hc with rfl | hc
                · exact Or.inr rfl
                · exact Or.inl (h1 c hc)
              · intro h0 c r e
                simp only [List.cons.injEq] at e; rw [← e.1]; exact hfirst' h0
              · intro a b' e
                have hnot : '@' ∉ rest := fun hm => not_keychar_at (h1 _ hm)
                cases a with
                | nil =>
                  simp only [List.nil_append, List.cons.injEq, true_and] at e
                  subst e
                  exact ⟨hnot, by simp; omega, h2 rfl⟩
                | cons x a =>
                  simp only [List.cons_append, List.cons.injEq] at e
                  exact absurd (by rw [e.2]; simp) hnot
            · rintro ⟨h1, _, h3⟩
              obtain ⟨hn, _, h5⟩ := h3 [] rest rfl
              refine ⟨fun c hc => ?_, fun _ => h5⟩
              rcases h1 c (List.mem_cons_of_mem _ hc) with h | h
              · exact h
              · subst h; exact absurd hc hn
        · have hat' : (b == '@') = false := by simpa using hat
          rw [hat']
          simp only [Bool.false_eq_true, if_false]
          rw [ih (i + 1)]
          constructor
          · rintro ⟨h1, _, h3⟩
            refine ⟨?_, ?_, ?_⟩
            · intro c hc
              rcases List.mem_cons.1 hc with rfl | hc
              · exact hok
              · exact h1 c hc
            · intro h0 c r e
              simp only [List.cons.injEq] at e; rw [← e.1]; exact hfirst' h0
            · intro a b' e
              cases a with
              | nil => simp only [List.nil_append, List.cons.injEq] at e; exact absurd e.1 hat
              | cons x a =>
                simp only [List.cons_append, List.cons.injEq] at e
                obtain ⟨p, q, r⟩ := h3 a b' e.2
                exact ⟨p, by simp only [List.length_cons]; omega, r⟩
          · rintro ⟨h1, _, h3⟩
            refine ⟨fun c hc => h1 c (List.mem_cons_of_mem _ hc), by omega, fun a b' e => ?_⟩
            obtain ⟨p, q, r⟩ := h3 (b :: a) b' (by rw [e]; rfl)
            exact ⟨p, by simp only [List.length_cons] at q; omega, r⟩
    · have hok' : (isAsciiLower b || isAsciiDigit b || allowedSpecial b || b == '@') = false := by
        have : ¬ ((isAsciiLower b || isAsciiDigit b || allowedSpecial b || b == '@') = true) := by
          rw [Bool.or_eq_true, keychar_iff]; simpa using hok
        simpa using this
      rw [hok']
      simp only [Bool.not_false, if_true, Bool.false_eq_true, false_iff, not_and]
      intro h
      exact absurd (h b (by simp)) hok

theorem keychar_utf8 {c : Char} (h : KeyChar c ∨ c = '@') : c.utf8Size = 1 := by
  have hn : c.toNat ≤ 127 := by
    rcases h with (⟨_, h⟩ | ⟨_, h⟩ | h) | h
    · have : c.toNat ≤ 'z'.toNat := h
      have e : 'z'.toNat = 122 := rfl
      omega
    · have : c.toNat ≤ '9'.toNat := h
      have e : '9'.toNat = 57 := rfl
      omega
    · simp only [List.mem_cons, List.not_mem_nil, or_false] at h
      rcases h with rfl | rfl | rfl | rfl <;> decide
    · subst h; decide
  have hle : c.val ≤ 127 := UInt32.le_iff_toNat_le.2 hn
  simp [Char.utf8Size, hle]

theorem byteLen_keychars {k : Str} (h : ∀ c ∈ k, KeyChar c ∨ c = '@') : byteLen k = k.length := by
  induction k with
  | nil => rfl
  | cons c k ih =>
    rw [byteLen_cons, keychar_utf8 (h c (by simp)), ih (fun c hc => h c (List.mem_cons_of_mem _ hc))]
    simp only [List.length_cons]; omega

theorem validKey_iff (k : Str) : validKey k = true ↔ AcceptedKey k := by
  unfold validKey AcceptedKey
  by_cases hb : byteLen k > 256
  · simp only [hb, if_true, Bool.false_eq_true, false_iff, not_and]
    intro h1 h2
    rw [byteLen_keychars h2] at hb; omega
  · simp only [hb, if_false]
    rw [loop_none]
    constructor
    · rintro ⟨h1, h2, h3⟩
      have hl := byteLen_keychars h1
      refine ⟨by omega, h1, h2 rfl, ?_⟩
      intro a b e
      obtain ⟨p, q, r⟩ := h3 a b e
      refine ⟨p, ?_, r⟩
      rw [hl, e] at q
      simp only [List.length_append, List.length_cons] at q; omega
    · rintro ⟨h0, h1, h2, h3⟩
      have hl := byteLen_keychars h1
      refine ⟨h1, fun _ => h2, ?_⟩
      intro a b e
      obtain ⟨p, q, r⟩ := h3 a b e
      refine ⟨p, ?_, r⟩
      rw [hl, e]; simp only [List.length_append, List.length_cons]; omega

theorem validValue_iff (v : Str) : validValue v = true ↔ AcceptedValue v := by
  unfold validValue AcceptedValue
  by_cases hb : byteLen v > 256
  · simp only [hb, if_true, Bool.false_eq_true, false_iff, not_and]; omega
  · simp only [hb, if_false]
    simp; omega

theorem checkAll_ok {l r : List (Str × Str)} : checkAll l = .ok r ↔ r = l ∧ ∀ kv ∈ l, AcceptedKey kv.1 ∧ AcceptedValue kv.2 := by
  induction l generalizing r with
  | nil => simp [checkAll, eq_comm]
  | cons kv l ih =>
    obtain ⟨k, v⟩ := kv
    unfold checkAll
    by_cases hk : AcceptedKey k
    · rw [(validKey_iff k).2 hk]
      by_cases hv : AcceptedValue v
      · rw [(validValue_iff v).2 hv]
        simp only [Bool.not_true, Bool.false_eq_true, if_false]
        cases hc : checkAll l with
        | error e =>
          simp only [reduceCtorEq, false_iff, not_and]
          intro _ hall
          have := (ih (r := l)).2 ⟨rfl, fun kv h => hall kv (List.mem_cons_of_mem _ h)⟩
          rw [hc] at this; cases this
        | ok r' =>
          obtain ⟨rfl, hall⟩ := (ih (r := r')).1 hc
          simp only [Except.ok.injEq, List.mem_cons, forall_eq_or_imp, hk, hv, and_self, true_and]
          exact ⟨fun e => ⟨e.symm, hall⟩, fun e => e.1.symm⟩
      · have : validValue v = false := by rw [← validValue_iff] at hv; simpa using hv
        rw [this]
        simp [hv]
    · have : validKey k = false := by rw [← validKey_iff] at hk; simpa using hk
      rw [this]
      simp [hk]

theorem fromKeyValue_ok {l : List (Str × Str)} {t : TraceState} (h : fromKeyValue l = .ok t) :
    t.entries = l ∧ ∀ kv ∈ l, AcceptedKey kv.1 ∧ AcceptedValue kv.2 := by
  unfold fromKeyValue at h
  cases hc : checkAll l with
  | error e => rw [hc] at h; cases h
  | ok r =>
    rw [hc] at h
    obtain ⟨rfl, hall⟩ := checkAll_ok.1 hc
    refine ⟨?_, hall⟩
    simp only at h
    split at h
    · rename_i he; cases h; simp [entries, List.isEmpty_iff.1 he]
    · cases h; rfl

theorem fromKeyValue_of_valid {l : List (Str × Str)} (h : ∀ kv ∈ l, AcceptedKey kv.1 ∧ AcceptedValue kv.2) :
    ∃ t, fromKeyValue l = .ok t ∧ t.entries = l := by
  have hc := (checkAll_ok (l := l) (r := l)).2 ⟨rfl, h⟩
  unfold fromKeyValue
  rw [hc]
  by_cases he : l.isEmpty = true
  · refine ⟨⟨Option.none⟩, by simp [he], ?_⟩
    rw [List.isEmpty_iff.1 he]; rfl
  · exact ⟨⟨some l⟩, by simp [he], rfl⟩

theorem get_eq (t : TraceState) (k : Str) : t.get k = lookup k t.entries := by
  rcases t with ⟨_ | kvs⟩ <;> rfl

theorem deleteFromDeque_entries (t : TraceState) (k : Str) :
    (t.deleteFromDeque k).entries = removeFirst k t.entries := by
  rcases t with ⟨_ | kvs⟩ <;> rfl

theorem lookup_removeFirst_ne {k k' : Str} (h : k' ≠ k) (l : List (Str × Str)) :
    lookup k' (removeFirst k l) = lookup k' l := by
  induction l with
  | nil => rfl
  | cons kv l ih =>
    obtain ⟨a, b⟩ := kv
    simp only [removeFirst]
    split
    · rename_i e; subst e
      simp [lookup, Ne.symm h]
    · simp only [lookup, ih]

theorem removeFirst_filter (k : Str) (l : List (Str × Str)) :
    (removeFirst k l).filter (fun e => e.1 ≠ k) = l.filter (fun e => e.1 ≠ k) := by
  induction l with
  | nil => rfl
  | cons kv l ih =>
    obtain ⟨a, b⟩ := kv
    simp only [removeFirst]
    split
    · rename_i e; subst e; simp
    · rename_i e; simp only [List.filter_cons, ih]

theorem removeFirst_nodup {k : Str} {l : List (Str × Str)} (h : (l.map Prod.fst).Nodup) :
    removeFirst k l = l.filter (fun e => e.1 ≠ k) := by
  induction l with
  | nil => rfl
  | cons kv l ih =>
    obtain ⟨a, b⟩ := kv
    simp only [List.map_cons, List.nodup_cons] at h
    simp only [removeFirst]
    split
    · rename_i e; subst e
      simp only [List.filter_cons, ne_eq, not_true_eq_false, decide_false, Bool.false_eq_true, if_false]
      rw [List.filter_eq_self.2]
      intro x hx
      simp only [decide_eq_true_eq]
      intro e; exact h.1 (e ▸ List.mem_map_of_mem hx)
    · rename_i e
      rw [ih h.2, List.filter_cons, if_pos (by simpa using e)]

theorem lookup_none_of_not_mem {k : Str} {l : List (Str × Str)} (h : k ∉ l.map Prod.fst) : lookup k l = Option.none := by
  induction l with
  | nil => rfl
  | cons kv l ih =>
    obtain ⟨a, b⟩ := kv
    simp only [List.map_cons, List.mem_cons, not_or] at h
    simp only [lookup]
    rw [if_neg (fun e => h.1 e.symm), ih h.2]

theorem filter_keys_nodup {l : List (Str × Str)} (k : Str) (h : (l.map Prod.fst).Nodup) :
    ((l.filter (fun e => e.1 ≠ k)).map Prod.fst).Nodup :=
  h.sublist (List.Sublist.map _ (List.filter_sublist))

theorem not_mem_filter_keys (k : Str) (l : List (Str × Str)) : k ∉ (l.filter (fun e => e.1 ≠ k)).map Prod.fst := by
  simp

/-- Characters of accepted keys are neither `,` nor `=`. -/
theorem key_no_delims {k : Str} (h : AcceptedKey k) : ',' ∉ k ∧ '=' ∉ k := by
  have h1 : ¬ (KeyChar ',' ∨ ',' = '@') := by
    rintro (h | h)
    · rw [← keychar_iff] at h; exact absurd h (by decide)
    · exact absurd h (by decide)
  have h2 : ¬ (KeyChar '=' ∨ '=' = '@') := by
    rintro (h | h)
    · rw [← keychar_iff] at h; exact absurd h (by decide)
    · exact absurd h (by decide)
  exact ⟨fun hm => h1 (h.2.1 _ hm), fun hm => h2 (h.2.1 _ hm)⟩

theorem parseMembers_header {l : List (Str × Str)} (h : ∀ kv ∈ l, AcceptedKey kv.1 ∧ AcceptedValue kv.2) :
    parseMembers (l.map (fun kv => kv.1 ++ ['='] ++ kv.2)) = .ok l := by
  induction l with
  | nil => rfl
  | cons kv l ih =>
    obtain ⟨k, v⟩ := kv
    obtain ⟨hk, hv⟩ := h (k, v) (by simp)
    simp only [List.map_cons, parseMembers, List.append_assoc, List.singleton_append]
    rw [breakAt_append (key_no_delims hk).2]
    simp only [List.append_assoc, List.singleton_append] at ih
    rw [ih (fun kv hkv => h kv (List.mem_cons_of_mem _ hkv))]
    simp only [Except.ok.injEq, List.cons.injEq, Prod.mk.injEq, and_true, true_and]
    simp only [trimStart, List.dropWhile_cons, BEq.rfl, if_true]
    cases v with
    | nil => rfl
    | cons x v =>
      have : x ≠ '=' := by
        intro e; subst e; exact hv.2.2 (by simp)
      simp [this]

end Otel.TraceState
