import Verif.Trace.TraceStateLemmas
/-! # Property theorems: trace state (C09, C10) -/

namespace Otel.TraceState
open Rust TraceStateSpec

/-! ## C09 -/

/-- **C09 (insert), every trace state.** `insert` succeeds exactly for an accepted key and value. Then the key reads
back the value and is the first entry; every other key reads the same as before, and the entries of other keys keep
their relative order. -/
theorem insert_spec (t : TraceState) (k v : Str) :
    ((∃ t', t.insert k v = .ok t') ↔ AcceptedKey k ∧ AcceptedValue v) ∧
    ∀ t', t.insert k v = .ok t' →
      t'.get k = some v ∧ t'.entries.head? = some (k, v) ∧ (∀ k', k' ≠ k → t'.get k' = t.get k') ∧
      t'.entries.filter (fun e => e.1 ≠ k) = t.entries.filter (fun e => e.1 ≠ k) := by
  unfold insert
  by_cases hk : AcceptedKey k
  · rw [(validKey_iff k).2 hk]
    by_cases hv : AcceptedValue v
    · rw [(validValue_iff v).2 hv]
      simp only [Bool.not_true, Bool.false_eq_true, if_false, Except.ok.injEq, exists_eq', true_iff]
      refine ⟨⟨hk, hv⟩, ?_⟩
      rintro t' rfl
      have he : (t.deleteFromDeque k).kvs.getD [] = removeFirst k t.entries := deleteFromDeque_entries t k
      refine ⟨by simp [get, lookup], rfl, ?_, ?_⟩
      · intro k' hk'
        rw [get_eq, get_eq]
        simp only [entries, Option.getD_some, he, lookup]
        rw [if_neg (Ne.symm hk'), lookup_removeFirst_ne hk']
      · simp only [entries, Option.getD_some, he, List.filter_cons]
        simp only [ne_eq, not_true_eq_false, decide_false, Bool.false_eq_true, if_false]
        exact removeFirst_filter k _
    · have : validValue v = false := by rw [← validValue_iff] at hv; simpa using hv
      rw [this]; simp [hv]
  · have : validKey k = false := by rw [← validKey_iff] at hk; simpa using hk
    rw [this]; simp [hk]

/-- The full statement of C09 for deletion. -/
def DeleteRemovesKey : Prop :=
  ∀ (kvs : List (Str × Str)) (k : Str) (t t' : TraceState),
    fromKeyValue kvs = .ok t → t.delete k = .ok t' → t'.get k = Option.none

/-- **C09 (delete) is violated**: a trace state built from a list with a repeated key still has the key after
`delete`. -/
theorem delete_violated : ¬ DeleteRemovesKey := by
  intro h
  have := h [("a".toList, "1".toList), ("a".toList, "2".toList)] "a".toList
    ⟨some [("a".toList, "1".toList), ("a".toList, "2".toList)]⟩ ⟨some [("a".toList, "2".toList)]⟩ (by decide) (by decide)
  exact absurd this (by decide)

/-- The same through a header: `a=1,a=2` parses, and deleting `a` leaves `a=2`. -/
example : ∃ t t', fromStr "a=1,a=2".toList = .ok t ∧ t.delete "a".toList = .ok t' ∧ t'.header = "a=2".toList :=
  ⟨⟨some [("a".toList, "1".toList), ("a".toList, "2".toList)]⟩, ⟨some [("a".toList, "2".toList)]⟩, by decide, by decide, by decide⟩

/-- **C09 (delete), the part that holds.** `delete` succeeds exactly for an accepted key; other keys read as before and
keep their order. If the keys are distinct, the deleted key is gone. -/
theorem delete_partial (t : TraceState) (k : Str) :
    ((∃ t', t.delete k = .ok t') ↔ AcceptedKey k) ∧
    ∀ t', t.delete k = .ok t' →
      (∀ k', k' ≠ k → t'.get k' = t.get k') ∧
      t'.entries.filter (fun e => e.1 ≠ k) = t.entries.filter (fun e => e.1 ≠ k) ∧
      ((t.entries.map Prod.fst).Nodup → t'.get k = Option.none) := by
  unfold delete
  by_cases hk : AcceptedKey k
  · rw [(validKey_iff k).2 hk]
    simp only [Bool.not_true, Bool.false_eq_true, if_false, Except.ok.injEq, exists_eq', true_iff]
    refine ⟨hk, ?_⟩
    rintro t' rfl
    refine ⟨?_, ?_, ?_⟩
    · intro k' hk'
      rw [get_eq, get_eq, deleteFromDeque_entries, lookup_removeFirst_ne hk']
    · rw [deleteFromDeque_entries]; exact removeFirst_filter k _
    · intro hn
      rw [get_eq, deleteFromDeque_entries, removeFirst_nodup hn]
      exact lookup_none_of_not_mem (not_mem_filter_keys k _)
  · have : validKey k = false := by rw [← validKey_iff] at hk; simpa using hk
    rw [this]; simp [hk]

/-- One operation of the API; a refused one leaves the value as it was (the caller keeps the receiver). -/
def applyOp (t : TraceState) : Op → TraceState
  | .insert k v => match t.insert k v with | .ok t' => t' | .error _ => t
  | .delete k => match t.delete k with | .ok t' => t' | .error _ => t

/-- **C09 (histories).** From a trace state with distinct keys (for instance the empty one), any history of inserts and
deletes behaves like the ordered map, and keys stay distinct. -/
theorem history_partial (t : TraceState) (ops : List Op) (h : (t.entries.map Prod.fst).Nodup) :
    (ops.foldl applyOp t).entries = ops.foldl OMap.apply t.entries ∧
    ((ops.foldl applyOp t).entries.map Prod.fst).Nodup := by
  induction ops generalizing t with
  | nil => exact ⟨rfl, h⟩
  | cons op ops ih =>
    have step : (applyOp t op).entries = OMap.apply t.entries op ∧ ((applyOp t op).entries.map Prod.fst).Nodup := by
      cases op with
      | insert k v =>
        simp only [applyOp, OMap.apply, insert]
        by_cases hk : AcceptedKey k
        · rw [(validKey_iff k).2 hk]
          by_cases hv : AcceptedValue v
          · rw [(validValue_iff v).2 hv]
            have he : (t.deleteFromDeque k).kvs.getD [] = t.entries.filter (fun e => e.1 ≠ k) := by
              rw [← removeFirst_nodup h]; exact deleteFromDeque_entries t k
            simp only [Bool.not_true, Bool.false_eq_true, if_false, hk, hv, and_self, if_true, he, OMap.set]
            refine ⟨rfl, ?_⟩
            simp only [entries, Option.getD_some, List.map_cons, List.nodup_cons]
            exact ⟨not_mem_filter_keys k _, filter_keys_nodup k h⟩
          · have hf : validValue v = false := by rw [← validValue_iff] at hv; simpa using hv
            rw [hf]; simp [hv, h]
        · have hf : validKey k = false := by rw [← validKey_iff] at hk; simpa using hk
          rw [hf]; simp [hk, h]
      | delete k =>
        simp only [applyOp, OMap.apply, delete]
        by_cases hk : AcceptedKey k
        · rw [(validKey_iff k).2 hk]
          simp only [Bool.not_true, Bool.false_eq_true, if_false, hk, if_true, OMap.del]
          rw [deleteFromDeque_entries, removeFirst_nodup h]
          exact ⟨rfl, filter_keys_nodup k h⟩
        · have hf : validKey k = false := by rw [← validKey_iff] at hk; simpa using hk
          rw [hf]; simp [hk, h]
    obtain ⟨h1, h2⟩ := ih (applyOp t op) step.2
    simp only [List.foldl_cons]
    rw [step.1] at h1
    exact ⟨h1, h2⟩

example : (none.entries.map Prod.fst).Nodup ∧
    ([Op.insert "a".toList "1".toList, .insert "b".toList "2".toList, .insert "a".toList "3".toList,
      .insert "bad key".toList "4".toList].foldl applyOp none).header = "a=3,b=2".toList := by decide

/-! ## C10 -/

/-- Trace states obtainable through the public API. -/
inductive Built : TraceState → Prop
  | default : Built none
  | fromKeyValue {l t} : fromKeyValue l = .ok t → Built t
  | fromStr {s t} : fromStr s = .ok t → Built t
  | insert {t k v t'} : Built t → t.insert k v = .ok t' → Built t'
  | delete {t k t'} : Built t → t.delete k = .ok t' → Built t'

theorem removeFirst_subset (k : Str) (l : List (Str × Str)) : ∀ e ∈ removeFirst k l, e ∈ l := by
  induction l with
  | nil => simp [removeFirst]
  | cons kv l ih =>
    obtain ⟨a, b⟩ := kv
    simp only [removeFirst]
    split
    · intro e he; exact List.mem_cons_of_mem _ he
    · intro e he
      rcases List.mem_cons.1 he with rfl | he
      · simp
      · exact List.mem_cons_of_mem _ (ih e he)

/-- **C10 (validity).** Every entry of every trace state obtained through the API is accepted. -/
theorem built_valid {t : TraceState} (h : Built t) : ∀ kv ∈ t.entries, AcceptedKey kv.1 ∧ AcceptedValue kv.2 := by
  induction h with
  | default => intro kv h; simp [entries, none] at h
  | fromKeyValue h => obtain ⟨h1, h2⟩ := fromKeyValue_ok h; rw [h1]; exact h2
  | fromStr h =>
    unfold fromStr at h
    cases hp : parseMembers (splitTerminator ',' _) with
    | error e => rw [hp] at h; cases h
    | ok kvs => rw [hp] at h; obtain ⟨h1, h2⟩ := fromKeyValue_ok h; rw [h1]; exact h2
  | @insert t k v t' _ hi ih =>
    have hacc := (insert_spec t k v).1.1 ⟨_, hi⟩
    unfold insert at hi
    rw [(validKey_iff k).2 hacc.1, (validValue_iff v).2 hacc.2] at hi
    simp only [Bool.not_true, Bool.false_eq_true, if_false, Except.ok.injEq] at hi
    subst hi
    have he : (t.deleteFromDeque k).kvs.getD [] = removeFirst k t.entries := deleteFromDeque_entries t k
    intro kv hkv
    simp only [entries, Option.getD_some, he, List.mem_cons] at hkv
    rcases hkv with rfl | hkv
    · exact hacc
    · exact ih kv (removeFirst_subset k _ kv hkv)
  | @delete t k t' _ hd ih =>
    unfold delete at hd
    split at hd
    · cases hd
    · cases hd
      intro kv hkv
      rw [deleteFromDeque_entries] at hkv
      exact ih kv (removeFirst_subset k _ kv hkv)

/-- **C10 (round trip).** Parsing the header of a trace state obtained through the API succeeds and gives the same
entries in the same order. -/
theorem header_roundtrip {t : TraceState} (h : Built t) :
    ∃ t', fromStr t.header = .ok t' ∧ t'.entries = t.entries := by
  have hv := built_valid h
  have hheader : t.header = join [','] (t.entries.map (fun kv => kv.1 ++ ['='] ++ kv.2)) := by
    rcases t with ⟨_ | kvs⟩
    · rfl
    · rfl
  have hparse : parseMembers (splitTerminator ',' t.header) = .ok t.entries := by
    rw [hheader]
    by_cases hne : t.entries = []
    · rw [hne]; simp [join, splitTerminator_nil, parseMembers]
    · rw [splitTerminator_join (by simpa using hne)]
      · exact parseMembers_header hv
      · intro p hp
        obtain ⟨kv, hkv, rfl⟩ := List.mem_map.1 hp
        obtain ⟨hk, hval⟩ := hv kv hkv
        simp only [List.append_assoc, List.singleton_append, List.mem_append, List.mem_cons, not_or]
        exact ⟨(key_no_delims hk).1, by decide, hval.2.1⟩
      · intro hl
        have hm := List.mem_of_getLast? hl
        obtain ⟨kv, _, he⟩ := List.mem_map.1 hm
        simp at he
  obtain ⟨t', ht', he⟩ := fromKeyValue_of_valid hv
  exact ⟨t', by unfold fromStr; rw [hparse]; exact ht', he⟩

example : Built ⟨some [("b".toList, "2".toList), ("a@x".toList, "1".toList)]⟩ :=
  .insert (t := ⟨some [("a@x".toList, "1".toList)]⟩) (k := "b".toList) (v := "2".toList)
    (.fromStr (s := "a@x=1".toList) (by decide)) (by decide)

/-- **C10 (keys against the W3C grammar).** A non-empty accepted key is a key of the W3C recommendation. -/
theorem accepted_key_w3c_partial {k : Str} (h : AcceptedKey k) (hne : k ≠ []) : W3CKey k := by
  refine ⟨h.1, ?_, h.2.1⟩
  cases k with
  | nil => exact absurd rfl hne
  | cons c r => exact ⟨c, r, rfl, h.2.2.1 c r rfl⟩

example : AcceptedKey "tenant@sys".toList ∧ "tenant@sys".toList ≠ [] := by
  rw [← validKey_iff]; decide

/-- **C10 against the grammar is violated**: the empty key is accepted (the header `=v` parses), although the grammar
requires at least one character. -/
theorem empty_key_violated : (∃ t, fromStr "=v".toList = .ok t ∧ ([], "v".toList) ∈ t.entries) ∧ ¬ W3CKey [] := by
  refine ⟨⟨⟨some [([], "v".toList)]⟩, by decide, by decide⟩, ?_⟩
  rintro ⟨_, ⟨c, r, h, _⟩, _⟩
  cases h

/-- **C10, converse, violated**: the key `t@aaaaaaaaaaaaaa` (a system id of 14 characters, allowed by the grammar) is
refused; and a list with a blank after the comma, which the grammar allows, is refused as a whole. -/
theorem w3c_key_refused_violated :
    W3CKey "t@aaaaaaaaaaaaaa".toList ∧ (∀ v, ∃ e, none.insert "t@aaaaaaaaaaaaaa".toList v = .error e) ∧
    (∃ e, fromStr "a=1, b=2".toList = .error e) := by
  refine ⟨⟨by decide, ⟨'t', _, rfl, Or.inl (by decide)⟩, ?_⟩, ?_, ⟨.key " b".toList, by decide⟩⟩
  · intro c hc
    have : (isAsciiLower c || isAsciiDigit c || allowedSpecial c || c == '@') = true := by
      revert c hc; decide
    rw [Bool.or_eq_true, keychar_iff] at this
    simpa using this
  · intro v
    refine ⟨.key "t@aaaaaaaaaaaaaa".toList, ?_⟩
    have : validKey "t@aaaaaaaaaaaaaa".toList = false := by decide
    unfold insert; rw [this]; rfl

end Otel.TraceState
