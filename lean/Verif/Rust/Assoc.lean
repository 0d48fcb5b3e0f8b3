/-!
# A `HashMap` as an association list

`insert` removes the old entry; `get` finds the first entry of a key. The order of the entries is unspecified in Rust: nothing may depend on it.
-/

namespace Rust.Assoc

variable {K V : Type} [DecidableEq K]

/-- `HashMap::get`. -/
def get : List (K × V) → K → Option V
  | [], _ => none
  | (a, b) :: l, k => if k = a then some b else get l k

/-- `HashMap::insert`. -/
def insert (l : List (K × V)) (k : K) (v : V) : List (K × V) := (k, v) :: l.filter (fun p => decide (p.1 ≠ k))

/-- Repeated `insert`, oldest first. -/
def insertAll (l : List (K × V)) (kvs : List (K × V)) : List (K × V) := kvs.foldl (fun m p => insert m p.1 p.2) l

theorem get_cons (p : K × V) (l : List (K × V)) (k : K) : get (p :: l) k = if k = p.1 then some p.2 else get l k := rfl

theorem get_filter_ne (l : List (K × V)) (k k' : K) (h : k' ≠ k) :
    get (l.filter (fun p => decide (p.1 ≠ k))) k' = get l k' := by
  induction l with
  | nil => rfl
  | cons p l ih =>
    obtain ⟨a, b⟩ := p
    by_cases ha : a = k
    · subst ha
      rw [List.filter_cons_of_neg (by simp), ih, get_cons, if_neg h]
    · rw [List.filter_cons_of_pos (by simp [ha]), get_cons, get_cons, ih]

theorem get_insert (l : List (K × V)) (k k' : K) (v : V) :
    get (insert l k v) k' = if k' = k then some v else get l k' := by
  rw [insert, get_cons]
  by_cases h : k' = k
  · rw [if_pos h, if_pos h]
  · rw [if_neg h, if_neg h]; exact get_filter_ne l k k' h

/-- The last entry for a key, as a search from the end. -/
def last (kvs : List (K × V)) (k : K) : Option V := get kvs.reverse k

theorem get_append (a b : List (K × V)) (k : K) : get (a ++ b) k = (get a k).or (get b k) := by
  induction a with
  | nil => rfl
  | cons p a ih =>
    rw [List.cons_append, get_cons, get_cons, ih]
    split <;> rfl

theorem get_insertAll (l kvs : List (K × V)) (k : K) : get (insertAll l kvs) k = (last kvs k).or (get l k) := by
  induction kvs generalizing l with
  | nil => rfl
  | cons p kvs ih =>
    show get (insertAll (insert l p.1 p.2) kvs) k = _
    rw [ih, get_insert, last, last, List.reverse_cons, get_append, Option.or_assoc]
    congr 1
    rw [get_cons]
    split <;> rfl

theorem nodup_insert {l : List (K × V)} (h : (l.map Prod.fst).Nodup) (k : K) (v : V) : ((insert l k v).map Prod.fst).Nodup := by
  rw [insert, List.map_cons, List.nodup_cons]
  refine ⟨?_, ?_⟩
  · intro hm
    obtain ⟨p, hp, he⟩ := List.mem_map.1 hm
    have := (List.mem_filter.1 hp).2
    simp [he] at this
  · exact h.sublist (List.filter_sublist.map _)

theorem nodup_insertAll {l : List (K × V)} (h : (l.map Prod.fst).Nodup) (kvs : List (K × V)) : ((insertAll l kvs).map Prod.fst).Nodup := by
  induction kvs generalizing l with
  | nil => exact h
  | cons p kvs ih => exact ih (nodup_insert h p.1 p.2)

theorem get_isSome {l : List (K × V)} {k : K} : (get l k).isSome = true ↔ k ∈ l.map Prod.fst := by
  induction l with
  | nil => simp [get]
  | cons p l ih =>
    rw [get_cons, List.map_cons, List.mem_cons]
    by_cases h : k = p.1
    · simp [h]
    · rw [if_neg h, ih]; simp [h]

theorem mem_of_get {l : List (K × V)} {k : K} {v : V} (h : get l k = some v) : (k, v) ∈ l := by
  induction l with
  | nil => cases h
  | cons p l ih =>
    rw [get_cons] at h
    by_cases he : k = p.1
    · subst he; rw [if_pos rfl] at h; injection h with h; subst h; exact List.mem_cons_self
    · rw [if_neg he] at h
      exact List.mem_cons_of_mem _ (ih h)

theorem get_of_mem {l : List (K × V)} (hn : (l.map Prod.fst).Nodup) {k : K} {v : V} (h : (k, v) ∈ l) : get l k = some v := by
  induction l with
  | nil => cases h
  | cons p l ih =>
    rw [List.map_cons, List.nodup_cons] at hn
    rw [get_cons]
    rcases List.mem_cons.1 h with h | h
    · subst h; rw [if_pos rfl]
    · have hne : k ≠ p.1 := fun he => hn.1 (he ▸ List.mem_map.2 ⟨_, h, rfl⟩)
      rw [if_neg hne]; exact ih hn.2 h

/-- Reading a map in another order and inserting the entries gives the same map: with unique keys the last entry is the only one. -/
theorem last_of_nodup {l : List (K × V)} (hn : (l.map Prod.fst).Nodup) (k : K) : last l k = get l k := by
  have hr : (l.reverse.map Prod.fst).Nodup := by rw [List.map_reverse]; exact List.pairwise_reverse.2 (hn.imp fun h => h.symm)
  cases h : last l k with
  | some v =>
    have := mem_of_get h
    exact (get_of_mem hn (List.mem_reverse.1 this)).symm
  | none =>
    cases h' : get l k with
    | none => rfl
    | some v =>
      have := get_of_mem hr (List.mem_reverse.2 (mem_of_get h'))
      rw [last, this] at h; cases h

end Rust.Assoc
