import Verif.Metrics.ValueMapSpec
import Mathlib.Data.List.Nodup
import Mathlib.Order.Basic
/-! # Lemmas about the value map -/

namespace Otel.Metrics

set_option linter.unusedSectionVars false

variable {K V : Type} [LinearOrder K] [DecidableEq V] {A X : Type}

/-! ## sort_and_dedup -/

/-- Keys strictly increase. -/
abbrev Strict (l : Attrs K V) : Prop := l.Pairwise fun a b => a.1 < b.1

theorem dedupAfter_sublist (a : K × V) (l : Attrs K V) : (dedupAfter a l).Sublist l := by
  induction l generalizing a with
  | nil => exact List.Sublist.refl _
  | cons b l ih =>
    simp only [dedupAfter]
    split
    · exact (ih a).cons b
    · exact (ih b).cons_cons b

theorem dedupByKey_sublist (l : Attrs K V) : (dedupByKey l).Sublist l := by
  cases l with
  | nil => exact List.Sublist.refl _
  | cons a l => exact (dedupAfter_sublist a l).cons_cons a

theorem dedupAfter_strict (a : K × V) (l : Attrs K V) (h : (a :: l).Pairwise fun a b => a.1 ≤ b.1) :
    Strict (a :: dedupAfter a l) := by
  induction l generalizing a with
  | nil => simp [dedupAfter, Strict]
  | cons b l ih =>
    simp only [dedupAfter]
    obtain ⟨h1, h2⟩ := List.pairwise_cons.1 h
    split
    · exact ih a (List.pairwise_cons.2 ⟨fun x hx => h1 x (List.mem_cons_of_mem _ hx), (List.pairwise_cons.1 h2).2⟩)
    · rename_i hne
      have hlt : a.1 < b.1 := lt_of_le_of_ne (h1 b List.mem_cons_self) (Ne.symm hne)
      refine List.pairwise_cons.2 ⟨?_, ih b h2⟩
      intro x hx
      rcases List.mem_cons.1 hx with rfl | hx
      · exact hlt
      · exact lt_of_lt_of_le hlt ((List.pairwise_cons.1 h2).1 x ((dedupAfter_sublist b l).subset hx))

theorem dedupByKey_strict (l : Attrs K V) (h : l.Pairwise fun a b => a.1 ≤ b.1) : Strict (dedupByKey l) := by
  cases l with
  | nil => simp [dedupByKey, Strict]
  | cons a l => exact dedupAfter_strict a l h

theorem dedupByKey_of_strict (l : Attrs K V) (h : Strict l) : dedupByKey l = l := by
  cases l with
  | nil => rfl
  | cons a l =>
    simp only [dedupByKey]
    congr 1
    induction l generalizing a with
    | nil => rfl
    | cons b l ih =>
      obtain ⟨h1, h2⟩ := List.pairwise_cons.1 h
      simp only [dedupAfter]
      rw [if_neg (ne_of_gt (h1 b List.mem_cons_self)), ih b h2]

theorem strict_perm_eq {l l' : Attrs K V} (h : Strict l) (h' : l'.Pairwise fun a b => a.1 ≤ b.1) (hp : l'.Perm l) : l' = l := by
  refine List.Perm.eq_of_pairwise (le := fun a b => a.1 ≤ b.1) ?_ h' (h.imp fun hab => le_of_lt hab) hp
  intro a b ha hb hab hba
  have hk : a.1 = b.1 := le_antisymm hab hba
  have hn : (l.map Prod.fst).Nodup := by
    rw [List.Nodup, List.pairwise_map]; exact h.imp fun hab => ne_of_lt hab
  exact List.inj_on_of_nodup_map hn (hp.subset ha) hb hk

theorem canon_strict (srt : Sorter K V) (l : Attrs K V) : Strict (sortAndDedup srt l) :=
  dedupByKey_strict _ (srt.sorted l)

theorem sort_of_strict (srt : Sorter K V) (l : Attrs K V) (h : Strict l) : srt.sort l = l :=
  strict_perm_eq h (srt.sorted l) (srt.perm l)

theorem canon_of_strict (srt : Sorter K V) (l : Attrs K V) (h : Strict l) : sortAndDedup srt l = l := by
  rw [sortAndDedup, sort_of_strict srt l h, dedupByKey_of_strict l h]

theorem canon_idem (srt : Sorter K V) (l : Attrs K V) : sortAndDedup srt (sortAndDedup srt l) = sortAndDedup srt l :=
  canon_of_strict srt _ (canon_strict srt l)

theorem canon_singleton (srt : Sorter K V) (a : K × V) : sortAndDedup srt [a] = [a] :=
  canon_of_strict srt _ (by simp [Strict])

theorem canon_nil (srt : Sorter K V) : sortAndDedup srt [] = ([] : Attrs K V) := canon_of_strict srt _ (by simp [Strict])

theorem canon_eq_nil (srt : Sorter K V) (l : Attrs K V) : sortAndDedup srt l = [] ↔ l = [] := by
  constructor
  · intro h
    have hp := srt.perm l
    unfold sortAndDedup at h
    cases hs : srt.sort l with
    | nil => rw [hs] at hp; exact List.nil_perm.1 hp
    | cons a t => rw [hs] at h; simp [dedupByKey] at h
  · rintro rfl; exact canon_nil srt

/-- For lists without repeated keys the canonical form is the sorted list. -/
theorem canon_perm (srt : Sorter K V) (l : Attrs K V) (h : (l.map Prod.fst).Nodup) : (sortAndDedup srt l).Perm l := by
  have hn : ((srt.sort l).map Prod.fst).Nodup := ((srt.perm l).map Prod.fst).nodup_iff.2 h
  have hs : Strict (srt.sort l) := by
    have h1 := srt.sorted l
    rw [List.Nodup, List.pairwise_map] at hn
    exact (h1.and hn).imp fun hab => lt_of_le_of_ne hab.1 hab.2
  rw [sortAndDedup, dedupByKey_of_strict _ hs]
  exact srt.perm l

/-- Two lists without repeated keys have the same canonical form iff they are permutations of each other. -/
theorem canon_eq_iff_perm (srt : Sorter K V) (l l' : Attrs K V) (h : (l.map Prod.fst).Nodup) (h' : (l'.map Prod.fst).Nodup) :
    sortAndDedup srt l = sortAndDedup srt l' ↔ l.Perm l' := by
  constructor
  · intro he
    exact (canon_perm srt l h).symm.trans (he ▸ canon_perm srt l' h')
  · intro hp
    have := ((canon_perm srt l h).trans hp).trans (canon_perm srt l' h').symm
    exact strict_perm_eq (canon_strict srt l') ((canon_strict srt l).imp fun hab => le_of_lt hab) this

/-! ## the specification -/

section Spec

variable {c : Attrs K V → Attrs K V} {limit : Nat} {ov : Attrs K V}

theorem mem_setsOf (c : Attrs K V → Attrs K V) (h : Hist K V X) (s : Attrs K V) :
    s ∈ setsOf c h ↔ ∃ e ∈ h, e.2 ≠ [] ∧ c e.2 = s := by
  induction h with
  | nil => simp [setsOf]
  | cons e h ih =>
    obtain ⟨x, a⟩ := e
    simp only [setsOf]
    split
    · rename_i ha; simp [ih, ha]
    · rename_i ha
      simp only [List.mem_cons, List.mem_filter, ih, decide_eq_true_eq, exists_eq_or_imp]
      constructor
      · rintro (rfl | ⟨h1, _⟩)
        · exact Or.inl ⟨ha, rfl⟩
        · exact Or.inr h1
      · rintro (⟨_, rfl⟩ | h1)
        · exact Or.inl rfl
        · by_cases he : s = c a
          · exact Or.inl he
          · exact Or.inr ⟨h1, he⟩

theorem setsOf_append (c : Attrs K V → Attrs K V) (h : Hist K V X) (x : X) (a : Attrs K V) :
    setsOf c (h ++ [(x, a)]) = if a = [] ∨ c a ∈ setsOf c h then setsOf c h else setsOf c h ++ [c a] := by
  induction h with
  | nil => by_cases ha : a = [] <;> simp [setsOf, ha]
  | cons e h ih =>
    obtain ⟨y, b⟩ := e
    simp only [List.cons_append, setsOf, ih]
    by_cases hb : b = []
    · simp only [if_pos hb]
    · simp only [if_neg hb, List.mem_cons, List.mem_filter, decide_eq_true_eq]
      by_cases ha : a = []
      · simp [ha]
      · by_cases hab : c a = c b
        · simp only [ha, hab, false_or, true_or, if_true]
          split
          · rfl
          · simp
        · by_cases hm : c a ∈ setsOf c h
          · simp [ha, hm, hab]
          · simp [ha, hm, hab, List.filter_append]

theorem setsOf_nodup (c : Attrs K V → Attrs K V) (h : Hist K V X) : (setsOf c h).Nodup := by
  induction h with
  | nil => simp [setsOf]
  | cons e h ih =>
    obtain ⟨x, a⟩ := e
    simp only [setsOf]
    split
    · exact ih
    · refine List.nodup_cons.2 ⟨by simp, ih.filter _⟩

theorem admitted_mono (h : Hist K V X) (x : X) (a s : Attrs K V) (hs : s ∈ admitted c limit h) :
    s ∈ admitted c limit (h ++ [(x, a)]) := by
  simp only [admitted, setsOf_append]
  split
  · exact hs
  · rw [List.take_append]; exact List.mem_append_left _ hs

/-- A set measured before keeps its status. -/
theorem admitted_old (h : Hist K V X) (x : X) (a s : Attrs K V) (hs : s ∈ setsOf c h) :
    s ∈ admitted c limit (h ++ [(x, a)]) ↔ s ∈ admitted c limit h := by
  constructor
  · intro h1
    simp only [admitted, setsOf_append] at h1 ⊢
    split at h1
    · exact h1
    · rename_i hn
      rw [List.take_append, List.mem_append] at h1
      rcases h1 with h1 | h1
      · exact h1
      · have := List.mem_of_mem_take h1
        simp at this
        subst this
        exact absurd (Or.inr hs) hn
  · exact admitted_mono h x a s

theorem route_old (h : Hist K V X) (x : X) (a : Attrs K V) (e : X × Attrs K V) (he : e ∈ h) :
    route c limit ov (h ++ [(x, a)]) e.2 = route c limit ov h e.2 := by
  simp only [route]
  split
  · rfl
  · rename_i hne
    have := admitted_old (limit := limit) h x a (c e.2) ((mem_setsOf c h _).2 ⟨e, he, hne, rfl⟩)
    simp only [this]

theorem valuesOf_append (h : Hist K V X) (x : X) (a s : Attrs K V) :
    valuesOf c limit ov (h ++ [(x, a)]) s
      = valuesOf c limit ov h s ++ if route c limit ov (h ++ [(x, a)]) a = s then [x] else [] := by
  simp only [valuesOf, List.filter_append, List.map_append]
  congr 1
  · congr 1
    apply List.filter_congr
    intro e he
    rw [route_old h x a e he]
  · simp only [List.filter_cons, List.filter_nil]
    split <;> rename_i h1 <;> simp at h1 <;> simp [h1]

theorem valuesOf_ne_nil (h : Hist K V X) (s : Attrs K V) :
    valuesOf c limit ov h s ≠ [] ↔ ∃ e ∈ h, route c limit ov h e.2 = s := by
  simp [valuesOf, List.filter_eq_nil_iff]

theorem admitted_values (h : Hist K V X) (s : Attrs K V) (hs : s ∈ admitted c limit h) : valuesOf c limit ov h s ≠ [] := by
  obtain ⟨e, he, hne, hc⟩ := (mem_setsOf c h s).1 (List.mem_of_mem_take hs)
  refine (valuesOf_ne_nil h s).2 ⟨e, he, ?_⟩
  simp [route, hne, hc, hs]

end Spec

/-! ## the map -/

theorem get_iff {m : ValueMap K V A} (hn : (m.trackers.map Prod.fst).Nodup) (a : Attrs K V) (p : Nat) :
    m.get a = some p ↔ (a, p) ∈ m.trackers := by
  simp only [ValueMap.get, Option.map_eq_some_iff]
  constructor
  · rintro ⟨e, he, rfl⟩
    have h1 := List.mem_of_find?_eq_some he
    have h2 : e.1 = a := by simpa using List.find?_some he
    rw [← h2]; exact h1
  · intro h
    cases hf : m.trackers.find? fun e => e.1 = a with
    | none => exact absurd (List.find?_eq_none.1 hf (a, p) h) (by simp)
    | some e =>
      refine ⟨e, rfl, ?_⟩
      have h1 := List.mem_of_find?_eq_some hf
      have h2 : e.1 = a := by simpa using List.find?_some hf
      have := List.inj_on_of_nodup_map hn h1 h h2
      rw [this]

theorem get_none {m : ValueMap K V A} (a : Attrs K V) : m.get a = none ↔ ∀ p, (a, p) ∉ m.trackers := by
  simp only [ValueMap.get, Option.map_eq_none_iff, List.find?_eq_none, decide_eq_true_eq]
  constructor
  · intro h p hp; exact h _ hp rfl
  · rintro h e he rfl; exact h e.2 he

theorem insertTracker_new {l : List (Attrs K V × Nat)} {a : Attrs K V} (h : ∀ p, (a, p) ∉ l) (p : Nat) :
    insertTracker l a p = l ++ [(a, p)] := by
  unfold insertTracker
  rw [if_neg]
  simp only [List.any_eq_true, decide_eq_true_eq, not_exists, not_and]
  rintro e he rfl; exact h e.2 he

theorem insertTracker_same {l : List (Attrs K V × Nat)} {a : Attrs K V} {p : Nat} (hn : (l.map Prod.fst).Nodup) (h : (a, p) ∈ l) :
    insertTracker l a p = l := by
  unfold insertTracker
  rw [if_pos (by simp only [List.any_eq_true, decide_eq_true_eq]; exact ⟨_, h, rfl⟩)]
  conv_rhs => rw [← List.map_id l]
  apply List.map_congr_left
  intro e he
  split
  · rename_i hea; exact List.inj_on_of_nodup_map hn h he hea.symm
  · rfl

/-- The map after a history of measurements. -/
structure MInv (c : Attrs K V → Attrs K V) (agg : Aggregator A X) (limit : Nat) (ov : Attrs K V) (m : ValueMap K V A) (h : Hist K V X) : Prop where
  nodup : (m.trackers.map Prod.fst).Nodup
  nonempty : ∀ e ∈ m.trackers, e.1 ≠ []
  closed : ∀ e ∈ m.trackers, (c e.1, e.2) ∈ m.trackers
  inj : ∀ e ∈ m.trackers, ∀ f ∈ m.trackers, e.2 = f.2 → c e.1 = c f.1
  fresh : ∀ e ∈ m.trackers, e.2 < m.next
  count : m.count = (admitted c limit h).length
  dom : ∀ s, (∃ e ∈ m.trackers, c e.1 = s) ↔ s ≠ [] ∧ valuesOf c limit ov h s ≠ []
  vals : ∀ e ∈ m.trackers, m.heap e.2 = (valuesOf c limit ov h (c e.1)).foldl agg.update agg.create
  noAttr : m.noAttributeTracker = (valuesOf c limit ov h []).foldl agg.update agg.create
  hasNoAttr : m.hasNoAttributeValue = true ↔ valuesOf c limit ov h [] ≠ []

/-- What is needed of canonical forms. -/
structure Canon (c : Attrs K V → Attrs K V) (ov : Attrs K V) : Prop where
  idem : ∀ a, c (c a) = c a
  nil : ∀ a, c a = [] ↔ a = []
  fixOv : c ov = ov
  ovne : ov ≠ []

theorem canon_sortAndDedup (srt : Sorter K V) (o : K × V) : Canon (sortAndDedup srt) [o] :=
  ⟨canon_idem srt, canon_eq_nil srt, canon_singleton srt o, by simp⟩

section Inv

variable {c : Attrs K V → Attrs K V} {agg : Aggregator A X} {limit : Nat} {ov : Attrs K V}

theorem minv_new : MInv c agg limit ov (ValueMap.new agg) [] := by
  constructor <;> simp [ValueMap.new, valuesOf, admitted, setsOf]

theorem route_ne_nil (hc : Canon c ov) (h : Hist K V X) (a : Attrs K V) (ha : a ≠ []) : route c limit ov h a ≠ [] := by
  simp only [route, if_neg ha]
  split
  · intro h1; exact ha ((hc.nil a).1 h1)
  · exact hc.ovne

/-- A measurement that finds its tracker. -/
theorem minv_update {m : ValueMap K V A} {h : Hist K V X} (hi : MInv c agg limit ov m h) (x : X) (a : Attrs K V)
    (s : Attrs K V) (p : Nat) (hp : (s, p) ∈ m.trackers) (hs : c s = s) (hr : route c limit ov (h ++ [(x, a)]) a = s)
    (hcount : m.count = (admitted c limit (h ++ [(x, a)])).length) : MInv c agg limit ov (m.updateAt agg p x) (h ++ [(x, a)]) := by
  have hsne : s ≠ [] := hi.nonempty _ hp
  refine ⟨hi.nodup, hi.nonempty, hi.closed, hi.inj, hi.fresh, hcount, ?_, ?_, ?_, ?_⟩
  · intro t
    rw [show (∃ e ∈ (m.updateAt agg p x).trackers, c e.1 = t) ↔ (∃ e ∈ m.trackers, c e.1 = t) from Iff.rfl, hi.dom t, valuesOf_append, hr]
    by_cases hst : s = t
    · subst hst
      have := (hi.dom s).1 ⟨_, hp, hs⟩
      simp [this.1, this.2]
    · simp [hst]
  · intro e he
    show (if e.2 = p then agg.update (m.heap e.2) x else m.heap e.2) = _
    rw [valuesOf_append, hr]
    by_cases hep : e.2 = p
    · have : c e.1 = s := by rw [← hs]; exact hi.inj e he (s, p) hp hep
      rw [if_pos hep, this, if_pos rfl, List.foldl_append, ← this, ← hi.vals e he]; rfl
    · rw [if_neg hep]
      have : s ≠ c e.1 := by
        intro h1
        have h2 := hi.closed e he
        rw [← h1] at h2
        have := List.inj_on_of_nodup_map hi.nodup h2 hp rfl
        exact hep (by simpa using congrArg Prod.snd this)
      rw [if_neg this, List.append_nil, hi.vals e he]
  · show m.noAttributeTracker = _
    rw [valuesOf_append, hr, if_neg hsne, List.append_nil, hi.noAttr]
  · show m.hasNoAttributeValue = true ↔ _
    rw [valuesOf_append, hr, if_neg hsne, List.append_nil, hi.hasNoAttr]

/-- A measurement that makes a tracker, entered under `a'` and its canonical form `s`. -/
theorem minv_insert (hc : Canon c ov) {m : ValueMap K V A} {h : Hist K V X} (hi : MInv c agg limit ov m h) (x : X) (a : Attrs K V)
    (a' s : Attrs K V) (ha' : a' ≠ []) (hca : c a' = s) (hnew : ∀ e ∈ m.trackers, c e.1 ≠ s)
    (hr : route c limit ov (h ++ [(x, a)]) a = s) (m' : ValueMap K V A)
    (htr : ∀ e, e ∈ m'.trackers ↔ e ∈ m.trackers ∨ (e.2 = m.next ∧ (e.1 = a' ∨ e.1 = s)))
    (hnd : (m'.trackers.map Prod.fst).Nodup)
    (hheap : m'.heap = (m.alloc agg x).heap) (hnext : m'.next = m.next + 1)
    (hno : m'.noAttributeTracker = m.noAttributeTracker) (hhas : m'.hasNoAttributeValue = m.hasNoAttributeValue)
    (hcount : m'.count = (admitted c limit (h ++ [(x, a)])).length) : MInv c agg limit ov m' (h ++ [(x, a)]) := by
  have hcs : c s = s := by rw [← hca]; exact hc.idem a'
  have hsne : s ≠ [] := by intro h1; rw [← hca, hc.nil] at h1; exact ha' h1
  have hfs : valuesOf c limit ov h s = [] := by
    by_contra hne
    obtain ⟨e, he, h1⟩ := (hi.dom s).2 ⟨hsne, hne⟩
    exact hnew e he h1
  have hcnew : ∀ e : Attrs K V × Nat, (e.2 = m.next ∧ (e.1 = a' ∨ e.1 = s)) → c e.1 = s := by
    rintro e ⟨_, h1 | h1⟩
    · rw [h1, hca]
    · rw [h1, hcs]
  refine ⟨hnd, ?_, ?_, ?_, ?_, hcount, ?_, ?_, ?_, ?_⟩
  · intro e he
    rcases (htr e).1 he with he | ⟨_, h1 | h1⟩
    · exact hi.nonempty e he
    · rw [h1]; exact ha'
    · rw [h1]; exact hsne
  · intro e he
    rcases (htr e).1 he with he | h1
    · exact (htr _).2 (Or.inl (hi.closed e he))
    · exact (htr _).2 (Or.inr ⟨h1.1, Or.inr (hcnew e h1)⟩)
  · intro e he f hf hef
    rcases (htr e).1 he with he | he <;> rcases (htr f).1 hf with hf | hf
    · exact hi.inj e he f hf hef
    · have := hi.fresh e he; omega
    · have := hi.fresh f hf; omega
    · rw [hcnew e he, hcnew f hf]
  · intro e he
    rw [hnext]
    rcases (htr e).1 he with he | he
    · have := hi.fresh e he; omega
    · omega
  · intro t
    rw [valuesOf_append, hr]
    by_cases hst : s = t
    · subst hst
      refine ⟨fun _ => ⟨hsne, by simp⟩, fun _ => ⟨(s, m.next), (htr _).2 (Or.inr ⟨rfl, Or.inr rfl⟩), hcs⟩⟩
    · rw [if_neg hst, List.append_nil, ← hi.dom t]
      constructor
      · rintro ⟨e, he, h1⟩
        rcases (htr e).1 he with he | he
        · exact ⟨e, he, h1⟩
        · exact absurd ((hcnew e he).symm.trans h1) hst
      · rintro ⟨e, he, h1⟩; exact ⟨e, (htr e).2 (Or.inl he), h1⟩
  · intro e he
    rw [valuesOf_append, hr, hheap]
    show (if e.2 = m.next then agg.update agg.create x else m.heap e.2) = _
    rcases (htr e).1 he with he | he
    · have h1 := hi.fresh e he
      rw [if_neg (by omega), if_neg (fun h2 => hnew e he h2.symm), List.append_nil, hi.vals e he]
    · rw [if_pos he.1, hcnew e he, if_pos rfl, hfs]; rfl
  · rw [hno, valuesOf_append, hr, if_neg hsne, List.append_nil, hi.noAttr]
  · rw [hhas, valuesOf_append, hr, if_neg hsne, List.append_nil, hi.hasNoAttr]

theorem admitted_length_le (h : Hist K V X) : (admitted c limit h).length ≤ limit := by simp [admitted]; omega

/-- A tracker found for the set of `a`: the measurement belongs there, and no set is newly admitted. -/
theorem found_route {m : ValueMap K V A} {h : Hist K V X} (hi : MInv c agg limit ov m h) (x : X) (a : Attrs K V) (ha : a ≠ [])
    (p : Nat) (hp : (c a, p) ∈ m.trackers) (hcc : c (c a) = c a) :
    route c limit ov (h ++ [(x, a)]) a = c a ∧ m.count = (admitted c limit (h ++ [(x, a)])).length := by
  obtain ⟨_, hv⟩ := (hi.dom (c a)).1 ⟨_, hp, hcc⟩
  obtain ⟨e, he, hre⟩ := (valuesOf_ne_nil h _).1 hv
  have hne : e.2 ≠ [] := by
    intro h1
    rw [route, if_pos h1] at hre
    exact hi.nonempty _ hp hre.symm
  simp only [route, if_neg hne] at hre
  by_cases had : c e.2 ∈ admitted c limit h
  · rw [if_pos had] at hre
    rw [hre] at had
    have hmem : c a ∈ setsOf c h := List.mem_of_mem_take had
    refine ⟨by simp [route, ha, admitted_mono h x a _ had], ?_⟩
    rw [hi.count]; simp [admitted, setsOf_append, hmem]
  · rw [if_neg had] at hre
    have hlim : limit ≤ (setsOf c h).length := by
      by_contra hlt
      exact had (by rw [admitted, List.take_of_length_le (by omega)]; exact (mem_setsOf c h _).2 ⟨e, he, hne, rfl⟩)
    refine ⟨by simp only [route, if_neg ha, ← hre]; simp, ?_⟩
    rw [hi.count]
    simp only [admitted, setsOf_append]
    split
    · rfl
    · simp; omega

theorem minv_measureWrite {srt : Sorter K V} (hcs : c = sortAndDedup srt) (hc : Canon c ov) {m : ValueMap K V A} {h : Hist K V X} (hi : MInv c agg limit ov m h) (x : X)
    (a : Attrs K V) (ha : a ≠ []) : MInv c agg limit ov (m.measureWrite srt agg limit ov x a) (h ++ [(x, a)]) := by
  unfold ValueMap.measureWrite
  rw [← hcs]
  split
  · rename_i p hg
    have hp := hi.closed _ ((get_iff hi.nodup a p).1 hg)
    obtain ⟨h1, h2⟩ := found_route hi x a ha p hp (hc.idem a)
    exact minv_update hi x a (c a) p hp (hc.idem a) h1 h2
  · rename_i hga
    split
    · rename_i p hg
      have hp := (get_iff hi.nodup _ p).1 hg
      obtain ⟨h1, h2⟩ := found_route hi x a ha p hp (hc.idem a)
      exact minv_update hi x a (c a) p hp (hc.idem a) h1 h2
    · rename_i hgs
      have hna := (get_none a).1 hga
      have hns := (get_none (c a)).1 hgs
      have hnew : ∀ e ∈ m.trackers, c e.1 ≠ c a := by
        intro e he h1
        have := hi.closed e he
        rw [h1] at this; exact hns _ this
      have hcane : c a ≠ [] := fun h1 => ha ((hc.nil a).1 h1)
      have hv : valuesOf c limit ov h (c a) = [] := by
        by_contra hne
        obtain ⟨e, he, h1⟩ := (hi.dom (c a)).2 ⟨hcane, hne⟩
        exact hnew e he h1
      have hnad : c a ∉ admitted c limit h := fun h1 => admitted_values (ov := ov) h _ h1 hv
      have hlen : m.count = min limit (setsOf c h).length := by rw [hi.count]; simp [admitted]
      split
      · rename_i hlt
        have hns' : c a ∉ setsOf c h := by
          intro h1; apply hnad
          rw [admitted, List.take_of_length_le (by omega)]; exact h1
        have hadm : admitted c limit (h ++ [(x, a)]) = admitted c limit h ++ [c a] := by
          simp only [admitted, setsOf_append, ha, hns', or_self, if_false]
          rw [List.take_of_length_le (by simp; omega), List.take_of_length_le (by omega)]
        refine minv_insert hc hi x a a (c a) ha rfl hnew ?_ _ ?_ ?_ rfl rfl rfl rfl ?_
        · simp [route, ha, hadm]
        · intro e
          show e ∈ insertTracker (insertTracker m.trackers a m.next) (c a) m.next ↔ _
          rw [insertTracker_new hna]
          by_cases hac : c a = a
          · rw [hac, insertTracker_same (by simp [List.nodup_append, hi.nodup]; intro b q hb; rintro rfl; exact hna q hb) (by simp)]
            simp only [List.mem_append, List.mem_singleton]
            constructor
            · rintro (h1 | rfl)
              · exact Or.inl h1
              · exact Or.inr ⟨rfl, Or.inl rfl⟩
            · rintro (h1 | ⟨h1, h2 | h2⟩)
              · exact Or.inl h1
              · exact Or.inr (Prod.ext h2 h1)
              · exact Or.inr (Prod.ext h2 h1)
          · rw [insertTracker_new (by
              intro p hp
              rcases List.mem_append.1 hp with hp | hp
              · exact hns p hp
              · simp at hp; exact hac hp.1)]
            simp only [List.mem_append, List.mem_singleton]
            constructor
            · rintro ((h1 | rfl) | rfl)
              · exact Or.inl h1
              · exact Or.inr ⟨rfl, Or.inl rfl⟩
              · exact Or.inr ⟨rfl, Or.inr rfl⟩
            · rintro (h1 | ⟨h1, h2 | h2⟩)
              · exact Or.inl (Or.inl h1)
              · exact Or.inl (Or.inr (Prod.ext h2 h1))
              · exact Or.inr (Prod.ext h2 h1)
        · show ((insertTracker (insertTracker m.trackers a m.next) (c a) m.next).map Prod.fst).Nodup
          have hnd1 : ((m.trackers ++ [(a, m.next)]).map Prod.fst).Nodup := by
            simp [List.nodup_append, hi.nodup]; intro b q hb; rintro rfl; exact hna q hb
          rw [insertTracker_new hna]
          by_cases hac : c a = a
          · rw [hac, insertTracker_same hnd1 (by simp)]; exact hnd1
          · rw [insertTracker_new (by
              intro p hp
              rcases List.mem_append.1 hp with hp | hp
              · exact hns p hp
              · simp at hp; exact hac hp.1)]
            rw [List.map_append, List.nodup_append]
            refine ⟨hnd1, by simp, ?_⟩
            intro b hb d hd hbd
            simp at hd; subst hd; subst hbd
            obtain ⟨e, he, h1⟩ := List.mem_map.1 hb
            rcases List.mem_append.1 he with he | he
            · exact hns e.2 (by rw [← h1]; exact he)
            · simp at he; rw [he] at h1; exact hac h1.symm
        · show m.count + 1 = _
          rw [hadm, hi.count]; simp
      · rename_i hge
        have hadm : (admitted c limit (h ++ [(x, a)])) = admitted c limit h := by
          simp only [admitted, setsOf_append]
          split
          · rfl
          · rw [List.take_append_of_le_length (by omega)]
        have hroute : route c limit ov (h ++ [(x, a)]) a = ov := by
          simp only [route, if_neg ha, hadm, if_neg hnad]
        have hcount : m.count = (admitted c limit (h ++ [(x, a)])).length := by rw [hadm, hi.count]
        split
        · rename_i p hg
          exact minv_update hi x a ov p ((get_iff hi.nodup _ p).1 hg) hc.fixOv hroute hcount
        · rename_i hgo
          have hno := (get_none ov).1 hgo
          refine minv_insert hc hi x a ov ov hc.ovne hc.fixOv ?_ hroute _ ?_ ?_ rfl rfl rfl rfl hcount
          · intro e he h1
            have := hi.closed e he
            rw [h1] at this; exact hno _ this
          · intro e
            show e ∈ insertTracker m.trackers ov m.next ↔ _
            rw [insertTracker_new hno]
            simp only [List.mem_append, List.mem_singleton, or_self]
            constructor
            · rintro (h1 | rfl)
              · exact Or.inl h1
              · exact Or.inr ⟨rfl, rfl⟩
            · rintro (h1 | ⟨h1, h2⟩)
              · exact Or.inl h1
              · exact Or.inr (Prod.ext h2 h1)
          · show ((insertTracker m.trackers ov m.next).map Prod.fst).Nodup
            rw [insertTracker_new hno]
            simp [List.nodup_append, hi.nodup]; intro b q hb; rintro rfl; exact hno q hb

theorem minv_measureRead {srt : Sorter K V} (hcs : c = sortAndDedup srt) (hc : Canon c ov) {m m' : ValueMap K V A} {h : Hist K V X} (hi : MInv c agg limit ov m h)
    (x : X) (a : Attrs K V) (ha : a ≠ []) (hm : m.measureRead srt agg x a = some m') : MInv c agg limit ov m' (h ++ [(x, a)]) := by
  unfold ValueMap.measureRead at hm
  rw [← hcs] at hm
  split at hm
  · rename_i p hg
    injection hm with hm; subst hm
    have hp := hi.closed _ ((get_iff hi.nodup a p).1 hg)
    obtain ⟨h1, h2⟩ := found_route hi x a ha p hp (hc.idem a)
    exact minv_update hi x a (c a) p hp (hc.idem a) h1 h2
  · split at hm
    · rename_i p hg
      injection hm with hm; subst hm
      have hp := (get_iff hi.nodup _ p).1 hg
      obtain ⟨h1, h2⟩ := found_route hi x a ha p hp (hc.idem a)
      exact minv_update hi x a (c a) p hp (hc.idem a) h1 h2
    · cases hm

theorem minv_measureNone (hc : Canon c ov) {m : ValueMap K V A} {h : Hist K V X} (hi : MInv c agg limit ov m h) (x : X) :
    MInv c agg limit ov { m with noAttributeTracker := agg.update m.noAttributeTracker x, hasNoAttributeValue := true } (h ++ [(x, [])]) := by
  have hr : route c limit ov (h ++ [(x, [])]) [] = [] := by simp [route]
  have hadm : admitted c limit (h ++ [(x, [])]) = admitted c limit h := by simp [admitted, setsOf_append]
  refine ⟨hi.nodup, hi.nonempty, hi.closed, hi.inj, hi.fresh, by rw [hadm]; exact hi.count, ?_, ?_, ?_, ?_⟩
  · intro t
    show (∃ e ∈ m.trackers, c e.1 = t) ↔ _
    rw [hi.dom t, valuesOf_append, hr]
    by_cases ht : t = []
    · simp [ht]
    · simp [ht, Ne.symm ht]
  · intro e he
    rw [valuesOf_append, hr, if_neg (fun h1 => hi.nonempty e he ((hc.nil _).1 h1.symm)), List.append_nil]
    exact hi.vals e he
  · rw [valuesOf_append, hr, if_pos rfl, List.foldl_append, ← hi.noAttr]; rfl
  · rw [valuesOf_append, hr, if_pos rfl]; simp

theorem minv_measure {srt : Sorter K V} (hcs : c = sortAndDedup srt) (hc : Canon c ov) {m : ValueMap K V A} {h : Hist K V X} (hi : MInv c agg limit ov m h) (x : X)
    (a : Attrs K V) : MInv c agg limit ov (m.measure srt agg limit ov x a) (h ++ [(x, a)]) := by
  unfold ValueMap.measure
  split
  · rename_i ha; subst ha; exact minv_measureNone hc hi x
  · rename_i ha
    split
    · rename_i m' hm; exact minv_measureRead hcs hc hi x a ha hm
    · exact minv_measureWrite hcs hc hi x a ha

theorem minv_reset {m : ValueMap K V A} {h : Hist K V X} (hi : MInv c agg limit ov m h) (it : List (Attrs K V × Nat)) :
    MInv c agg limit ov (m.collectAndReset agg it).2 [] := by
  refine ⟨by simp [ValueMap.collectAndReset], by simp [ValueMap.collectAndReset], by simp [ValueMap.collectAndReset],
    by simp [ValueMap.collectAndReset], by simp [ValueMap.collectAndReset], by simp [ValueMap.collectAndReset, admitted, setsOf],
    by simp [ValueMap.collectAndReset, valuesOf], by simp [ValueMap.collectAndReset], ?_, by simp [ValueMap.collectAndReset, valuesOf]⟩
  simp only [ValueMap.collectAndReset]
  split
  · simp [valuesOf]
  · rename_i hn
    have : valuesOf c limit ov h [] = [] := by
      by_contra hne; exact hn (hi.hasNoAttr.2 hne)
    rw [hi.noAttr, this]; simp [valuesOf]

/-! ## collecting -/

theorem firstOfEach_spec (seen : List Nat) (l : List (Attrs K V × Nat)) :
    (firstOfEach seen l).Sublist l ∧ ((firstOfEach seen l).map Prod.snd).Nodup ∧ (∀ e ∈ firstOfEach seen l, e.2 ∉ seen)
      ∧ ∀ e ∈ l, e.2 ∈ seen ∨ ∃ f ∈ firstOfEach seen l, f.2 = e.2 := by
  induction l generalizing seen with
  | nil => simp [firstOfEach]
  | cons e l ih =>
    simp only [firstOfEach]
    split
    · rename_i hs
      obtain ⟨h1, h2, h3, h4⟩ := ih seen
      refine ⟨h1.cons e, h2, h3, ?_⟩
      intro f hf
      rcases List.mem_cons.1 hf with rfl | hf
      · exact Or.inl hs
      · exact h4 f hf
    · rename_i hs
      obtain ⟨h1, h2, h3, h4⟩ := ih (e.2 :: seen)
      refine ⟨h1.cons_cons e, ?_, ?_, ?_⟩
      · rw [List.map_cons, List.nodup_cons]
        refine ⟨?_, h2⟩
        intro hm
        obtain ⟨f, hf, h5⟩ := List.mem_map.1 hm
        exact h3 f hf (by rw [h5]; exact List.mem_cons_self)
      · intro f hf
        rcases List.mem_cons.1 hf with rfl | hf
        · exact hs
        · intro h5; exact h3 f hf (List.mem_cons_of_mem _ h5)
      · intro f hf
        rcases List.mem_cons.1 hf with rfl | hf
        · exact Or.inr ⟨f, List.mem_cons_self, rfl⟩
        · rcases h4 f hf with h5 | ⟨g, hg, h5⟩
          · rcases List.mem_cons.1 h5 with h5 | h5
            · exact Or.inr ⟨e, List.mem_cons_self, h5.symm⟩
            · exact Or.inl h5
          · exact Or.inr ⟨g, List.mem_cons_of_mem _ hg, h5⟩

theorem report_of_minv (hc : Canon c ov) {m : ValueMap K V A} {h : Hist K V X} (hi : MInv c agg limit ov m h) (it : List (Attrs K V × Nat))
    (hp : it.Perm m.trackers) : Report c agg limit ov h (m.collectReadonly it) := by
  obtain ⟨h1, h2, _, h4⟩ := firstOfEach_spec [] it
  have hmem : ∀ e ∈ firstOfEach [] it, e ∈ m.trackers := fun e he => hp.subset (h1.subset he)
  have hcnil : c [] = [] := (hc.nil []).2 rfl
  have hno : ∀ p ∈ m.noAttrPoint, p = ([], m.noAttributeTracker) ∧ m.hasNoAttributeValue = true := by
    intro p hp'
    unfold ValueMap.noAttrPoint at hp'
    split at hp'
    · rename_i hb; exact ⟨by simpa using hp', hb⟩
    · cases hp'
  constructor
  · simp only [ValueMap.collectReadonly, List.map_append, List.map_map, List.nodup_append]
    refine ⟨?_, ?_, ?_⟩
    · unfold ValueMap.noAttrPoint; split <;> simp
    · have hnd : (firstOfEach [] it).Nodup := List.Nodup.of_map _ h2
      refine (List.nodup_map_iff_inj_on hnd).2 ?_
      intro e he f hf hef
      simp only [Function.comp] at hef
      have he' := hi.closed e (hmem e he)
      have hf' := hi.closed f (hmem f hf)
      rw [hef] at he'
      have h5 := List.inj_on_of_nodup_map hi.nodup he' hf' rfl
      have h6 : e.2 = f.2 := by simpa using congrArg Prod.snd h5
      exact List.inj_on_of_nodup_map h2 he hf h6
    · intro s hs t ht hst
      obtain ⟨p, hp', rfl⟩ := List.mem_map.1 hs
      obtain ⟨e, he, rfl⟩ := List.mem_map.1 ht
      rw [(hno p hp').1] at hst
      simp only [Function.comp, hcnil] at hst
      exact hi.nonempty e (hmem e he) ((hc.nil _).1 hst.symm)
  · intro p hp'
    simp only [ValueMap.collectReadonly, List.mem_append] at hp'
    rcases hp' with hp' | hp'
    · obtain ⟨rfl, hb⟩ := hno p hp'
      simp only [hcnil]
      exact ⟨hi.hasNoAttr.1 hb, hi.noAttr⟩
    · obtain ⟨e, he, rfl⟩ := List.mem_map.1 hp'
      exact ⟨((hi.dom _).1 ⟨e, hmem e he, rfl⟩).2, hi.vals e (hmem e he)⟩
  · intro e he
    have hv : valuesOf c limit ov h (route c limit ov h e.2) ≠ [] := (valuesOf_ne_nil h _).2 ⟨e, he, rfl⟩
    by_cases hr : route c limit ov h e.2 = []
    · rw [hr] at hv ⊢
      have hb := hi.hasNoAttr.2 hv
      refine ⟨([], m.noAttributeTracker), ?_, hcnil⟩
      simp [ValueMap.collectReadonly, ValueMap.noAttrPoint, hb]
    · obtain ⟨f, hf, h5⟩ := (hi.dom _).2 ⟨hr, hv⟩
      rcases h4 f (hp.mem_iff.2 hf) with h6 | ⟨g, hg, h6⟩
      · cases h6
      · refine ⟨(g.1, m.heap g.2), ?_, ?_⟩
        · simp only [ValueMap.collectReadonly, List.mem_append]
          exact Or.inr (List.mem_map.2 ⟨g, hg, rfl⟩)
        · rw [← h5]; exact hi.inj g (hmem g hg) f hf h6

end Inv

end Otel.Metrics
