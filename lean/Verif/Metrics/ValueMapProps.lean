import Verif.Metrics.ValueMapLemmas
import Mathlib.Algebra.BigOperators.Group.List.Basic
import Mathlib.Data.List.Basic
import Mathlib.Data.List.Sort
import Mathlib.Data.Nat.Basic
import Mathlib.Data.List.Nodup
import Mathlib.Data.List.Perm.Subperm
/-! # Properties of the store of data points (C36, C37, C42) -/

namespace Otel.Metrics

variable {K V : Type} [LinearOrder K] [DecidableEq V] {A X : Type}

/-- Run operations; the reports are dropped. -/
def runOps (srt : Sorter K V) (agg : Aggregator A X) (limit : Nat) (ov : Attrs K V) (m : ValueMap K V A) :
    List (MapOp K V X) → Option (ValueMap K V A)
  | [] => some m
  | op :: ops => match op.run srt agg limit ov m with
    | some (m', _) => runOps srt agg limit ov m' ops
    | none => none

/-- `pts` is reported by a collection (`delta` says which kind) after the operations `ops`, on a fresh instrument whose overflow
attribute is `o`. -/
def Reported (srt : Sorter K V) (agg : Aggregator A X) (limit : Nat) (o : K × V) (ops : List (MapOp K V X)) (delta : Bool)
    (pts : List (Attrs K V × A)) : Prop :=
  ∃ m it m', runOps srt agg limit [o] (ValueMap.new agg) ops = some m
    ∧ (if delta then MapOp.delta it else MapOp.cumulative it).run srt agg limit [o] m = some (m', pts)

theorem minv_runOps (srt : Sorter K V) (agg : Aggregator A X) (limit : Nat) (o : K × V) (ops : List (MapOp K V X)) (m : ValueMap K V A)
    (h : Hist K V X) (hi : MInv (sortAndDedup srt) agg limit [o] m h) (m' : ValueMap K V A)
    (hr : runOps srt agg limit [o] m ops = some m') : MInv (sortAndDedup srt) agg limit [o] m' (sinceReset ops h) := by
  induction ops generalizing m h with
  | nil => injection hr with hr; subst hr; exact hi
  | cons op ops ih =>
    cases op with
    | measure x a => exact ih _ _ (minv_measure rfl (canon_sortAndDedup srt o) hi x a) hr
    | cumulative it =>
      simp only [runOps, MapOp.run] at hr
      split at hr
      · rename_i heq
        split at heq
        · injection heq with heq; injection heq with h1 h2; subst h1; exact ih _ _ hi hr
        · cases heq
      · cases hr
    | delta it =>
      simp only [runOps, MapOp.run] at hr
      split at hr
      · rename_i heq
        split at heq
        · injection heq with heq; injection heq with h1 h2; subst h1; exact ih _ _ (minv_reset hi it) hr
        · cases heq
      · cases hr

/-- **C36, C37, C42.** Whatever was measured and collected before, each collection reports exactly the data points of the
specification for the measurements since the last reset: for every kind of aggregation, every limit, every order of iteration of the
map, every order in which attributes were given. -/
theorem collection_report (srt : Sorter K V) (agg : Aggregator A X) (limit : Nat) (o : K × V) (ops : List (MapOp K V X)) (delta : Bool)
    (pts : List (Attrs K V × A)) (h : Reported srt agg limit o ops delta pts) :
    Report (sortAndDedup srt) agg limit [o] (sinceReset ops []) pts := by
  obtain ⟨m, it, m', hr, hc⟩ := h
  have hi := minv_runOps srt agg limit o ops _ [] minv_new m hr
  have key : ∀ it, it.isPerm m.trackers = true → Report (sortAndDedup srt) agg limit [o] (sinceReset ops []) (m.collectReadonly it) :=
    fun it hp => report_of_minv (canon_sortAndDedup srt o) hi it (List.isPerm_iff.1 hp)
  cases delta
  · simp only [Bool.false_eq_true, if_false, MapOp.run] at hc
    split at hc
    · rename_i hp; injection hc with hc; injection hc with h1 h2; subst h2; exact key _ hp
    · cases hc
  · simp only [if_true, MapOp.run] at hc
    split at hc
    · rename_i hp; injection hc with hc; injection hc with h1 h2; subst h2; exact key _ hp
    · cases hc

/-- Every collection can be made: some order of iteration exists, so `Reported` is not empty. -/
theorem collection_exists (srt : Sorter K V) (agg : Aggregator A X) (limit : Nat) (o : K × V) (xs : List (X × Attrs K V)) (delta : Bool) :
    ∃ pts, Reported srt agg limit o (xs.map fun e => .measure e.1 e.2) delta pts := by
  have hrun : ∀ m : ValueMap K V A, ∃ m', runOps srt agg limit [o] m (xs.map fun e => .measure e.1 e.2) = some m' := by
    intro m
    induction xs generalizing m with
    | nil => exact ⟨m, rfl⟩
    | cons e xs ih => exact ih _
  obtain ⟨m, hm⟩ := hrun (ValueMap.new agg)
  have hp : m.trackers.isPerm m.trackers = true := List.isPerm_iff.2 (List.Perm.refl _)
  cases delta
  · exact ⟨_, m, m.trackers, m, hm, by simp [MapOp.run, hp]; rfl⟩
  · exact ⟨_, m, m.trackers, _, hm, by simp [MapOp.run, hp]; exact ⟨rfl, rfl⟩⟩

/-! ## Below the limit -/

theorem sets_within (srt : Sorter K V) (h : Hist K V X) (L : List (Attrs K V)) (hL : ∀ e ∈ h, e.2 ≠ [] → ∃ a ∈ L, e.2.Perm a)
    (hk : ∀ e ∈ h, (e.2.map Prod.fst).Nodup) : (setsOf (sortAndDedup srt) h).length ≤ L.length := by
  have hsub : setsOf (sortAndDedup srt) h ⊆ L.map (sortAndDedup srt) := by
    intro s hs
    obtain ⟨e, he, hne, hc⟩ := (mem_setsOf _ h s).1 hs
    obtain ⟨a, ha, hp⟩ := hL e he hne
    have hka : (a.map Prod.fst).Nodup := (hp.map Prod.fst).nodup_iff.1 (hk e he)
    exact List.mem_map.2 ⟨a, ha, by rw [← hc]; exact ((canon_eq_iff_perm srt _ _ (hk e he) hka).2 hp).symm⟩
  have := (List.subperm_of_subset (setsOf_nodup (sortAndDedup srt) h) hsub).length_le
  simpa using this

theorem route_within (srt : Sorter K V) (limit : Nat) (o : K × V) (h : Hist K V X)
    (hlim : (setsOf (sortAndDedup srt) h).length ≤ limit) (e : X × Attrs K V) (he : e ∈ h) :
    route (sortAndDedup srt) limit [o] h e.2 = sortAndDedup srt e.2 := by
  unfold route
  split
  · rename_i hn; rw [hn, canon_nil]
  · rename_i hn
    rw [if_pos]
    rw [admitted, List.take_of_length_le hlim]
    exact (mem_setsOf _ h _).2 ⟨e, he, hn, rfl⟩

/-- The keys of a reported point are the raw or the canonical form of attributes that were measured. -/
def RawKeys (c : Attrs K V → Attrs K V) (ov : Attrs K V) (m : ValueMap K V A) (h : Hist K V X) : Prop :=
  ∀ e ∈ m.trackers, e.1 = ov ∨ ∃ f ∈ h, e.1 = f.2 ∨ e.1 = c f.2

theorem rawKeys_insert {c : Attrs K V → Attrs K V} {ov : Attrs K V} {l : List (Attrs K V × Nat)} {h : Hist K V X}
    (hl : ∀ e ∈ l, e.1 = ov ∨ ∃ f ∈ h, e.1 = f.2 ∨ e.1 = c f.2) (a : Attrs K V) (p : Nat) (ha : a = ov ∨ ∃ f ∈ h, a = f.2 ∨ a = c f.2) :
    ∀ e ∈ insertTracker l a p, e.1 = ov ∨ ∃ f ∈ h, e.1 = f.2 ∨ e.1 = c f.2 := by
  intro e he
  unfold insertTracker at he
  split at he
  · obtain ⟨f, hf, rfl⟩ := List.mem_map.1 he
    split
    · exact ha
    · exact hl f hf
  · rcases List.mem_append.1 he with he | he
    · exact hl e he
    · simp at he; subst he; exact ha

theorem rawKeys_measure (srt : Sorter K V) (agg : Aggregator A X) (limit : Nat) (ov : Attrs K V) (m : ValueMap K V A) (h : Hist K V X)
    (hr : RawKeys (sortAndDedup srt) ov m h) (x : X) (a : Attrs K V) :
    RawKeys (sortAndDedup srt) ov (m.measure srt agg limit ov x a) (h ++ [(x, a)]) := by
  have hmono : RawKeys (sortAndDedup srt) ov m (h ++ [(x, a)]) := by
    intro e he
    rcases hr e he with h1 | ⟨f, hf, h1⟩
    · exact Or.inl h1
    · exact Or.inr ⟨f, List.mem_append_left _ hf, h1⟩
  unfold ValueMap.measure
  split
  · exact hmono
  · split
    · rename_i m' hm
      unfold ValueMap.measureRead at hm
      split at hm
      · injection hm with hm; subst hm; exact hmono
      · split at hm
        · injection hm with hm; subst hm; exact hmono
        · cases hm
    · unfold ValueMap.measureWrite
      split
      · exact hmono
      · split
        · exact hmono
        · split
          · refine rawKeys_insert (rawKeys_insert hmono _ _ ?_) _ _ ?_
            · exact Or.inr ⟨(x, a), by simp, Or.inl rfl⟩
            · exact Or.inr ⟨(x, a), by simp, Or.inr rfl⟩
          · split
            · exact hmono
            · exact rawKeys_insert hmono _ _ (Or.inl rfl)

theorem rawKeys_runOps (srt : Sorter K V) (agg : Aggregator A X) (limit : Nat) (ov : Attrs K V) (ops : List (MapOp K V X)) (m : ValueMap K V A)
    (h : Hist K V X) (hi : RawKeys (sortAndDedup srt) ov m h) (m' : ValueMap K V A)
    (hr : runOps srt agg limit ov m ops = some m') : RawKeys (sortAndDedup srt) ov m' (sinceReset ops h) := by
  induction ops generalizing m h with
  | nil => injection hr with hr; subst hr; exact hi
  | cons op ops ih =>
    cases op with
    | measure x a => exact ih _ _ (rawKeys_measure srt agg limit ov m h hi x a) hr
    | cumulative it =>
      simp only [runOps, MapOp.run] at hr
      split at hr
      · rename_i heq
        split at heq
        · injection heq with heq; injection heq with h1 h2; subst h1; exact ih _ _ hi hr
        · cases heq
      · cases hr
    | delta it =>
      simp only [runOps, MapOp.run] at hr
      split at hr
      · rename_i heq
        split at heq
        · injection heq with heq; injection heq with h1 h2; subst h1
          exact ih _ _ (by intro e he; cases he) hr
        · cases heq
      · cases hr

/-- **C69.** The attributes of every reported point are those of a measurement since the last reset as the caller gave them, or
their sorted form without repeated keys, or the overflow attribute; the empty list only for measurements without attributes. -/
theorem reported_attributes (srt : Sorter K V) (agg : Aggregator A X) (limit : Nat) (o : K × V) (ops : List (MapOp K V X)) (delta : Bool)
    (pts : List (Attrs K V × A)) (h : Reported srt agg limit o ops delta pts) (p : Attrs K V × A) (hp : p ∈ pts) :
    p.1 = [o] ∨ ∃ e ∈ sinceReset ops [], p.1 = e.2 ∨ p.1 = sortAndDedup srt e.2 := by
  have hrep := collection_report srt agg limit o ops delta pts h
  obtain ⟨m, it, m', hr, hc⟩ := h
  have hraw := rawKeys_runOps srt agg limit [o] ops (ValueMap.new agg) [] (by intro e he; cases he) m hr
  have hpts : ∃ it, it.isPerm m.trackers = true ∧ pts = m.collectReadonly it := by
    cases delta
    · simp only [Bool.false_eq_true, if_false, MapOp.run] at hc
      split at hc
      · rename_i hp; injection hc with hc; injection hc with h1 h2; exact ⟨it, hp, h2.symm⟩
      · cases hc
    · simp only [if_true, MapOp.run] at hc
      split at hc
      · rename_i hp; injection hc with hc; injection hc with h1 h2; exact ⟨it, hp, h2.symm⟩
      · cases hc
  obtain ⟨it, hperm, rfl⟩ := hpts
  have hp' := hp
  simp only [ValueMap.collectReadonly, List.mem_append] at hp'
  rcases hp' with hp' | hp'
  · have h1 : p.1 = [] := by
      unfold ValueMap.noAttrPoint at hp'
      split at hp'
      · simp at hp'; rw [hp']
      · cases hp'
    have h2 := (hrep.values p hp).1
    rw [h1, canon_nil] at h2
    obtain ⟨e, he, hre⟩ := (valuesOf_ne_nil _ _).1 h2
    refine Or.inr ⟨e, he, Or.inl ?_⟩
    rw [h1]
    by_contra hne
    exact route_ne_nil (canon_sortAndDedup srt o) _ e.2 (Ne.symm hne) hre
  · obtain ⟨e, he, rfl⟩ := List.mem_map.1 hp'
    exact hraw e ((List.isPerm_iff.1 hperm).subset ((firstOfEach_spec [] it).1.subset he))

/-- **C36, C40, C42.** Measurements whose attribute lists have no repeated key, of at most `limit` sets (every list measured is a
permutation of one in `L`): each reported point aggregates, in order, exactly the measurements whose attributes are the same up to
order; each measurement is in a reported point; no two points have the same attributes up to order. -/
theorem aggregates_by_set (srt : Sorter K V) (agg : Aggregator A X) (limit : Nat) (o : K × V) (ops : List (MapOp K V X)) (delta : Bool)
    (pts : List (Attrs K V × A)) (h : Reported srt agg limit o ops delta pts)
    (hk : ∀ e ∈ sinceReset ops [], (e.2.map Prod.fst).Nodup)
    (L : List (Attrs K V)) (hlen : L.length ≤ limit) (hL : ∀ e ∈ sinceReset ops [], e.2 ≠ [] → ∃ a ∈ L, e.2.Perm a) :
    (∀ p ∈ pts, p.2 = (((sinceReset ops []).filter fun e => e.2.isPerm p.1).map Prod.fst).foldl agg.update agg.create)
      ∧ (∀ p ∈ pts, ∃ e ∈ sinceReset ops [], e.2.Perm p.1)
      ∧ (∀ e ∈ sinceReset ops [], ∃ p ∈ pts, p.1.Perm e.2)
      ∧ pts.Pairwise fun p q => ¬ p.1.Perm q.1 := by
  have hrep := collection_report srt agg limit o ops delta pts h
  have hlim := Nat.le_trans (sets_within srt _ L hL hk) hlen
  have hroute := route_within srt limit o _ hlim
  have hkp : ∀ p ∈ pts, (p.1.map Prod.fst).Nodup := by
    intro p hp
    rcases reported_attributes srt agg limit o ops delta pts h p hp with h1 | ⟨e, he, h1 | h1⟩
    · rw [h1]; simp
    · rw [h1]; exact hk e he
    · rw [h1]; exact ((canon_perm srt _ (hk e he)).map Prod.fst).nodup_iff.2 (hk e he)
  have hiff : ∀ p ∈ pts, ∀ e ∈ sinceReset ops [], route (sortAndDedup srt) limit [o] (sinceReset ops []) e.2 = sortAndDedup srt p.1 ↔ e.2.Perm p.1 := by
    intro p hp e he
    rw [hroute e he]
    exact canon_eq_iff_perm srt _ _ (hk e he) (hkp p hp)
  refine ⟨?_, ?_, ?_, ?_⟩
  · intro p hp
    rw [(hrep.values p hp).2, valuesOf]
    congr 2
    apply List.filter_congr
    intro e he
    rw [Bool.eq_iff_iff, List.isPerm_iff, decide_eq_true_iff]
    exact hiff p hp e he
  · intro p hp
    obtain ⟨e, he, h1⟩ := (valuesOf_ne_nil _ _).1 (hrep.values p hp).1
    exact ⟨e, he, (hiff p hp e he).1 h1⟩
  · intro e he
    obtain ⟨p, hp, h1⟩ := hrep.complete e he
    exact ⟨p, hp, ((hiff p hp e he).1 h1.symm).symm⟩
  · have := hrep.distinct
    rw [List.Nodup, List.pairwise_map] at this
    refine List.Pairwise.imp_of_mem ?_ this
    intro p q hp hq hne hpq
    exact hne ((canon_eq_iff_perm srt _ _ (hkp p hp) (hkp q hq)).2 hpq)

/-! ## Counters -/

/-- `Increment<T>`: `+` is that of the number type, wrapping for integers, rounding for floats. sum.rs:10-37 -/
def increment (N : Type) [Zero N] [Add N] : Aggregator N N := ⟨0, (· + ·)⟩

/-- **C36.** Below the limit the value of a counter for an attribute set is the sum, in order, of what was recorded with that set
since the last reset, whatever the order of the attributes; sets not measured are not reported. -/
theorem counter_exact {N : Type} [Zero N] [Add N] (srt : Sorter K V) (limit : Nat) (o : K × V) (ops : List (MapOp K V N)) (delta : Bool)
    (pts : List (Attrs K V × N)) (h : Reported srt (increment N) limit o ops delta pts)
    (hk : ∀ e ∈ sinceReset ops [], (e.2.map Prod.fst).Nodup)
    (L : List (Attrs K V)) (hlen : L.length ≤ limit) (hL : ∀ e ∈ sinceReset ops [], e.2 ≠ [] → ∃ a ∈ L, e.2.Perm a) :
    (∀ p ∈ pts, p.2 = (((sinceReset ops []).filter fun e => e.2.isPerm p.1).map Prod.fst).foldl (· + ·) 0
      ∧ ∃ e ∈ sinceReset ops [], e.2.Perm p.1)
      ∧ (∀ e ∈ sinceReset ops [], ∃ p ∈ pts, p.1.Perm e.2) ∧ pts.Pairwise fun p q => ¬ p.1.Perm q.1 := by
  obtain ⟨h1, h2, h3, h4⟩ := aggregates_by_set srt (increment N) limit o ops delta pts h hk L hlen hL
  exact ⟨fun p hp => ⟨h1 p hp, h2 p hp⟩, h3, h4⟩

/-! ## The limit -/

/-- **C37.** At most `limit` sets, one overflow point and one point without attributes, whatever is measured. -/
theorem points_bounded (srt : Sorter K V) (agg : Aggregator A X) (limit : Nat) (o : K × V) (ops : List (MapOp K V X)) (delta : Bool)
    (pts : List (Attrs K V × A)) (h : Reported srt agg limit o ops delta pts) : pts.length ≤ limit + 2 := by
  have hrep := collection_report srt agg limit o ops delta pts h
  have hsub : (pts.map fun p => sortAndDedup srt p.1) ⊆ [] :: [o] :: admitted (sortAndDedup srt) limit (sinceReset ops []) := by
    intro s hs
    obtain ⟨p, hp, rfl⟩ := List.mem_map.1 hs
    obtain ⟨e, _, he⟩ := (valuesOf_ne_nil _ _).1 (hrep.values p hp).1
    rw [← he]
    simp only [route]
    split
    · simp
    · split
      · rename_i h1; exact List.mem_cons_of_mem _ (List.mem_cons_of_mem _ h1)
      · simp
  have h1 := (List.subperm_of_subset hrep.distinct hsub).length_le
  have h2 := admitted_length_le (c := sortAndDedup srt) (limit := limit) (sinceReset ops [])
  simp at h1; omega

theorem sum_by_class {α N : Type} [DecidableEq α] [AddCommMonoid N] (ks : List α) (hnd : ks.Nodup) (f : N × α → α) (h : List (N × α))
    (hall : ∀ e ∈ h, f e ∈ ks) : (ks.map fun k => ((h.filter fun e => f e = k).map Prod.fst).sum).sum = (h.map Prod.fst).sum := by
  induction h with
  | nil => simp
  | cons e h ih =>
    have ih' := ih fun e' he' => hall e' (List.mem_cons_of_mem _ he')
    have he := hall e List.mem_cons_self
    have hsplit : (ks.map fun k => (((e :: h).filter fun e => f e = k).map Prod.fst).sum)
        = ks.map fun k => (if k = f e then e.1 else 0) + ((h.filter fun e => f e = k).map Prod.fst).sum := by
      apply List.map_congr_left
      intro k _
      by_cases hk : f e = k
      · simp [hk]
      · simp [hk, Ne.symm hk]
    rw [hsplit, List.sum_map_add, ih', List.map_cons, List.sum_cons]
    congr 1
    clear hsplit ih ih' hall
    induction ks with
    | nil => cases he
    | cons k ks ihk =>
      obtain ⟨h1, h2⟩ := List.nodup_cons.1 hnd
      rw [List.map_cons, List.sum_cons]
      by_cases hk : k = f e
      · rw [if_pos hk]
        have : (ks.map fun k => if k = f e then e.1 else (0 : N)).sum = 0 := by
          apply List.sum_eq_zero
          intro x hx
          obtain ⟨k', hk', rfl⟩ := List.mem_map.1 hx
          rw [if_neg]; rintro rfl; exact h1 (hk ▸ hk')
        rw [this, add_zero]
      · rw [if_neg hk, zero_add]
        rcases List.mem_cons.1 he with he | he
        · exact absurd he.symm hk
        · exact ihk h2 he

/-- **C37.** The grand total over all points is the sum of everything recorded since the last reset, beyond the limit too. -/
theorem total_preserved {N : Type} [AddCommMonoid N] (srt : Sorter K V) (limit : Nat) (o : K × V) (ops : List (MapOp K V N)) (delta : Bool)
    (pts : List (Attrs K V × N)) (h : Reported srt (increment N) limit o ops delta pts) :
    (pts.map Prod.snd).sum = ((sinceReset ops []).map Prod.fst).sum := by
  have hrep := collection_report srt (increment N) limit o ops delta pts h
  have hval : pts.map Prod.snd = (pts.map fun p => sortAndDedup srt p.1).map fun s => (valuesOf (sortAndDedup srt) limit [o] (sinceReset ops []) s).sum := by
    rw [List.map_map]
    apply List.map_congr_left
    intro p hp
    rw [(hrep.values p hp).2]
    simp only [Function.comp, List.sum_eq_foldl]; rfl
  rw [hval]
  exact sum_by_class _ hrep.distinct (fun e => route (sortAndDedup srt) limit [o] (sinceReset ops []) e.2) (sinceReset ops [])
    (fun e he => by
      obtain ⟨p, hp, h1⟩ := hrep.complete e he
      exact List.mem_map.2 ⟨p, hp, h1⟩)

/-- **C37.** A set among the first `limit` ones measured (and other than the overflow attribute) keeps its exact value: its point
aggregates exactly the measurements of that set. -/
theorem early_sets_exact (srt : Sorter K V) (agg : Aggregator A X) (limit : Nat) (o : K × V) (ops : List (MapOp K V X)) (delta : Bool)
    (pts : List (Attrs K V × A)) (h : Reported srt agg limit o ops delta pts) (s : Attrs K V)
    (hs : s ∈ (setsOf (sortAndDedup srt) (sinceReset ops [])).take limit) (hso : s ≠ [o]) :
    ∃ p ∈ pts, sortAndDedup srt p.1 = s
      ∧ p.2 = (((sinceReset ops []).filter fun e => sortAndDedup srt e.2 = s).map Prod.fst).foldl agg.update agg.create := by
  have hrep := collection_report srt agg limit o ops delta pts h
  obtain ⟨e, he, hne, hc⟩ := (mem_setsOf _ _ s).1 (List.mem_of_mem_take hs)
  obtain ⟨p, hp, h1⟩ := hrep.complete e he
  have hsne : s ≠ [] := by rw [← hc]; intro h2; exact hne ((canon_eq_nil srt _).1 h2)
  have hrt : route (sortAndDedup srt) limit [o] (sinceReset ops []) e.2 = s := by
    simp only [route, if_neg hne, hc]; exact if_pos hs
  rw [hrt] at h1
  refine ⟨p, hp, h1, ?_⟩
  rw [(hrep.values p hp).2, h1, valuesOf]
  congr 2
  apply List.filter_congr
  intro f hf
  rw [decide_eq_decide]
  simp only [route]
  split
  · rename_i hfn; rw [hfn, canon_nil]
  · split
    · rfl
    · rename_i hna
      constructor
      · intro h2; exact absurd h2.symm hso
      · intro h2; rw [h2] at hna; exact absurd hs hna

/-- **C37.** Measurements of sets beyond the limit all end up in the overflow point. -/
theorem late_sets_overflow (srt : Sorter K V) (agg : Aggregator A X) (limit : Nat) (o : K × V) (ops : List (MapOp K V X)) (delta : Bool)
    (pts : List (Attrs K V × A)) (h : Reported srt agg limit o ops delta pts) (e : X × Attrs K V) (he : e ∈ sinceReset ops []) (hne : e.2 ≠ [])
    (hs : sortAndDedup srt e.2 ∉ (setsOf (sortAndDedup srt) (sinceReset ops [])).take limit) :
    ∃ p ∈ pts, sortAndDedup srt p.1 = [o]
      ∧ p.2 = (((sinceReset ops []).filter fun f => f.2 ≠ [] ∧ (sortAndDedup srt f.2 = [o]
          ∨ sortAndDedup srt f.2 ∉ (setsOf (sortAndDedup srt) (sinceReset ops [])).take limit)).map Prod.fst).foldl agg.update agg.create := by
  have hrep := collection_report srt agg limit o ops delta pts h
  have hrt : route (sortAndDedup srt) limit [o] (sinceReset ops []) e.2 = [o] := by
    simp only [route, if_neg hne]; exact if_neg hs
  obtain ⟨p, hp, h1⟩ := hrep.complete e he
  rw [hrt] at h1
  refine ⟨p, hp, h1, ?_⟩
  rw [(hrep.values p hp).2, h1, valuesOf]
  congr 2
  apply List.filter_congr
  intro f hf
  rw [decide_eq_decide]
  simp only [route, admitted]
  split
  · rename_i hfn; simp [hfn]
  · rename_i hfn
    by_cases hin : sortAndDedup srt f.2 ∈ (setsOf (sortAndDedup srt) (sinceReset ops [])).take limit
    · simp [hfn, hin]
    · simp [hfn, hin]

/-! ## The attribute filter of a view -/

/-- `AttributeSetFilter::apply` around `measure`. aggregate.rs:106-114, sum.rs:144-151 -/
def ValueMap.measureFiltered (srt : Sorter K V) (agg : Aggregator A X) (limit : Nat) (ov : Attrs K V) (filter : Option (K × V → Bool))
    (m : ValueMap K V A) (x : X) (attrs : Attrs K V) : ValueMap K V A :=
  match filter with
  | some f => m.measure srt agg limit ov x (attrs.filter f)
  | none => m.measure srt agg limit ov x attrs

/-! ## A concrete sorter, and examples -/

/-- A stable sort by key. -/
def stableSorter : Sorter K V where
  sort l := l.insertionSort fun a b => a.1 ≤ b.1
  perm l := List.perm_insertionSort _ l
  sorted l := by
    haveI : Std.Total fun a b : K × V => a.1 ≤ b.1 := ⟨fun a b => le_total a.1 b.1⟩
    haveI : IsTrans (K × V) fun a b => a.1 ≤ b.1 := ⟨fun _ _ _ h1 h2 => le_trans h1 h2⟩
    exact List.pairwise_insertionSort _ l

/-- Measurements 1 and 2 of one set with attributes in two orders, 4 without attributes, 8 of a second and 16 of a third set. -/
def exampleOps : List (MapOp Nat Nat Nat) :=
  [.measure 1 [(1, 10), (2, 20)], .measure 2 [(2, 20), (1, 10)], .measure 4 [], .measure 8 [(3, 30)], .measure 16 [(4, 40)]]

/-- The hypotheses of `counter_exact` are met with limit 3, and the example has a report. -/
example : (∀ e ∈ sinceReset exampleOps [], (e.2.map Prod.fst).Nodup)
    ∧ (∀ e ∈ sinceReset exampleOps [], e.2 ≠ [] → ∃ a ∈ [[(1, 10), (2, 20)], [(3, 30)], [(4, 40)]], e.2.Perm a)
    ∧ ∃ pts, Reported stableSorter (increment Nat) 3 (0, 1) exampleOps false pts := by
  refine ⟨by decide, ?_, collection_exists stableSorter (increment Nat) 3 (0, 1)
    [(1, [(1, 10), (2, 20)]), (2, [(2, 20), (1, 10)]), (4, []), (8, [(3, 30)]), (16, [(4, 40)])] false⟩
  simp [exampleOps, sinceReset]
  exact List.Perm.swap _ _ _

/-- With limit 1 the second and third set overflow. -/
example : Reported stableSorter (increment Nat) 1 (0, 1) exampleOps true [([], 4), ([(0, 1)], 24), ([(1, 10), (2, 20)], 3)] := by
  refine ⟨_, [([(0, 1)], 1), ([(1, 10), (2, 20)], 0)], _, rfl, rfl⟩

/-- **C69, violated for unique keys.** An attribute list with a repeated key is reported as given, with the key twice. -/
theorem duplicate_keys_reported_violated : ∃ pts, Reported stableSorter (increment Nat) 10 (0, 1) [.measure 1 [(1, 10), (1, 11)]] false pts
    ∧ ∃ p ∈ pts, ¬ (p.1.map Prod.fst).Nodup := by
  refine ⟨[([(1, 10), (1, 11)], 1)], ⟨_, [([(1, 10), (1, 11)], 0), ([(1, 10)], 0)], _, rfl, rfl⟩, _, List.mem_cons_self, by decide⟩

end Otel.Metrics
