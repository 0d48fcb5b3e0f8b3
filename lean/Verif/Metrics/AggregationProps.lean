import Verif.Metrics.Aggregations
import Verif.Metrics.ValueMapProps
/-! # Properties of gauges and explicit bucket histograms (C40, C42) -/

namespace Rust.F64

theorem lt_irrefl (a : F64) : lt a a = false := by
  cases a <;> simp [lt, ge]

theorem lt_trans {a b c : F64} (h1 : lt a b = true) (h2 : lt b c = true) : lt a c = true := by
  cases a <;> cases b <;> cases c <;> simp_all [lt, ge]
  exact _root_.lt_trans h1 h2

/-- Comparisons of numbers other than NaN are total. -/
theorem le_iff_not_lt {a b : F64} (ha : a ≠ nan) (hb : b ≠ nan) : le a b = true ↔ lt b a = false := by
  cases a <;> cases b <;> simp_all [lt, le, ge]

theorem lt_of_not_le {a b : F64} (ha : a ≠ nan) (hb : b ≠ nan) (h : le b a = false) : lt a b = true := by
  cases a <;> cases b <;> simp_all [lt, le, ge]

theorem total {a b : F64} (ha : a ≠ nan) (hb : b ≠ nan) : a = b ∨ lt a b = true ∨ lt b a = true := by
  cases a <;> cases b <;> simp_all only [lt, ge, ne_eq, not_true_eq_false] <;> simp
  exact eq_or_ne _ _

end Rust.F64

namespace Otel.Metrics

open Rust

variable {K V : Type} [LinearOrder K] [DecidableEq V] {N : Type}

/-! ## Gauges -/

theorem assign_foldl (z : N) (xs : List N) : xs.foldl (assign N z).update (assign N z).create = (xs.getLast?).getD z := by
  induction xs using List.reverseRecOn with
  | nil => rfl
  | append_singleton xs x ih => rw [List.foldl_append]; simp [assign]

/-- **C42.** Below the limit the value of a gauge for an attribute set is the last one recorded for it since the last reset; sets
without a measurement are not reported. -/
theorem gauge_last (z : N) (srt : Sorter K V) (limit : Nat) (o : K × V) (ops : List (MapOp K V N)) (delta : Bool)
    (pts : List (Attrs K V × N)) (h : Reported srt (assign N z) limit o ops delta pts)
    (hk : ∀ e ∈ sinceReset ops [], (e.2.map Prod.fst).Nodup)
    (L : List (Attrs K V)) (hlen : L.length ≤ limit) (hL : ∀ e ∈ sinceReset ops [], e.2 ≠ [] → ∃ a ∈ L, e.2.Perm a) :
    (∀ p ∈ pts, some p.2 = (((sinceReset ops []).filter fun e => e.2.isPerm p.1).map Prod.fst).getLast?)
      ∧ (∀ e ∈ sinceReset ops [], ∃ p ∈ pts, p.1.Perm e.2) ∧ pts.Pairwise fun p q => ¬ p.1.Perm q.1 := by
  obtain ⟨h1, h2, h3, h4⟩ := aggregates_by_set srt (assign N z) limit o ops delta pts h hk L hlen hL
  refine ⟨?_, h3, h4⟩
  intro p hp
  rw [h1 p hp, assign_foldl]
  obtain ⟨e, he, hpe⟩ := h2 p hp
  have hmem : e.1 ∈ ((sinceReset ops []).filter fun e => e.2.isPerm p.1).map Prod.fst :=
    List.mem_map.2 ⟨e, List.mem_filter.2 ⟨he, List.isPerm_iff.2 hpe⟩, rfl⟩
  cases hl : (((sinceReset ops []).filter fun e => e.2.isPerm p.1).map Prod.fst).getLast? with
  | none => rw [List.getLast?_eq_none_iff.1 hl] at hmem; cases hmem
  | some v => rfl

/-! ## Histograms -/

/-- Boundaries in strictly increasing order, none of them NaN. -/
def Increasing (bounds : List F64) : Prop := (∀ b ∈ bounds, b ≠ .nan) ∧ bounds.Pairwise fun a b => F64.lt a b = true

/-- `f` is in bucket `i`: `(bound[i-1], bound[i]]`, open below for the first, above for the last. -/
def InBucket (bounds : List F64) (i : Nat) (f : F64) : Prop :=
  i ≤ bounds.length ∧ (∀ b, 0 < i → bounds[i - 1]? = some b → F64.lt b f = true) ∧ ∀ b, bounds[i]? = some b → F64.le f b = true

/-- **C40.** What `validate_bucket_boundaries` accepts is exactly the finite, strictly increasing lists. -/
theorem validate_boundaries (bounds : List F64) :
    validateBucketBoundaries bounds = true ↔ (∀ b ∈ bounds, ∃ q, b = .fin q) ∧ bounds.Pairwise fun a b => F64.lt a b = true := by
  have hfin : (bounds.all fun b => b.isFinite) = true ↔ ∀ b ∈ bounds, ∃ q, b = .fin q := by
    rw [List.all_eq_true]
    refine forall₂_congr fun b _ => ?_
    cases b <;> simp [F64.isFinite]
  rw [validateBucketBoundaries, Bool.and_eq_true, hfin]
  refine and_congr_right fun hb => ?_
  clear hfin
  induction bounds with
  | nil => simp
  | cons a l ih =>
    have hl : ∀ b ∈ l, ∃ q, b = F64.fin q := fun b h => hb b (List.mem_cons_of_mem _ h)
    have ih' := ih hl
    cases l with
    | nil => simp
    | cons c l =>
      simp only [List.tail_cons, List.zip_cons_cons, List.all_cons, Bool.and_eq_true, Bool.not_eq_true'] at ih' ⊢
      rw [ih', List.pairwise_cons (a := a)]
      obtain ⟨qa, rfl⟩ := hb a List.mem_cons_self
      obtain ⟨qc, rfl⟩ := hl c List.mem_cons_self
      constructor
      · rintro ⟨h1, h2⟩
        have hac : F64.lt (.fin qa) (.fin qc) = true := F64.lt_of_not_le (by simp) (by simp) h1
        refine ⟨?_, h2⟩
        intro x hx
        rcases List.mem_cons.1 hx with rfl | hx
        · exact hac
        · exact F64.lt_trans hac ((List.pairwise_cons.1 h2).1 x hx)
      · rintro ⟨h1, h2⟩
        have hac := h1 _ List.mem_cons_self
        refine ⟨?_, h2⟩
        cases hle : F64.le (.fin qc) (.fin qa) with
        | false => rfl
        | true => rw [F64.le_iff_not_lt (by simp) (by simp)] at hle; rw [hle] at hac; cases hac

theorem increasing_of_validate (bounds : List F64) (h : validateBucketBoundaries bounds = true) : Increasing bounds := by
  obtain ⟨h1, h2⟩ := (validate_boundaries bounds).1 h
  refine ⟨fun b hb => ?_, h2⟩
  obtain ⟨q, rfl⟩ := h1 b hb
  simp

/-- The number of leading boundaries below `f` splits the boundaries. -/
theorem split_point (bounds : List F64) (hb : Increasing bounds) (f : F64) :
    ∃ k ≤ bounds.length, (∀ x ∈ bounds.take k, F64.lt x f = true) ∧ ∀ x ∈ bounds.drop k, F64.lt x f = false := by
  induction bounds with
  | nil => exact ⟨0, by simp⟩
  | cons a l ih =>
    obtain ⟨h1, h2⟩ := hb
    obtain ⟨h3, h4⟩ := List.pairwise_cons.1 h2
    cases haf : F64.lt a f with
    | true =>
      obtain ⟨k, hk, h5, h6⟩ := ih ⟨fun b hb => h1 b (List.mem_cons_of_mem _ hb), h4⟩
      refine ⟨k + 1, by simpa using hk, ?_, by simpa using h6⟩
      intro x hx
      rw [List.take_succ_cons] at hx
      rcases List.mem_cons.1 hx with rfl | hx
      · exact haf
      · exact h5 x hx
    | false =>
      refine ⟨0, by simp, by simp, ?_⟩
      intro x hx
      rw [List.drop_zero] at hx
      rcases List.mem_cons.1 hx with rfl | hx
      · exact haf
      · cases hxf : F64.lt x f with
        | false => rfl
        | true => rw [F64.lt_trans (h3 x hx) hxf] at haf; cases haf

/-- **C40.** Every number other than NaN is in exactly one bucket, and that is the one the code counts it in. -/
theorem bucket_index (num : NumOps N) (P : PartitionPoint) (bounds : List F64) (hb : Increasing bounds) (x : N) (hx : num.toF x ≠ .nan) (i : Nat) :
    InBucket bounds i (num.toF x) ↔ i = (histogramInput num P bounds x).2 := by
  obtain ⟨k, hk, h1, h2⟩ := split_point bounds hb (num.toF x)
  have hpp : (histogramInput num P bounds x).2 = k := P.spec _ _ k hk h1 h2
  rw [hpp]
  constructor
  · rintro ⟨hi, h3, h4⟩
    rcases Nat.lt_trichotomy i k with hlt | rfl | hgt
    · have hil : i < bounds.length := by omega
      have h5 := h4 bounds[i] (List.getElem?_eq_getElem hil)
      have h6 := h1 bounds[i] (List.mem_take_iff_getElem.2 ⟨i, by omega, rfl⟩)
      rw [F64.le_iff_not_lt hx (hb.1 _ (List.getElem_mem hil)), h6] at h5; cases h5
    · rfl
    · have hil : i - 1 < bounds.length := by omega
      have h5 := h3 bounds[i - 1] (by omega) (List.getElem?_eq_getElem hil)
      have h6 := h2 bounds[i - 1] (List.mem_drop_iff_getElem.2 ⟨i - 1 - k, by omega, by congr 1; omega⟩)
      rw [h6] at h5; cases h5
  · rintro rfl
    refine ⟨hk, ?_, ?_⟩
    · intro b h0 hb'
      obtain ⟨hl, rfl⟩ := List.getElem?_eq_some_iff.1 hb'
      exact h1 _ (List.mem_take_iff_getElem.2 ⟨i - 1, by omega, rfl⟩)
    · intro b hb'
      obtain ⟨hl, rfl⟩ := List.getElem?_eq_some_iff.1 hb'
      rw [F64.le_iff_not_lt hx (hb.1 _ (List.getElem_mem hl))]
      exact h2 _ (List.mem_drop_iff_getElem.2 ⟨0, by omega, by simp⟩)

/-- The index is always within the counts: no panic, for any boundaries and any value. -/
theorem bucket_index_lt (num : NumOps N) (P : PartitionPoint) (bounds : List F64) (x : N) :
    (histogramInput num P bounds x).2 < bounds.length + 1 := Nat.lt_succ_of_le (P.le_length _ _)

/-- The counts after some updates. -/
theorem buckets_counts (num : NumOps N) (n : Nat) (ps : List (N × Nat)) :
    (ps.foldl (Buckets.update num) (Buckets.new num n)).counts.length = n
      ∧ (ps.foldl (Buckets.update num) (Buckets.new num n)).count = ps.length
      ∧ (ps.foldl (Buckets.update num) (Buckets.new num n)).total = (ps.map Prod.fst).foldl num.add num.zero
      ∧ ∀ i, i < n → (ps.foldl (Buckets.update num) (Buckets.new num n)).counts[i]? = some ((ps.filter fun p => p.2 = i).length) := by
  induction ps using List.reverseRecOn with
  | nil =>
    refine ⟨by simp [Buckets.new], rfl, rfl, ?_⟩
    intro i hi; simp [Buckets.new, hi]
  | append_singleton ps p ih =>
    obtain ⟨h1, h2, h3, h4⟩ := ih
    simp only [List.foldl_append, List.foldl_cons, List.foldl_nil, List.map_append, List.map_cons, List.map_nil, Buckets.update]
    refine ⟨by simp [h1], by simp [h2], by rw [h3], ?_⟩
    intro i hi
    rw [List.getElem?_modify, h4 i hi, List.filter_append]
    by_cases hpi : p.2 = i
    · simp [hpi]
    · simp [hpi]

/-- Total order among the values in question. -/
structure TotalOn (num : NumOps N) (P : N → Prop) : Prop where
  irrefl : ∀ a, P a → num.lt a a = false
  trans : ∀ a b c, P a → P b → P c → num.lt a b = true → num.lt b c = true → num.lt a c = true
  total : ∀ a b, P a → P b → a = b ∨ num.lt a b = true ∨ num.lt b a = true

theorem buckets_min (num : NumOps N) (n : Nat) (P : N → Prop) (hP : TotalOn num P) (ps : List (N × Nat)) (hps : ∀ p ∈ ps, P p.1) (htop : P num.top) :
    let b := ps.foldl (Buckets.update num) (Buckets.new num n)
    (b.min = num.top ∨ b.min ∈ ps.map Prod.fst) ∧ (∀ p ∈ ps, num.lt p.1 b.min = false) ∧ num.lt num.top b.min = false := by
  induction ps using List.reverseRecOn with
  | nil => exact ⟨Or.inl rfl, by simp, hP.irrefl _ htop⟩
  | append_singleton ps p ih =>
    obtain ⟨h1, h2, h3⟩ := ih fun q hq => hps q (List.mem_append_left _ hq)
    simp only [List.foldl_append, List.foldl_cons, List.foldl_nil] at h1 h2 h3 ⊢
    generalize hb : ps.foldl (Buckets.update num) (Buckets.new num n) = b at h1 h2 h3 ⊢
    have hpp : P p.1 := hps p (by simp)
    have hbm : P b.min := by
      rcases h1 with h1 | h1
      · rw [h1]; exact htop
      · obtain ⟨q, hq, hq2⟩ := List.mem_map.1 h1
        rw [← hq2]; exact hps q (List.mem_append_left _ hq)
    simp only [Buckets.update]
    have hlt : ∀ a, P a → num.lt a b.min = false → num.lt p.1 b.min = true → num.lt a p.1 = false := by
      intro a ha h4 h5
      cases h6 : num.lt a p.1 with
      | false => rfl
      | true => rw [hP.trans a p.1 b.min ha hpp hbm h6 h5] at h4; cases h4
    split
    · rename_i h5
      refine ⟨Or.inr (by simp), ?_, hlt _ htop h3 h5⟩
      intro q hq
      rcases List.mem_append.1 hq with hq | hq
      · exact hlt q.1 (hps q (List.mem_append_left _ hq)) (h2 q hq) h5
      · simp at hq; subst hq; exact hP.irrefl _ hpp
    · rename_i h5
      refine ⟨?_, ?_, h3⟩
      · rcases h1 with h1 | h1
        · exact Or.inl h1
        · exact Or.inr (by rw [List.map_append]; exact List.mem_append_left _ h1)
      · intro q hq
        rcases List.mem_append.1 hq with hq | hq
        · exact h2 q hq
        · simp at hq; subst hq; simpa using h5

theorem buckets_max (num : NumOps N) (n : Nat) (P : N → Prop) (hP : TotalOn num P) (ps : List (N × Nat)) (hps : ∀ p ∈ ps, P p.1) (hbot : P num.bot) :
    let b := ps.foldl (Buckets.update num) (Buckets.new num n)
    (b.max = num.bot ∨ b.max ∈ ps.map Prod.fst) ∧ (∀ p ∈ ps, num.lt b.max p.1 = false) ∧ num.lt b.max num.bot = false := by
  induction ps using List.reverseRecOn with
  | nil => exact ⟨Or.inl rfl, by simp, hP.irrefl _ hbot⟩
  | append_singleton ps p ih =>
    obtain ⟨h1, h2, h3⟩ := ih fun q hq => hps q (List.mem_append_left _ hq)
    simp only [List.foldl_append, List.foldl_cons, List.foldl_nil] at h1 h2 h3 ⊢
    generalize hb : ps.foldl (Buckets.update num) (Buckets.new num n) = b at h1 h2 h3 ⊢
    have hpp : P p.1 := hps p (by simp)
    have hbm : P b.max := by
      rcases h1 with h1 | h1
      · rw [h1]; exact hbot
      · obtain ⟨q, hq, hq2⟩ := List.mem_map.1 h1
        rw [← hq2]; exact hps q (List.mem_append_left _ hq)
    simp only [Buckets.update]
    have hlt : ∀ a, P a → num.lt b.max a = false → num.lt b.max p.1 = true → num.lt p.1 a = false := by
      intro a ha h4 h5
      cases h6 : num.lt p.1 a with
      | false => rfl
      | true => rw [hP.trans b.max p.1 a hbm hpp ha h5 h6] at h4; cases h4
    split
    · rename_i h5
      refine ⟨Or.inr (by simp), ?_, hlt _ hbot h3 h5⟩
      intro q hq
      rcases List.mem_append.1 hq with hq | hq
      · exact hlt q.1 (hps q (List.mem_append_left _ hq)) (h2 q hq) h5
      · simp at hq; subst hq; exact hP.irrefl _ hpp
    · rename_i h5
      refine ⟨?_, ?_, h3⟩
      · rcases h1 with h1 | h1
        · exact Or.inl h1
        · exact Or.inr (by rw [List.map_append]; exact List.mem_append_left _ h1)
      · intro q hq
        rcases List.mem_append.1 hq with hq | hq
        · exact h2 q hq
        · simp at hq; subst hq; simpa using h5

open Classical in
/-- A histogram data point for the measurements `xs`. -/
structure HistogramOf (num : NumOps N) (bounds : List F64) (recordMinMax recordSum : Bool) (xs : List N) (d : HistogramPoint N) : Prop where
  /-- the count is the number of measurements -/
  count : d.count = xs.length
  limits : d.bounds = bounds
  /-- one bucket more than boundaries -/
  buckets : d.bucketCounts.length = bounds.length + 1
  /-- each bucket counts the measurements in its interval -/
  bucket : ∀ i ≤ bounds.length, d.bucketCounts[i]? = some (xs.filter fun x => decide (InBucket bounds i (num.toF x))).length
  /-- no measurement is in none or in two of the buckets -/
  total : d.bucketCounts.sum = xs.length
  sum : d.sum = if recordSum then xs.foldl num.add num.zero else num.zero
  min : ∀ m, d.min = some m ↔ recordMinMax = true ∧ m ∈ xs ∧ ∀ x ∈ xs, num.lt x m = false
  max : ∀ m, d.max = some m ↔ recordMinMax = true ∧ m ∈ xs ∧ ∀ x ∈ xs, num.lt m x = false

theorem count_sum (n : Nat) (is : List Nat) (h : ∀ i ∈ is, i < n) : ((List.range n).map fun k => (is.filter fun i => i = k).length).sum = is.length := by
  have := sum_by_class (N := Nat) (List.range n) List.nodup_range (fun e => e.2) (is.map fun i => (1, i)) (by simpa using h)
  rw [List.map_map] at this
  simp only [Function.comp_def, List.filter_map, List.map_map] at this
  simpa using this

/-- **C40.** After any measurements (not NaN, and between `T::min()` and `T::max()`), with strictly increasing boundaries, the data
point of a set is the histogram of its measurements. -/
theorem histogram_correct (num : NumOps N) (P : PartitionPoint) (bounds : List F64) (hb : Increasing bounds) (recordMinMax recordSum : Bool)
    (xs : List N) (hne : xs ≠ []) (hnan : ∀ x ∈ xs, num.toF x ≠ .nan) (Q : N → Prop) (hQ : TotalOn num Q) (hxs : ∀ x ∈ xs, Q x)
    (htop : Q num.top) (hbot : Q num.bot) (hletop : ∀ x ∈ xs, num.lt num.top x = false) (hlebot : ∀ x ∈ xs, num.lt x num.bot = false) :
    HistogramOf num bounds recordMinMax recordSum xs (histogramPoint num bounds recordMinMax recordSum
      ((xs.map (histogramInput num P bounds)).foldl (bucketsAgg num (bounds.length + 1)).update (bucketsAgg num (bounds.length + 1)).create)) := by
  obtain ⟨h1, h2, h3, h4⟩ := buckets_counts num (bounds.length + 1) (xs.map (histogramInput num P bounds))
  have hfst : (xs.map (histogramInput num P bounds)).map Prod.fst = xs := by
    rw [List.map_map]; conv_rhs => rw [← List.map_id xs]
    rfl
  have hq : ∀ p ∈ xs.map (histogramInput num P bounds), Q p.1 := by
    intro p hp
    obtain ⟨x, hx, rfl⟩ := List.mem_map.1 hp
    exact hxs x hx
  have hmin := buckets_min num (bounds.length + 1) Q hQ _ hq htop
  have hmax := buckets_max num (bounds.length + 1) Q hQ _ hq hbot
  simp only [hfst] at hmin hmax h3
  simp only [List.length_map] at h2
  have hin : ∀ x ∈ xs, histogramInput num P bounds x ∈ xs.map (histogramInput num P bounds) := fun x hx => List.mem_map.2 ⟨x, hx, rfl⟩
  simp only [bucketsAgg, histogramPoint]
  generalize hB : (xs.map (histogramInput num P bounds)).foldl (Buckets.update num) (Buckets.new num (bounds.length + 1)) = B at *
  obtain ⟨m1, m2, m3⟩ := hmin
  obtain ⟨n1, n2, n3⟩ := hmax
  obtain ⟨x0, hx0⟩ := List.exists_mem_of_ne_nil xs hne
  refine ⟨h2, rfl, h1, ?_, ?_, by simp only [h3], ?_, ?_⟩
  · intro i hi
    rw [h4 i (by omega), List.filter_map, List.length_map]
    congr 2
    apply List.filter_congr
    intro x hx
    rw [Function.comp, decide_eq_decide, bucket_index num P bounds hb x (hnan x hx) i]
    exact eq_comm
  · have hcounts : B.counts = (List.range (bounds.length + 1)).map fun k => ((xs.map fun x => (histogramInput num P bounds x).2).filter fun i => i = k).length := by
      apply List.ext_getElem?
      intro i
      by_cases hi : i < bounds.length + 1
      · rw [h4 i hi, List.getElem?_map, List.getElem?_range hi]
        simp [List.filter_map, Function.comp_def]
      · rw [List.getElem?_eq_none (by omega), List.getElem?_eq_none (by simp; omega)]
    rw [hcounts, count_sum]
    · simp
    · intro i hi
      obtain ⟨x, _, rfl⟩ := List.mem_map.1 hi
      exact bucket_index_lt num P bounds x
  · have hmem : B.min ∈ xs := by
      rcases m1 with m1 | m1
      · have h5 := m2 _ (hin x0 hx0)
        rcases hQ.total x0 num.top (hxs x0 hx0) htop with h6 | h6 | h6
        · rw [m1, ← h6]; exact hx0
        · rw [m1] at h5; rw [show (histogramInput num P bounds x0).1 = x0 from rfl, h6] at h5; cases h5
        · rw [hletop x0 hx0] at h6; cases h6
      · exact m1
    intro m
    cases recordMinMax with
    | false => simp
    | true =>
      simp only [if_true, Option.some.injEq, true_and]
      constructor
      · rintro rfl; exact ⟨hmem, fun x hx => m2 _ (hin x hx)⟩
      · rintro ⟨h5, h6⟩
        rcases hQ.total B.min m (hxs _ hmem) (hxs _ h5) with h7 | h7 | h7
        · exact h7
        · rw [h6 _ hmem] at h7; cases h7
        · rw [show num.lt m B.min = false from m2 _ (hin m h5)] at h7; cases h7
  · have hmem : B.max ∈ xs := by
      rcases n1 with n1 | n1
      · have h5 := n2 _ (hin x0 hx0)
        rcases hQ.total x0 num.bot (hxs x0 hx0) hbot with h6 | h6 | h6
        · rw [n1, ← h6]; exact hx0
        · rw [hlebot x0 hx0] at h6; cases h6
        · rw [n1] at h5; rw [show (histogramInput num P bounds x0).1 = x0 from rfl, h6] at h5; cases h5
      · exact n1
    intro m
    cases recordMinMax with
    | false => simp
    | true =>
      simp only [if_true, Option.some.injEq, true_and]
      constructor
      · rintro rfl; exact ⟨hmem, fun x hx => n2 _ (hin x hx)⟩
      · rintro ⟨h5, h6⟩
        rcases hQ.total B.max m (hxs _ hmem) (hxs _ h5) with h7 | h7 | h7
        · exact h7
        · rw [show num.lt B.max m = false from n2 _ (hin m h5)] at h7; cases h7
        · rw [h6 _ hmem] at h7; cases h7

/-! ## The store of histograms -/

/-- The operation as it reaches the store. -/
def MapOp.mapVal {X Y : Type} (f : X → Y) : MapOp K V X → MapOp K V Y
  | .measure x a => .measure (f x) a
  | .cumulative it => .cumulative it
  | .delta it => .delta it

theorem sinceReset_mapVal {X Y : Type} (f : X → Y) (ops : List (MapOp K V X)) (h : Hist K V X) :
    sinceReset (ops.map (MapOp.mapVal f)) (h.map fun e => (f e.1, e.2)) = (sinceReset ops h).map fun e => (f e.1, e.2) := by
  induction ops generalizing h with
  | nil => rfl
  | cons op ops ih =>
    cases op with
    | measure x a =>
      simp only [List.map_cons, MapOp.mapVal, sinceReset]
      rw [← ih]; simp
    | cumulative it => exact ih h
    | delta it => exact ih []

/-- **C40.** Below the limit, the histogram reported for an attribute set is the histogram of the measurements made with that set
since the last reset. -/
theorem histogram_exact (num : NumOps N) (P : PartitionPoint) (bounds : List F64) (hb : Increasing bounds) (recordMinMax recordSum : Bool)
    (srt : Sorter K V) (limit : Nat) (o : K × V) (ops : List (MapOp K V N)) (delta : Bool) (pts : List (Attrs K V × Buckets N))
    (h : Reported srt (bucketsAgg num (bounds.length + 1)) limit o (ops.map (MapOp.mapVal (histogramInput num P bounds))) delta pts)
    (hk : ∀ e ∈ sinceReset ops [], (e.2.map Prod.fst).Nodup)
    (L : List (Attrs K V)) (hlen : L.length ≤ limit) (hL : ∀ e ∈ sinceReset ops [], e.2 ≠ [] → ∃ a ∈ L, e.2.Perm a)
    (hnan : ∀ e ∈ sinceReset ops [], num.toF e.1 ≠ .nan) (Q : N → Prop) (hQ : TotalOn num Q) (hxs : ∀ e ∈ sinceReset ops [], Q e.1)
    (htop : Q num.top) (hbot : Q num.bot) (hletop : ∀ e ∈ sinceReset ops [], num.lt num.top e.1 = false)
    (hlebot : ∀ e ∈ sinceReset ops [], num.lt e.1 num.bot = false) :
    (∀ p ∈ pts, HistogramOf num bounds recordMinMax recordSum (((sinceReset ops []).filter fun e => e.2.isPerm p.1).map Prod.fst)
        (histogramPoint num bounds recordMinMax recordSum p.2))
      ∧ (∀ e ∈ sinceReset ops [], ∃ p ∈ pts, p.1.Perm e.2) ∧ pts.Pairwise fun p q => ¬ p.1.Perm q.1 := by
  have hs := sinceReset_mapVal (histogramInput num P bounds) ops []
  simp only [List.map_nil] at hs
  have hmem : ∀ e ∈ sinceReset (ops.map (MapOp.mapVal (histogramInput num P bounds))) [],
      ∃ f ∈ sinceReset ops [], e = (histogramInput num P bounds f.1, f.2) := by
    intro e he
    rw [hs] at he
    obtain ⟨f, hf, rfl⟩ := List.mem_map.1 he
    exact ⟨f, hf, rfl⟩
  obtain ⟨h1, h2, h3, h4⟩ := aggregates_by_set srt _ limit o _ delta pts h
    (fun e he => by obtain ⟨f, hf, rfl⟩ := hmem e he; exact hk f hf) L hlen
    (fun e he => by obtain ⟨f, hf, rfl⟩ := hmem e he; exact hL f hf)
  refine ⟨?_, ?_, h4⟩
  · intro p hp
    have hvals : (((sinceReset (ops.map (MapOp.mapVal (histogramInput num P bounds))) []).filter fun e => e.2.isPerm p.1).map Prod.fst)
        = (((sinceReset ops []).filter fun e => e.2.isPerm p.1).map Prod.fst).map (histogramInput num P bounds) := by
      rw [hs, List.filter_map, List.map_map, List.map_map]; rfl
    rw [h1 p hp, hvals]
    have hsub : ∀ x ∈ ((sinceReset ops []).filter fun e => e.2.isPerm p.1).map Prod.fst, ∃ e ∈ sinceReset ops [], e.1 = x := by
      intro x hx
      obtain ⟨e, he, rfl⟩ := List.mem_map.1 hx
      exact ⟨e, (List.mem_filter.1 he).1, rfl⟩
    refine histogram_correct num P bounds hb recordMinMax recordSum _ ?_ ?_ Q hQ ?_ htop hbot ?_ ?_
    · obtain ⟨e, he, hpe⟩ := h2 p hp
      obtain ⟨f, hf, rfl⟩ := hmem e he
      intro hnil
      have : f.1 ∈ ((sinceReset ops []).filter fun e => e.2.isPerm p.1).map Prod.fst :=
        List.mem_map.2 ⟨f, List.mem_filter.2 ⟨hf, List.isPerm_iff.2 hpe⟩, rfl⟩
      rw [hnil] at this; cases this
    · intro x hx; obtain ⟨e, he, rfl⟩ := hsub x hx; exact hnan e he
    · intro x hx; obtain ⟨e, he, rfl⟩ := hsub x hx; exact hxs e he
    · intro x hx; obtain ⟨e, he, rfl⟩ := hsub x hx; exact hletop e he
    · intro x hx; obtain ⟨e, he, rfl⟩ := hsub x hx; exact hlebot e he
  · intro e he
    exact h3 (histogramInput num P bounds e.1, e.2) (by rw [hs]; exact List.mem_map.2 ⟨e, he, rfl⟩)

/-! ## The three number types -/

/-- `i64`: additions wrap, conversion rounds. mod.rs:280-292 -/
def i64Ops (r : F64.Rounding) : NumOps (BitVec 64) where
  zero := 0
  add := (· + ·)
  lt a b := a.slt b
  top := BitVec.intMax 64
  bot := BitVec.intMin 64
  toF x := r.rnd x.toInt

/-- `u64`. mod.rs:294-306 -/
def u64Ops (r : F64.Rounding) : NumOps (BitVec 64) where
  zero := 0
  add := (· + ·)
  lt a b := a.ult b
  top := BitVec.allOnes 64
  bot := 0
  toF x := r.rnd x.toNat

/-- Addition of doubles. -/
def F64add (r : F64.Rounding) : F64 → F64 → F64
  | .nan, _ => .nan
  | _, .nan => .nan
  | .posInf, .negInf => .nan
  | .negInf, .posInf => .nan
  | .posInf, _ => .posInf
  | _, .posInf => .posInf
  | .negInf, _ => .negInf
  | _, .negInf => .negInf
  | .fin a, .fin b => r.rnd (a + b)

/-- `f64`. mod.rs:308-320 -/
def f64Ops (r : F64.Rounding) : NumOps F64 where
  zero := .fin 0
  add := F64add r
  lt := F64.lt
  top := F64.MAX
  bot := F64.MIN
  toF x := x

theorem i64_total (r : F64.Rounding) : TotalOn (i64Ops r) (fun _ => True) where
  irrefl a _ := by simp [i64Ops, BitVec.slt]
  trans a b c _ _ _ := by simp only [i64Ops, BitVec.slt, decide_eq_true_eq]; omega
  total a b _ _ := by
    simp only [i64Ops, BitVec.slt, decide_eq_true_eq]
    rcases Int.lt_trichotomy a.toInt b.toInt with h | h | h
    · exact Or.inr (Or.inl h)
    · exact Or.inl (BitVec.eq_of_toInt_eq h)
    · exact Or.inr (Or.inr h)

/-- Every `i64` is within the initial minimum and maximum, so `histogram_correct` holds without conditions on the values. -/
theorem i64_bounds (r : F64.Rounding) (x : BitVec 64) : (i64Ops r).lt (i64Ops r).top x = false ∧ (i64Ops r).lt x (i64Ops r).bot = false := by
  have h1 : (BitVec.intMax 64).toInt = 2 ^ 63 - 1 := by decide
  have h2 : (BitVec.intMin 64).toInt = -2 ^ 63 := by decide
  have h3 := BitVec.toInt_lt (x := x)
  have h4 := BitVec.le_toInt x
  simp only [i64Ops, BitVec.slt, h1, h2, decide_eq_false_iff_not]
  omega

theorem u64_total (r : F64.Rounding) : TotalOn (u64Ops r) (fun _ => True) where
  irrefl a _ := by simp [u64Ops, BitVec.ult]
  trans a b c _ _ _ := by simp only [u64Ops, BitVec.ult, decide_eq_true_eq]; omega
  total a b _ _ := by
    simp only [u64Ops, BitVec.ult, decide_eq_true_eq]
    rcases Nat.lt_trichotomy a.toNat b.toNat with h | h | h
    · exact Or.inr (Or.inl h)
    · exact Or.inl (BitVec.eq_of_toNat_eq h)
    · exact Or.inr (Or.inr h)

theorem u64_bounds (r : F64.Rounding) (x : BitVec 64) : (u64Ops r).lt (u64Ops r).top x = false ∧ (u64Ops r).lt x (u64Ops r).bot = false := by
  have h3 := x.isLt
  simp [u64Ops, BitVec.ult]; omega

theorem f64_total (r : F64.Rounding) : TotalOn (f64Ops r) (fun x => x ≠ .nan) where
  irrefl a _ := F64.lt_irrefl a
  trans _ _ _ _ _ _ h1 h2 := F64.lt_trans h1 h2
  total _ _ ha hb := F64.total ha hb

/-- Finite doubles are within `f64::MIN` and `f64::MAX`. -/
theorem f64_bounds (r : F64.Rounding) (q : Rat) (hq : F64.Representable q) :
    (f64Ops r).lt (f64Ops r).top (.fin q) = false ∧ (f64Ops r).lt (.fin q) (f64Ops r).bot = false := by
  obtain ⟨m, e, hm, _, he, rfl⟩ := hq
  have h2 : (2 : Rat) ^ e ≤ 2 ^ (971 : Int) := zpow_le_zpow_right₀ (by norm_num) he
  have h0 : (0 : Rat) < 2 ^ e := by positivity
  have hm' : |(m : Rat)| ≤ 2 ^ 53 - 1 := by
    rw [← Int.cast_abs]
    have : |m| ≤ 2 ^ 53 - 1 := by omega
    exact_mod_cast this
  have habs : |(m : Rat) * 2 ^ e| ≤ (2 ^ 53 - 1) * 2 ^ (971 : Int) := by
    rw [abs_mul, abs_of_pos h0]
    exact mul_le_mul hm' h2 h0.le (le_trans (abs_nonneg _) hm')
  obtain ⟨h3, h4⟩ := abs_le.1 habs
  rw [show (2 : Rat) ^ (971 : Int) = 2 ^ 971 from zpow_natCast 2 971] at h3 h4
  constructor
  · simp only [f64Ops, F64.lt, F64.ge, F64.MAX, h4, decide_true]; simp
  · simp only [f64Ops, F64.lt, F64.ge, F64.MIN, h3, decide_true]; simp

/-! ## What does not hold -/

/-- **C40, violated.** An infinite measurement: the reported minimum is `f64::MAX`, which was never recorded. -/
theorem infinite_min_violated (r : F64.Rounding) (P : PartitionPoint) (bounds : List F64) :
    let d := histogramPoint (f64Ops r) bounds true true ((([F64.posInf].map (histogramInput (f64Ops r) P bounds)).foldl
      (bucketsAgg (f64Ops r) (bounds.length + 1)).update (bucketsAgg (f64Ops r) (bounds.length + 1)).create))
    d.min = some F64.MAX ∧ d.max = some .posInf ∧ d.count = 1 := by
  refine ⟨?_, ?_, rfl⟩
  · simp [histogramPoint, bucketsAgg, Buckets.update, Buckets.new, histogramInput, f64Ops, F64.lt, F64.MAX, F64.ge]
  · simp [histogramPoint, bucketsAgg, Buckets.update, Buckets.new, histogramInput, f64Ops, F64.lt, F64.MIN, F64.ge]

/-- **C40, violated.** NaN is counted in the first bucket, makes the sum NaN, and a histogram of NaNs reports `f64::MAX` as minimum and
`f64::MIN` as maximum. -/
theorem nan_counted_violated (r : F64.Rounding) (P : PartitionPoint) (bounds : List F64) :
    let d := histogramPoint (f64Ops r) bounds true true ((([F64.nan].map (histogramInput (f64Ops r) P bounds)).foldl
      (bucketsAgg (f64Ops r) (bounds.length + 1)).update (bucketsAgg (f64Ops r) (bounds.length + 1)).create))
    d.bucketCounts[0]? = some 1 ∧ d.sum = .nan ∧ d.min = some F64.MAX ∧ d.max = some F64.MIN ∧ ¬ InBucket [.fin 0] 0 .nan := by
  have hi : (histogramInput (f64Ops r) P bounds F64.nan).2 = 0 :=
    P.spec _ _ 0 (by simp) (by simp) (by intro x _; simp [f64Ops, F64.lt])
  refine ⟨?_, ?_, ?_, ?_, ?_⟩
  · simp [histogramPoint, bucketsAgg, Buckets.update, Buckets.new, hi]
  · simp [histogramPoint, bucketsAgg, Buckets.update, Buckets.new, histogramInput, f64Ops, F64add]
  · simp [histogramPoint, bucketsAgg, Buckets.update, Buckets.new, histogramInput, f64Ops, F64.lt]
  · simp [histogramPoint, bucketsAgg, Buckets.update, Buckets.new, histogramInput, f64Ops, F64.lt]
  · rintro ⟨_, _, h⟩
    have := h (.fin 0) rfl
    simp [F64.le, F64.ge] at this

/-! ## Examples -/

/-- A partition point: scan from the left. -/
def scanPoint : PartitionPoint where
  pp pred l := (l.takeWhile pred).length
  le_length pred l := (List.takeWhile_sublist pred).length_le
  spec pred l k hk h1 h2 := by
    conv_lhs => rw [← List.take_append_drop k l]
    rw [List.takeWhile_append_of_pos h1]
    have : (l.drop k).takeWhile pred = [] := by
      cases hd : l.drop k with
      | nil => rfl
      | cons x t => rw [List.takeWhile_cons, h2 x (by rw [hd]; exact List.mem_cons_self)]; rfl
    rw [this]; simp [hk]

/-- The hypotheses of `histogram_correct`: three values, two boundaries. -/
example (r : F64.Rounding) : Increasing [.fin 1, .fin 5] ∧ (∀ x ∈ [F64.fin 1, .fin 3, .fin 9], (f64Ops r).toF x ≠ .nan)
    ∧ (∀ x ∈ [F64.fin 1, .fin 3, .fin 9], (f64Ops r).lt (f64Ops r).top x = false)
    ∧ InBucket [.fin 1, .fin 5] 0 (.fin 1) ∧ InBucket [.fin 1, .fin 5] 1 (.fin 3) ∧ InBucket [.fin 1, .fin 5] 2 (.fin 9) := by
  refine ⟨⟨by simp, by simp [F64.lt, F64.ge]⟩, by simp [f64Ops], ?_, ?_, ?_, ?_⟩
  · intro x hx
    simp only [List.mem_cons, List.not_mem_nil, or_false] at hx
    rcases hx with rfl | rfl | rfl
    · exact (f64_bounds r 1 ⟨1, 0, by norm_num, by norm_num, by norm_num, by norm_num⟩).1
    · exact (f64_bounds r 3 ⟨3, 0, by norm_num, by norm_num, by norm_num, by norm_num⟩).1
    · exact (f64_bounds r 9 ⟨9, 0, by norm_num, by norm_num, by norm_num, by norm_num⟩).1
  · simp [InBucket, F64.le, F64.ge]
  · simp [InBucket, F64.le, F64.ge, F64.lt]; norm_num
  · simp [InBucket, F64.lt, F64.ge]; norm_num


/-- **C39 (`u64` sums)** Additions from zero: the total modulo `2^64`. -/
theorem u64_sum (r : F64.Rounding) (vs : List (BitVec 64)) : (vs.foldl (u64Ops r).add (u64Ops r).zero).toNat = (vs.map BitVec.toNat).sum % 2 ^ 64 := by
  have key : ∀ a : BitVec 64, (vs.foldl (u64Ops r).add a).toNat = (a.toNat + (vs.map BitVec.toNat).sum) % 2 ^ 64 := by
    induction vs with
    | nil => intro a; have := a.isLt; simp; omega
    | cons v vs ih =>
      intro a
      rw [List.foldl_cons, ih, show (u64Ops r).add a v = a + v from rfl, BitVec.toNat_add, List.map_cons, List.sum_cons]
      omega
  rw [key]; simp [u64Ops]

/-- **C39 (`i64` sums)** Additions from zero: the total, as a two's complement number of 64 bits. -/
theorem i64_sum (r : F64.Rounding) (vs : List (BitVec 64)) : (vs.foldl (i64Ops r).add (i64Ops r).zero).toInt = ((vs.map BitVec.toInt).sum).bmod (2 ^ 64) := by
  have key : ∀ a : BitVec 64, (vs.foldl (i64Ops r).add a).toInt = (a.toInt + (vs.map BitVec.toInt).sum).bmod (2 ^ 64) := by
    induction vs with
    | nil => intro a; simpa using (BitVec.toInt_bmod_cancel a).symm
    | cons v vs ih =>
      intro a
      rw [List.foldl_cons, ih, show (i64Ops r).add a v = a + v from rfl, BitVec.toInt_add, List.map_cons, List.sum_cons, Int.bmod_add_bmod, Int.add_assoc]
  rw [key]; simp [i64Ops]

/-- **C39 (`f64` sums)** Nothing added: zero; one finite double: itself. -/
theorem f64_sum_start (r : F64.Rounding) (x : F64) (hx : ∀ q, x = .fin q → r.rnd q = .fin q) :
    ([] : List F64).foldl (f64Ops r).add (f64Ops r).zero = .fin 0 ∧ [x].foldl (f64Ops r).add (f64Ops r).zero = x := by
  refine ⟨rfl, ?_⟩
  cases x with
  | fin q => simpa [f64Ops, F64add] using hx q rfl
  | _ => rfl

example (r : F64.Rounding) : [F64.posInf].foldl (f64Ops r).add (f64Ops r).zero = .posInf := (f64_sum_start r .posInf (fun q h => by cases h)).2

end Otel.Metrics
