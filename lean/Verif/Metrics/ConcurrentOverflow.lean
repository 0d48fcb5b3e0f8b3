import Verif.Metrics.ConcurrentSets
/-!
# What a collection reports beyond the cardinality limit (C109)

Consequences of C38 without an assumption on the number of attribute sets: the points of a collection share out all measurements, each to one point; the first sets, as many
as the limit, have a point of their own, and one point takes the others. No code is modelled here.
-/

set_option linter.unusedSectionVars false

namespace Otel.Metrics.Conc

variable {K V : Type} [LinearOrder K] [DecidableEq V] {A X : Type}

/-! ## Specification -/

/-- The values that a point with attributes `a` stands for, of measurements `h` with attributes and `no` without: a set among the first `limit` ones has a point of its own, all
others have the overflow point. -/
def pointValues (cfg : Cfg K V A X) (h : Hist K V X) (no : List (Nat × X)) (a : Attrs K V) : List X :=
  if a = [] then no.map Prod.snd else valuesOf (sortAndDedup cfg.srt) cfg.limit [cfg.overflow] h (sortAndDedup cfg.srt a)

/-- Delta: exactly the values of the period; a point without attributes only if the flag was found set. -/
def limitedOk (cfg : Cfg K V A X) (r : Collection K V A X) (a : Attrs K V) (xs : List X) : Prop :=
  xs = pointValues cfg r.period (r.noVals.getD []) a ∧ (a ≠ [] → xs ≠ []) ∧ (a = [] → r.noVals ≠ none)

/-- Delta: whatever was measured in the period has a point. -/
def limitedMust (cfg : Cfg K V A X) (r : Collection K V A X) (a : Attrs K V) : Prop := pointValues cfg r.period (r.noVals.getD []) a ≠ []

/-- Cumulative: all values up to a moment of the collection. -/
def limitedCumOk (cfg : Cfg K V A X) (r : Collection K V A X) (a : Attrs K V) (xs : List X) : Prop :=
  ∃ h no, r.startHist <+: h ∧ h <+: r.endHist ∧ (a = [] → r.noVals = some no) ∧ xs = pointValues cfg h no a ∧ (a ≠ [] → xs ≠ [])

/-- Cumulative: whatever was measured before the collection began has a point; without attributes, if the flag was found set. -/
def limitedCumMust (cfg : Cfg K V A X) (r : Collection K V A X) (a : Attrs K V) : Prop := pointValues cfg r.startHist (r.noVals.getD []) a ≠ []

/-- The values measured in the period of a delta collection. -/
def periodValues (r : Collection K V A X) : List X := r.period.map Prod.fst ++ (r.noVals.getD []).map Prod.snd

/-- The values in the store, or taken by the running collection. -/
def pendingValues (s : State K V A X) : List X := (s.cur.period ++ s.hist).map Prod.fst ++ (s.cur.noVals.getD [] ++ s.noHist).map Prod.snd

/-- All values recorded. -/
def allValues (s : State K V A X) : List X := s.applied.map fun e => e.2.1

/-- The values of a cumulative collection: what was there when it began, and what was there at its end. -/
def startValues (r : Collection K V A X) : List X := r.startHist.map Prod.fst ++ (r.noVals.getD []).map Prod.snd
def endValues (r : Collection K V A X) : List X := r.endHist.map Prod.fst ++ (r.noVals.getD []).map Prod.snd

/-! ## Lemmas -/

/-- Sharing out by classes: nothing is lost and nothing twice. -/
theorem perm_by_class {α β : Type} [DecidableEq β] (f : α → β) (ks : List β) (hk : ks.Nodup) (h : List α) (hc : ∀ e ∈ h, f e ∈ ks) :
    (ks.flatMap fun k => h.filter fun e => f e = k).Perm h := by
  induction ks generalizing h with
  | nil =>
    cases h with
    | nil => exact .refl _
    | cons e h => exact absurd (hc e (by simp)) (by simp)
  | cons k ks ih =>
    rw [List.nodup_cons] at hk
    rw [List.flatMap_cons]
    have h1 : (ks.flatMap fun j => h.filter fun e => f e = j) = ks.flatMap fun j => (h.filter fun e => !decide (f e = k)).filter fun e => f e = j := by
      apply List.flatMap_congr
      intro j hj
      rw [List.filter_filter]
      apply List.filter_congr
      intro e _
      by_cases he : f e = j
      · have : j ≠ k := fun hjk => hk.1 (hjk ▸ hj)
        simp [he, this]
      · simp [he]
    rw [h1]
    refine ((List.Perm.refl _).append (ih hk.2 _ fun e he => ?_)).trans (List.filter_append_perm (fun e => decide (f e = k)) h)
    obtain ⟨he1, he2⟩ := List.mem_filter.1 he
    rcases List.mem_cons.1 (hc e he1) with hek | hek
    · simp [hek] at he2
    · exact hek

theorem subperm_by_class {α β : Type} [DecidableEq β] (f : α → β) (ks : List β) (hk : ks.Nodup) (h : List α) :
    (ks.flatMap fun k => h.filter fun e => f e = k).Subperm h := by
  have h1 : (ks.flatMap fun k => h.filter fun e => f e = k) = ks.flatMap fun k => (h.filter fun e => decide (f e ∈ ks)).filter fun e => f e = k := by
    apply List.flatMap_congr
    intro k hkm
    rw [List.filter_filter]
    apply List.filter_congr
    intro e _
    by_cases he : f e = k
    · simp [he, hkm]
    · simp [he]
  rw [h1]
  refine (perm_by_class f ks hk _ fun e he => ?_).subperm.trans List.filter_sublist.subperm
  simpa using (List.mem_filter.1 he).2

theorem values_within {c : Attrs K V → Attrs K V} {limit : Nat} {ov : Attrs K V} (ks : List (Attrs K V)) (hk : ks.Nodup) (h : Hist K V X) :
    (ks.flatMap fun k => valuesOf c limit ov h k).Subperm (h.map Prod.fst) := by
  obtain ⟨l, h1, h2⟩ := subperm_by_class (fun e : X × Attrs K V => route c limit ov h e.2) ks hk h
  refine ⟨l.map Prod.fst, ?_, h2.map _⟩
  have := h1.map Prod.fst
  rwa [List.map_flatMap] at this

theorem values_share {c : Attrs K V → Attrs K V} {limit : Nat} {ov : Attrs K V} (ks : List (Attrs K V)) (hk : ks.Nodup) (h : Hist K V X)
    (hc : ∀ e ∈ h, route c limit ov h e.2 ∈ ks) : (ks.flatMap fun k => valuesOf c limit ov h k).Perm (h.map Prod.fst) := by
  have := (perm_by_class (fun e : X × Attrs K V => route c limit ov h e.2) ks hk h hc).map Prod.fst
  rwa [List.map_flatMap] at this

theorem valuesOf_prefix {c : Attrs K V → Attrs K V} {limit : Nat} {ov : Attrs K V} {h h' : Hist K V X} (hp : h <+: h') (k : Attrs K V) :
    valuesOf c limit ov h k <+: valuesOf c limit ov h' k := by
  obtain ⟨t, rfl⟩ := hp
  rw [valuesOf, valuesOf, List.filter_append, List.map_append]
  have : (h.filter fun e => route c limit ov (h ++ t) e.2 = k) = h.filter fun e => route c limit ov h e.2 = k := by
    apply List.filter_congr
    intro e he
    rw [route_prefix (List.prefix_append h t) e he]
  rw [this]
  exact List.prefix_append _ _

theorem flatMap_sublist_pointwise {α β : Type} {f g : α → List β} {l : List α} (h : ∀ a ∈ l, List.Sublist (f a) (g a)) : List.Sublist (l.flatMap f) (l.flatMap g) := by
  induction l with
  | nil => exact .slnil
  | cons a l ih => rw [List.flatMap_cons, List.flatMap_cons]; exact (h a (by simp)).append (ih fun b hb => h b (by simp [hb]))

/-- The keys of the points, apart from that without attributes: at most one more than the limit. -/
theorem keys_bounded {c : Attrs K V → Attrs K V} {limit : Nat} {o : K × V} {h : Hist K V X} (hne : ∀ e ∈ h, e.2 ≠ []) {pts : List (Attrs K V × A)}
    (hd : (pts.map fun p => c p.1).Nodup) (hv : ∀ p ∈ pts, valuesOf c limit [o] h (c p.1) ≠ []) : pts.length ≤ limit + 1 := by
  have hsub : (pts.map fun p => c p.1) ⊆ [o] :: admitted c limit h := by
    intro k hk
    obtain ⟨p, hp, rfl⟩ := List.mem_map.1 hk
    obtain ⟨e, he, hr⟩ := (valuesOf_ne_nil _ _).1 (hv p hp)
    rw [← hr, route, if_neg (hne e he)]
    split
    · rename_i h1; exact List.mem_cons_of_mem _ h1
    · exact List.mem_cons_self
  have := (List.subperm_of_subset hd hsub).length_le
  rw [List.length_map, List.length_cons] at this
  have h2 : (admitted c limit h).length ≤ limit := by rw [admitted, List.length_take]; exact Nat.min_le_left _ _
  omega

theorem noPart_length (cfg : Cfg K V A X) (r : Collection K V A X) : (noPart cfg r).length ≤ 1 := by
  unfold noPart; split <;> simp

theorem period_nonempty {cfg : Cfg K V A X} {s : State K V A X} (h : Reachable cfg s) {r : Collection K V A X} (hr : r ∈ s.done) : ∀ e ∈ r.period, e.2 ≠ [] := by
  intro e he
  have : e ∈ s.appliedAttrs := by
    rw [(logs_reachable h).attrs]
    exact List.mem_append_left _ (List.mem_append_left _ (List.mem_flatMap.2 ⟨r, hr, he⟩))
  obtain ⟨x, hx, rfl⟩ := List.mem_map.1 this
  simpa using (List.mem_filter.1 hx).2

/-- A set among the first ones has its own values, unless it is the overflow set itself. -/
theorem pointValues_own (cfg : Cfg K V A X) (h : Hist K V X) (hne : ∀ e ∈ h, e.2 ≠ []) (no : List (Nat × X)) (a : Attrs K V)
    (ha : sortAndDedup cfg.srt a ∈ (setsOf (sortAndDedup cfg.srt) h).take cfg.limit) (hov : sortAndDedup cfg.srt a ≠ [cfg.overflow]) :
    pointValues cfg h no a = setValues cfg.srt h no a := by
  rw [pointValues, setValues]
  split
  · rfl
  · rw [valuesOf]
    congr 1
    apply List.filter_congr
    intro e he
    rw [route, if_neg (hne e he), admitted]
    by_cases hc : sortAndDedup cfg.srt e.2 = sortAndDedup cfg.srt a
    · simp [hc, ha]
    · split
      · rfl
      · simp [hc, Ne.symm hov]

/-- The overflow point has the values of all sets after the first ones, and those recorded for the overflow set itself. -/
theorem pointValues_overflow (cfg : Cfg K V A X) (h : Hist K V X) (hne : ∀ e ∈ h, e.2 ≠ []) (no : List (Nat × X)) :
    pointValues cfg h no [cfg.overflow] = (h.filter fun e => sortAndDedup cfg.srt e.2 ∉ (setsOf (sortAndDedup cfg.srt) h).take cfg.limit ∨
      sortAndDedup cfg.srt e.2 = [cfg.overflow]).map Prod.fst := by
  rw [pointValues, if_neg (by simp), canon_singleton, valuesOf]
  congr 1
  apply List.filter_congr
  intro e he
  rw [route, if_neg (hne e he), admitted]
  by_cases hm : sortAndDedup cfg.srt e.2 ∈ (setsOf (sortAndDedup cfg.srt) h).take cfg.limit
  · simp [hm]
  · simp [hm]

/-- A delta collection, whatever the number of sets. -/
theorem delta_limited {cfg : Cfg K V A X} (hd : cfg.delta = true) {s : State K V A X} (h : Reachable cfg s) : ∀ r ∈ s.done,
    PointsOf cfg.srt cfg.agg (limitedOk cfg r) (limitedMust cfg r) r.points ∧ r.points.length ≤ cfg.limit + 2 ∧
      (r.points.flatMap fun p => pointValues cfg r.period (r.noVals.getD []) p.1).Perm (periodValues r) := by
  intro r hr
  obtain ⟨pts, h1, h2⟩ := (delta_reachable hd h).done r hr
  have hne := period_nonempty h hr
  have hkey : ∀ p ∈ pts, p.1 ≠ [] := by
    intro p hp hnil
    obtain ⟨e, he, hr⟩ := (valuesOf_ne_nil _ _).1 (h2.values p hp).1
    rw [hnil, canon_nil] at hr
    exact route_ne_nil (canon_sortAndDedup cfg.srt cfg.overflow) _ _ (hne e he) hr
  refine ⟨?_, ?_, ?_⟩
  · rw [h1]
    refine ⟨distinct_append h2.distinct hkey, fun p hp => ?_, fun a ha => ?_⟩
    · rcases List.mem_append.1 hp with hp | hp
      · have hnil := noPart_nil_key cfg r p hp
        unfold noPart at hp
        split at hp
        · cases hp
        · rename_i vs hvs
          rw [List.mem_singleton] at hp
          refine ⟨_, ⟨rfl, fun hc => absurd hnil hc, fun _ => by rw [hvs]; simp⟩, ?_⟩
          rw [pointValues, if_pos hnil, hp, hvs]; rfl
      · obtain ⟨g1, g2⟩ := h2.values p hp
        refine ⟨_, ⟨rfl, fun _ => ?_, fun hc => absurd hc (hkey p hp)⟩, ?_⟩
        · rw [pointValues, if_neg (hkey p hp)]; exact g1
        · rw [pointValues, if_neg (hkey p hp)]; exact g2
    · by_cases hnil : a = []
      · subst hnil
        rw [limitedMust, pointValues, if_pos rfl] at ha
        cases hv : r.noVals with
        | none => rw [hv] at ha; exact absurd rfl ha
        | some vs => exact ⟨_, List.mem_append_left _ (by rw [noPart, hv]; exact List.mem_singleton_self _), rfl⟩
      · rw [limitedMust, pointValues, if_neg hnil] at ha
        obtain ⟨e, he, hre⟩ := (valuesOf_ne_nil _ _).1 ha
        obtain ⟨p, hp, hpe⟩ := h2.complete e he
        exact ⟨p, List.mem_append_right _ hp, hpe.trans hre⟩
  · rw [h1, List.length_append]
    have k1 := noPart_length cfg r
    have k2 := keys_bounded hne h2.distinct fun p hp => (h2.values p hp).1
    omega
  · rw [h1, List.flatMap_append]
    have e1 : ((noPart cfg r).flatMap fun p => pointValues cfg r.period (r.noVals.getD []) p.1) = (r.noVals.getD []).map Prod.snd := by
      unfold noPart
      cases hv : r.noVals with
      | none => rfl
      | some vs => simp [pointValues]
    have e2 : (pts.flatMap fun p => pointValues cfg r.period (r.noVals.getD []) p.1)
        = (pts.map fun p => sortAndDedup cfg.srt p.1).flatMap fun k => valuesOf (sortAndDedup cfg.srt) cfg.limit [cfg.overflow] r.period k := by
      rw [List.flatMap_map]
      apply List.flatMap_congr
      intro p hp
      rw [pointValues, if_neg (hkey p hp)]
    rw [e1, e2]
    refine List.perm_append_comm.trans ?_
    refine (values_share _ h2.distinct _ fun e he => ?_).append (.refl _)
    obtain ⟨p, hp, hpe⟩ := h2.complete e he
    rw [← hpe]
    exact List.mem_map_of_mem (f := fun p : Attrs K V × A => sortAndDedup cfg.srt p.1) hp

theorem allValues_split (s : State K V A X) : (allValues s).Perm (s.appliedAttrs.map Prod.fst ++ s.appliedNo.map Prod.snd) := by
  have := ((List.filter_append_perm (fun e : Nat × X × Attrs K V => decide (e.2.2 ≠ [])) s.applied).map fun e => e.2.1).symm
  rw [List.map_append] at this
  refine this.trans (.of_eq ?_)
  rw [State.appliedAttrs, State.appliedNo, List.map_map, List.map_map]
  congr 1
  congr 1
  apply List.filter_congr
  intro e _
  simp

/-- Delta: the periods of the collections, and what is pending, are all that was recorded. -/
theorem delta_all {cfg : Cfg K V A X} (hd : cfg.delta = true) {s : State K V A X} (h : Reachable cfg s) :
    (s.done.flatMap periodValues ++ pendingValues s).Perm (allValues s) := by
  have e0 := allValues_split s
  have hflat : ∀ rs : List (Collection K V A X), (rs.flatMap periodValues).Perm ((rs.flatMap (·.period)).map Prod.fst ++ (rs.flatMap fun r => r.noVals.getD []).map Prod.snd) := by
    intro rs
    induction rs with
    | nil => exact .refl _
    | cons r rs ih =>
      rw [List.flatMap_cons, List.flatMap_cons, List.flatMap_cons, List.map_append, List.map_append, periodValues]
      refine ((List.Perm.refl _).append ih).trans ?_
      simp only [List.append_assoc]
      refine (List.Perm.refl _).append ?_
      rw [← List.append_assoc, ← List.append_assoc]
      exact List.perm_append_comm.append (.refl _)
  refine List.Perm.trans ?_ e0.symm
  rw [(logs_reachable h).attrs, (logs_reachable h).no hd, List.append_assoc, List.append_assoc, List.map_append (l₁ := s.done.flatMap _),
    List.map_append (l₁ := s.done.flatMap _), pendingValues]
  refine ((hflat s.done).append (.refl _)).trans ?_
  simp only [List.append_assoc]
  refine (List.Perm.refl _).append ?_
  rw [← List.append_assoc, ← List.append_assoc]
  exact List.perm_append_comm.append (.refl _)

/-- A cumulative collection, whatever the number of sets: there are values for its points, that share out everything that was there at the beginning and nothing but what was
there at the end. -/
theorem cumulative_limited {cfg : Cfg K V A X} (hd : cfg.delta = false) {s : State K V A X} (h : Reachable cfg s) : ∀ r ∈ s.done,
    PointsOf cfg.srt cfg.agg (limitedCumOk cfg r) (limitedCumMust cfg r) r.points ∧ r.points.length ≤ cfg.limit + 2 ∧
      ∃ vs : List (List X), List.Forall₂ (fun p xs => limitedCumOk cfg r p.1 xs ∧ p.2 = xs.foldl cfg.agg.update cfg.agg.create) r.points vs ∧
        (startValues r).Subperm vs.flatten ∧ vs.flatten.Subperm (endValues r) := by
  intro r hr
  obtain ⟨k1, k2, k3⟩ := cumulative_between hd h
  obtain ⟨n1, pts, h1, h2, h3, h4⟩ := k3 r hr
  obtain ⟨c1, c2, c3, c4⟩ := (chain_reachable hd h).done r hr
  have hne : ∀ e ∈ r.endHist, e.2 ≠ [] := fun e he => hist_nonempty h e (c2.subset he)
  have hkey : ∀ p ∈ pts, p.1 ≠ [] := by
    intro p hp hnil
    obtain ⟨_, h', g1, g2, g3, _⟩ := h3 p hp
    obtain ⟨e, he, hr⟩ := (valuesOf_ne_nil _ _).1 g3
    rw [hnil, canon_nil] at hr
    exact route_ne_nil (canon_sortAndDedup cfg.srt cfg.overflow) _ _ (hne e (g2.subset he)) hr
  have hval : ∀ p ∈ pts, ∃ h', r.startHist <+: h' ∧ h' <+: r.endHist ∧ pointValues cfg h' [] p.1 ≠ [] ∧ p.2 = (pointValues cfg h' [] p.1).foldl cfg.agg.update cfg.agg.create := by
    intro p hp
    obtain ⟨_, h', g1, g2, g3, g4⟩ := h3 p hp
    refine ⟨h', g1, g2, ?_, ?_⟩ <;> rw [pointValues, if_neg (hkey p hp)]
    · exact g3
    · exact g4
  have hnoval : ∀ p ∈ noPart cfg r, p.1 = [] ∧ limitedCumOk cfg r p.1 ((r.noVals.getD []).map Prod.snd) ∧ p.2 = ((r.noVals.getD []).map Prod.snd).foldl cfg.agg.update cfg.agg.create := by
    intro p hp
    have hnil := noPart_nil_key cfg r p hp
    unfold noPart at hp
    split at hp
    · cases hp
    · rename_i vs hvs
      rw [List.mem_singleton] at hp
      refine ⟨hnil, ⟨r.startHist, vs, List.prefix_refl _, c1, fun _ => hvs, ?_, fun hc => absurd hnil hc⟩, by rw [hp, hvs]; rfl⟩
      rw [pointValues, if_pos hnil, hvs]; rfl
  have hokval : ∀ p ∈ pts, ∀ h', r.startHist <+: h' → h' <+: r.endHist → pointValues cfg h' [] p.1 ≠ [] → limitedCumOk cfg r p.1 (pointValues cfg h' [] p.1) :=
    fun p hp h' g1 g2 g3 => ⟨h', [], g1, g2, fun hc => absurd hc (hkey p hp), rfl, fun _ => g3⟩
  refine ⟨?_, ?_, ?_⟩
  · rw [h1]
    refine ⟨distinct_append h2 hkey, fun p hp => ?_, fun a ha => ?_⟩
    · rcases List.mem_append.1 hp with hp | hp
      · exact ⟨_, (hnoval p hp).2⟩
      · obtain ⟨h', g1, g2, g3, g4⟩ := hval p hp
        exact ⟨_, hokval p hp h' g1 g2 g3, g4⟩
    · by_cases hnil : a = []
      · subst hnil
        rw [limitedCumMust, pointValues, if_pos rfl] at ha
        cases hv : r.noVals with
        | none => rw [hv] at ha; exact absurd rfl ha
        | some vs => exact ⟨_, List.mem_append_left _ (by rw [noPart, hv]; exact List.mem_singleton_self _), rfl⟩
      · rw [limitedCumMust, pointValues, if_neg hnil] at ha
        obtain ⟨e, he, hre⟩ := (valuesOf_ne_nil _ _).1 ha
        obtain ⟨p, hp, hpe⟩ := h4 e he
        exact ⟨p, List.mem_append_right _ hp, hpe.trans hre⟩
  · rw [h1, List.length_append]
    have k1 := noPart_length cfg r
    have k2 := keys_bounded (c := sortAndDedup cfg.srt) (limit := cfg.limit) (o := cfg.overflow) hne h2 fun p hp => by
      obtain ⟨h', g1, g2, g3, _⟩ := hval p hp
      rw [pointValues, if_neg (hkey p hp)] at g3
      intro hc
      have := valuesOf_prefix (c := sortAndDedup cfg.srt) (limit := cfg.limit) (ov := [cfg.overflow]) g2 (sortAndDedup cfg.srt p.1)
      rw [hc, List.prefix_nil] at this
      exact g3 this
    omega
  · choose! moment m1 m2 m3 m4 using hval
    refine ⟨(noPart cfg r).map (fun _ => (r.noVals.getD []).map Prod.snd) ++ pts.map fun p => pointValues cfg (moment p) [] p.1, ?_, ?_, ?_⟩
    · rw [h1]
      refine List.rel_append ?_ ?_
      · rw [List.forall₂_map_right_iff, List.forall₂_same]
        exact fun p hp => (hnoval p hp).2
      · rw [List.forall₂_map_right_iff, List.forall₂_same]
        exact fun p hp => ⟨hokval p hp _ (m1 p hp) (m2 p hp) (m3 p hp), m4 p hp⟩
    all_goals
      have e1 : ((noPart cfg r).map fun _ => (r.noVals.getD []).map Prod.snd).flatten = (r.noVals.getD []).map Prod.snd := by
        unfold noPart
        cases hv : r.noVals with
        | none => rfl
        | some vs => simp
      rw [List.flatten_append, e1, ← List.flatMap_def]
      have e2 : (pts.flatMap fun p => pointValues cfg (moment p) [] p.1)
          = pts.flatMap fun p => valuesOf (sortAndDedup cfg.srt) cfg.limit [cfg.overflow] (moment p) (sortAndDedup cfg.srt p.1) := by
        apply List.flatMap_congr
        intro p hp
        rw [pointValues, if_neg (hkey p hp)]
      rw [e2]
    · have k5 : (r.startHist.map Prod.fst).Subperm (pts.flatMap fun p => valuesOf (sortAndDedup cfg.srt) cfg.limit [cfg.overflow] (moment p) (sortAndDedup cfg.srt p.1)) := by
        have := values_share (c := sortAndDedup cfg.srt) (limit := cfg.limit) (ov := [cfg.overflow]) _ h2 r.startHist fun e he => by
          obtain ⟨p, hp, hpe⟩ := h4 e he
          rw [← hpe]
          exact List.mem_map_of_mem (f := fun p : Attrs K V × A => sortAndDedup cfg.srt p.1) hp
        refine this.symm.subperm.trans ?_
        rw [List.flatMap_map]
        exact (flatMap_sublist_pointwise fun p hp => (valuesOf_prefix (m1 p hp) _).sublist).subperm
      exact ((List.subperm_append_right _).2 k5).trans List.perm_append_comm.subperm
    · have k5 : (pts.flatMap fun p => valuesOf (sortAndDedup cfg.srt) cfg.limit [cfg.overflow] (moment p) (sortAndDedup cfg.srt p.1)).Subperm (r.endHist.map Prod.fst) := by
        have := values_within (c := sortAndDedup cfg.srt) (limit := cfg.limit) (ov := [cfg.overflow]) _ h2 r.endHist
        rw [List.flatMap_map] at this
        exact (flatMap_sublist_pointwise fun p hp => (valuesOf_prefix (m2 p hp) _).sublist).subperm.trans this
      exact List.perm_append_comm.subperm.trans ((List.subperm_append_right _).2 k5)

/-- Cumulative: what a point stands for grows from collection to collection, and is never more than was recorded. -/
theorem limited_within {cfg : Cfg K V A X} (hd : cfg.delta = false) {s : State K V A X} (h : Reachable cfg s) {r : Collection K V A X} (hr : r ∈ s.done)
    {a : Attrs K V} {xs : List X} (hok : limitedCumOk cfg r a xs) : pointValues cfg r.startHist r.startNo a <+: xs ∧ xs <+: pointValues cfg s.hist s.noHist a := by
  obtain ⟨c1, c2, c3, c4⟩ := (chain_reachable hd h).done r hr
  obtain ⟨h', no, g1, g2, g3, g4, _⟩ := hok
  rw [g4]
  unfold pointValues
  split
  · rename_i ha
    obtain ⟨k1, k2⟩ := c4 no (g3 ha)
    exact ⟨k1.map _, k2.map _⟩
  · exact ⟨valuesOf_prefix g1 _, valuesOf_prefix (g2.trans c2) _⟩

theorem limited_grows {cfg : Cfg K V A X} (hd : cfg.delta = false) {s : State K V A X} (h : Reachable cfg s) :
    s.done.Pairwise fun r q => ∀ a xs ys, limitedCumOk cfg r a xs → limitedCumOk cfg q a ys → xs <+: ys := by
  refine (chain_reachable hd h).order.imp_of_mem fun {r q} _ hq horder a xs ys hx hy => ?_
  refine List.IsPrefix.trans ?_ (limited_within hd h hq hy).1
  obtain ⟨h', no, _, g2, g3, g4, _⟩ := hx
  rw [g4]
  unfold pointValues
  split
  · rename_i ha; exact (horder.2 no (g3 ha)).map _
  · exact valuesOf_prefix (g2.trans horder.1) _

/-- Cumulative: what was there at the end of a collection was recorded. -/
theorem ends_within {cfg : Cfg K V A X} (hd : cfg.delta = false) {s : State K V A X} (h : Reachable cfg s) {r : Collection K V A X} (h1 : r.endHist <+: s.hist)
    (h2 : ∀ vs, r.noVals = some vs → vs <+: s.noHist) : (endValues r).Subperm (allValues s) := by
  refine List.Subperm.trans (List.Sublist.subperm ?_) (allValues_split s).symm.subperm
  rw [(logs_reachable h).attrsCum hd, (logs_reachable h).noCum hd, endValues]
  refine (h1.map _).sublist.append (List.Sublist.map _ ?_)
  cases hv : r.noVals with
  | none => exact List.nil_sublist _
  | some vs => exact (h2 vs hv).sublist

end Otel.Metrics.Conc
