import Verif.Metrics.ConcurrentProps
/-!
# What a collection reports for each attribute set (C99)

Consequences of C38 in the form that the collector's side needs: as long as there are not more attribute sets than the limit, the points of a collection by sets, for both
temporalities, and how the collections follow each other. No code is modelled here.
-/

set_option linter.unusedSectionVars false

namespace Otel.Metrics.Conc

variable {K V : Type} [LinearOrder K] [DecidableEq V] {A X : Type}

/-! ## Specification -/

/-- The values recorded for a set of attributes, given in any order; `h` are measurements with attributes, `no` those without. -/
def setValues (srt : Sorter K V) (h : Hist K V X) (no : List (Nat × X)) (a : Attrs K V) : List X :=
  if a = [] then no.map Prod.snd else (h.filter fun e => sortAndDedup srt e.2 = sortAndDedup srt a).map Prod.fst

/-- Points, one for each set: a point has the aggregation of values that `ok` allows for its set, and there is one for each set that `must` have one. -/
structure PointsOf (srt : Sorter K V) (agg : Aggregator A X) (ok : Attrs K V → List X → Prop) (must : Attrs K V → Prop) (pts : List (Attrs K V × A)) : Prop where
  distinct : (pts.map fun p => sortAndDedup srt p.1).Nodup
  values : ∀ p ∈ pts, ∃ xs, ok p.1 xs ∧ p.2 = xs.foldl agg.update agg.create
  complete : ∀ a, must a → ∃ p ∈ pts, sortAndDedup srt p.1 = sortAndDedup srt a

/-- Delta: exactly the values of the period; a point without attributes only if the flag was found set. -/
def deltaOk (srt : Sorter K V) (r : Collection K V A X) (a : Attrs K V) (xs : List X) : Prop :=
  xs = setValues srt r.period (r.noVals.getD []) a ∧ (a ≠ [] → xs ≠ []) ∧ (a = [] → r.noVals ≠ none)

/-- Delta: the sets measured in the period. -/
def deltaMust (srt : Sorter K V) (r : Collection K V A X) (a : Attrs K V) : Prop := setValues srt r.period (r.noVals.getD []) a ≠ []

/-- Cumulative: all values up to a moment of the collection. -/
def cumOk (srt : Sorter K V) (r : Collection K V A X) (a : Attrs K V) (xs : List X) : Prop :=
  ∃ h no, r.startHist <+: h ∧ h <+: r.endHist ∧ (a = [] → r.noVals = some no) ∧ xs = setValues srt h no a ∧ (a ≠ [] → xs ≠ [])

/-- Cumulative: the sets measured before the collection began; without attributes, if the flag was found set. -/
def cumMust (srt : Sorter K V) (r : Collection K V A X) (a : Attrs K V) : Prop := setValues srt r.startHist (r.noVals.getD []) a ≠ []

/-- Everything recorded so far for a set, in the order in which it came into the store. -/
def recordedOf (srt : Sorter K V) (s : State K V A X) (a : Attrs K V) : List X :=
  (s.applied.filter fun e => sortAndDedup srt e.2.2 = sortAndDedup srt a).map fun e => e.2.1

/-! ## Lemmas -/

theorem setsOf_length_le {c : Attrs K V → Attrs K V} {h : Hist K V X} {L : List (Attrs K V)} (hsets : ∀ e ∈ h, e.2 ≠ [] → c e.2 ∈ L) : (setsOf c h).length ≤ L.length := by
  refine (List.subperm_of_subset (setsOf_nodup _ _) fun k hk => ?_).length_le
  obtain ⟨e, he, hne, rfl⟩ := (mem_setsOf _ _ _).1 hk
  exact hsets e he hne

theorem valuesOf_within {srt : Sorter K V} {limit : Nat} {o : K × V} {h : Hist K V X} (hlim : (setsOf (sortAndDedup srt) h).length ≤ limit) (a : Attrs K V) :
    valuesOf (sortAndDedup srt) limit [o] h (sortAndDedup srt a) = (h.filter fun e => sortAndDedup srt e.2 = sortAndDedup srt a).map Prod.fst := by
  rw [valuesOf]
  congr 1
  apply List.filter_congr
  intro e he
  rw [route_within srt limit o h hlim e he]

theorem noPart_nil_key (cfg : Cfg K V A X) (r : Collection K V A X) : ∀ p ∈ noPart cfg r, p.1 = [] := by
  intro p hp
  unfold noPart at hp
  split at hp
  · cases hp
  · rw [List.mem_singleton] at hp; rw [hp]

theorem distinct_append {srt : Sorter K V} {cfg : Cfg K V A X} {r : Collection K V A X} {pts : List (Attrs K V × A)}
    (hd : (pts.map fun p => sortAndDedup srt p.1).Nodup) (hne : ∀ p ∈ pts, p.1 ≠ []) : ((noPart cfg r ++ pts).map fun p => sortAndDedup srt p.1).Nodup := by
  rw [List.map_append, List.nodup_append']
  refine ⟨?_, hd, ?_⟩
  · unfold noPart; split <;> simp
  · intro k hk1 hk2
    obtain ⟨p, hp, rfl⟩ := List.mem_map.1 hk1
    obtain ⟨q, hq, he⟩ := List.mem_map.1 hk2
    rw [noPart_nil_key cfg r p hp, canon_nil, canon_eq_nil] at he
    exact hne q hq he

/-- All entries of the store have attributes. -/
theorem hist_nonempty {cfg : Cfg K V A X} {s : State K V A X} (h : Reachable cfg s) : ∀ e ∈ s.hist, e.2 ≠ [] := (content_reachable h).nonempty

theorem delta_sets {cfg : Cfg K V A X} (hd : cfg.delta = true) {s : State K V A X} (h : Reachable cfg s) {L : List (Attrs K V)} (hL : L.length ≤ cfg.limit)
    (hsets : ∀ e ∈ s.applied, e.2.2 ≠ [] → sortAndDedup cfg.srt e.2.2 ∈ L) : ∀ r ∈ s.done, PointsOf cfg.srt cfg.agg (deltaOk cfg.srt r) (deltaMust cfg.srt r) r.points := by
  intro r hr
  obtain ⟨pts, h1, h2⟩ := (delta_reachable hd h).done r hr
  have hmem : ∀ e ∈ r.period, e.2 ≠ [] ∧ sortAndDedup cfg.srt e.2 ∈ L := by
    intro e he
    have : e ∈ s.appliedAttrs := by
      rw [(logs_reachable h).attrs]
      exact List.mem_append_left _ (List.mem_append_left _ (List.mem_flatMap.2 ⟨r, hr, he⟩))
    obtain ⟨x, hx, rfl⟩ := List.mem_map.1 this
    have hx' := List.mem_filter.1 hx
    have hne : x.2.2 ≠ [] := by simpa using hx'.2
    exact ⟨hne, hsets x hx'.1 hne⟩
  have hlim := Nat.le_trans (setsOf_length_le fun e he _ => (hmem e he).2) hL
  have hkey : ∀ p ∈ pts, p.1 ≠ [] := by
    intro p hp hnil
    obtain ⟨e, he, hr⟩ := (valuesOf_ne_nil _ _).1 (h2.values p hp).1
    rw [route_within cfg.srt cfg.limit cfg.overflow _ hlim e he, hnil, canon_nil, canon_eq_nil] at hr
    exact (hmem e he).1 hr
  rw [h1]
  refine ⟨distinct_append h2.distinct hkey, fun p hp => ?_, fun a ha => ?_⟩
  · rcases List.mem_append.1 hp with hp | hp
    · have hnil := noPart_nil_key cfg r p hp
      unfold noPart at hp
      split at hp
      · cases hp
      · rename_i vs hvs
        rw [List.mem_singleton] at hp
        refine ⟨_, ⟨rfl, fun hc => absurd hnil hc, fun _ => by rw [hvs]; simp⟩, ?_⟩
        rw [setValues, if_pos hnil, hp, hvs]; rfl
    · obtain ⟨g1, g2⟩ := h2.values p hp
      rw [valuesOf_within hlim] at g1 g2
      refine ⟨_, ⟨rfl, fun _ => ?_, fun hc => absurd hc (hkey p hp)⟩, ?_⟩
      · rw [setValues, if_neg (hkey p hp)]; exact g1
      · rw [setValues, if_neg (hkey p hp)]; exact g2
  · by_cases hnil : a = []
    · subst hnil
      rw [deltaMust, setValues, if_pos rfl] at ha
      cases hv : r.noVals with
      | none => rw [hv] at ha; exact absurd rfl ha
      | some vs => exact ⟨_, List.mem_append_left _ (by rw [noPart, hv]; exact List.mem_singleton_self _), rfl⟩
    · rw [deltaMust, setValues, if_neg hnil] at ha
      obtain ⟨x, hx⟩ := List.exists_mem_of_ne_nil _ ha
      obtain ⟨e, he, _⟩ := List.mem_map.1 hx
      have he' := List.mem_filter.1 he
      obtain ⟨p, hp, hpe⟩ := h2.complete e he'.1
      rw [route_within cfg.srt cfg.limit cfg.overflow _ hlim e he'.1] at hpe
      exact ⟨p, List.mem_append_right _ hp, hpe.trans (by simpa using he'.2)⟩

/-! ## The collections of a cumulative reader follow each other -/

theorem setValues_append (srt : Sorter K V) (h h' : Hist K V X) (no no' : List (Nat × X)) (a : Attrs K V) :
    setValues srt (h ++ h') (no ++ no') a = setValues srt h no a ++ setValues srt h' no' a := by
  unfold setValues; split <;> simp

theorem setValues_prefix (srt : Sorter K V) {h h' : Hist K V X} {no no' : List (Nat × X)} (hh : h <+: h') (hn : no <+: no') (a : Attrs K V) :
    setValues srt h no a <+: setValues srt h' no' a := by
  obtain ⟨x, rfl⟩ := hh
  obtain ⟨y, rfl⟩ := hn
  rw [setValues_append]
  exact List.prefix_append _ _

theorem setValues_flatMap (srt : Sorter K V) (rs : List (Collection K V A X)) (a : Attrs K V) :
    setValues srt (rs.flatMap (·.period)) (rs.flatMap fun r => r.noVals.getD []) a = rs.flatMap fun r => setValues srt r.period (r.noVals.getD []) a := by
  induction rs with
  | nil => unfold setValues; split <;> rfl
  | cons r rs ih => rw [List.flatMap_cons, List.flatMap_cons, setValues_append, ih, List.flatMap_cons]

theorem recordedOf_eq (srt : Sorter K V) (s : State K V A X) (a : Attrs K V) : recordedOf srt s a = setValues srt s.appliedAttrs s.appliedNo a := by
  unfold setValues recordedOf
  split
  · rename_i ha
    subst ha
    rw [State.appliedNo, List.map_map]
    congr 1
    apply List.filter_congr
    intro e _
    simp only [canon_nil, canon_eq_nil]
  · rename_i ha
    rw [State.appliedAttrs, List.filter_map, List.map_map, List.filter_filter]
    congr 1
    apply List.filter_congr
    intro e _
    simp only [Function.comp]
    by_cases he : sortAndDedup srt e.2.2 = sortAndDedup srt a
    · have : e.2.2 ≠ [] := fun hn => ha (by rw [hn, canon_nil] at he; exact (canon_eq_nil srt a).1 he.symm)
      simp [he, this]
    · simp [he]

/-- Delta: what the collections report for a set, one after the other, and what is still in the store (or taken by the running collection), is what was recorded. -/
theorem delta_partition {cfg : Cfg K V A X} (hd : cfg.delta = true) {s : State K V A X} (h : Reachable cfg s) (a : Attrs K V) :
    recordedOf cfg.srt s a = (s.done.flatMap fun r => setValues cfg.srt r.period (r.noVals.getD []) a) ++
      setValues cfg.srt (s.cur.period ++ s.hist) (s.cur.noVals.getD [] ++ s.noHist) a := by
  rw [recordedOf_eq, (logs_reachable h).attrs, (logs_reachable h).no hd, List.append_assoc, List.append_assoc, setValues_append, setValues_flatMap]

/-- Cumulative: what is known about the collections made, and the one that is running. -/
structure Chain (s : State K V A X) : Prop where
  order : s.done.Pairwise fun r q => r.endHist <+: q.startHist ∧ ∀ vs, r.noVals = some vs → vs <+: q.startNo
  done : ∀ r ∈ s.done, r.startHist <+: r.endHist ∧ r.endHist <+: s.hist ∧ r.startNo <+: s.noHist ∧ ∀ vs, r.noVals = some vs → r.startNo <+: vs ∧ vs <+: s.noHist
  cur : s.coll ≠ .idle → (∀ r ∈ s.done, r.endHist <+: s.cur.startHist ∧ ∀ vs, r.noVals = some vs → vs <+: s.cur.startNo) ∧ s.cur.startHist <+: s.hist ∧ s.cur.startNo <+: s.noHist
    ∧ ∀ vs, s.cur.noVals = some vs → s.cur.startNo <+: vs ∧ vs <+: s.noHist

theorem chain_reachable {cfg : Cfg K V A X} (hd : cfg.delta = false) {s : State K V A X} (h : Reachable cfg s) : Chain s := by
  induction h with
  | init => exact ⟨List.Pairwise.nil, fun r hr => (by cases hr), fun hc => absurd rfl hc⟩
  | @step s s' hr a hs ih =>
    have hgrow : ∀ {n : List (Nat × X)} {x : Nat × X}, n <+: s.noHist → n <+: s.noHist ++ [x] := fun h => h.trans (List.prefix_append _ _)
    have hgrow' : ∀ {n : Hist K V X} {x : X × Attrs K V}, n <+: s.hist → n <+: s.hist ++ [x] := fun h => h.trans (List.prefix_append _ _)
    cases a with
    | call t x a =>
      simp only [step] at hs
      split at hs
      · injection hs with hs; subst hs; exact ⟨ih.order, ih.done, ih.cur⟩
      · cases hs
    | thread t =>
      simp only [step, threadStep] at hs
      split at hs
      · cases hs
      · injection hs with hs; subst hs
        refine ⟨ih.order, fun r hr => ?_, fun hc => ?_⟩
        · obtain ⟨g1, g2, g3, g4⟩ := ih.done r hr
          exact ⟨g1, g2, hgrow g3, fun vs hv => ⟨(g4 vs hv).1, hgrow (g4 vs hv).2⟩⟩
        · obtain ⟨g1, g2, g3, g4⟩ := ih.cur hc
          exact ⟨g1, g2, hgrow g3, fun vs hv => ⟨(g4 vs hv).1, hgrow (g4 vs hv).2⟩⟩
      · injection hs with hs; subst hs; exact ⟨ih.order, ih.done, ih.cur⟩
      · split at hs <;> (injection hs with hs; subst hs; exact ⟨ih.order, ih.done, ih.cur⟩)
      · injection hs with hs; subst hs
        refine ⟨ih.order, fun r hr => ?_, fun hc => ?_⟩
        · obtain ⟨g1, g2, g3, g4⟩ := ih.done r hr
          exact ⟨g1, hgrow' g2, g3, g4⟩
        · obtain ⟨g1, g2, g3, g4⟩ := ih.cur hc
          exact ⟨g1, hgrow' g2, g3, g4⟩
      · split at hs
        · injection hs with hs; subst hs
          refine ⟨ih.order, fun r hr => ?_, fun hc => ?_⟩
          · obtain ⟨g1, g2, g3, g4⟩ := ih.done r hr
            exact ⟨g1, hgrow' g2, g3, g4⟩
          · obtain ⟨g1, g2, g3, g4⟩ := ih.cur hc
            exact ⟨g1, hgrow' g2, g3, g4⟩
        · cases hs
    | collect =>
      simp only [step] at hs
      split at hs
      · injection hs with hs; subst hs
        exact ⟨ih.order, ih.done, fun _ => ⟨fun r hr => ⟨(ih.done r hr).2.1, fun vs hv => ((ih.done r hr).2.2.2 vs hv).2⟩, List.prefix_refl _, List.prefix_refl _, fun vs hv => by cases hv⟩⟩
      · cases hs
    | collector it =>
      simp only [step, collectorStep, hd] at hs
      split at hs
      · cases hs
      · rename_i hcoll
        have := ih.cur (by rw [hcoll]; simp)
        split at hs <;> (injection hs with hs; subst hs; exact ⟨ih.order, ih.done, fun _ => this⟩)
      · rename_i hcoll
        obtain ⟨g1, g2, g3, g4⟩ := ih.cur (by rw [hcoll]; simp)
        injection hs with hs; subst hs
        refine ⟨ih.order, ih.done, fun _ => ⟨g1, g2, g3, fun vs hv => ?_⟩⟩
        injection hv with hv; subst hv; exact ⟨g3, List.prefix_refl _⟩
      · rename_i hcoll
        have := ih.cur (by rw [hcoll]; simp)
        split at hs
        · injection hs with hs; subst hs; exact ⟨ih.order, ih.done, fun _ => this⟩
        · cases hs
      · rename_i hcoll
        obtain ⟨g1, g2, g3, g4⟩ := ih.cur (by rw [hcoll]; simp)
        injection hs with hs; subst hs
        refine ⟨?_, fun r hr => ?_, fun hc => absurd rfl hc⟩
        · rw [List.pairwise_append]
          exact ⟨ih.order, List.pairwise_singleton _ _, fun r hr q hq => by rw [List.mem_singleton.1 hq]; exact g1 r hr⟩
        · rcases List.mem_append.1 hr with hr | hr
          · exact ih.done r hr
          · rw [List.mem_singleton.1 hr]
            exact ⟨g2, List.prefix_refl _, g3, g4⟩
      · rename_i hcoll
        have := ih.cur (by rw [hcoll]; simp)
        split at hs <;> (injection hs with hs; subst hs; exact ⟨ih.order, ih.done, fun _ => this⟩)

theorem cumulative_sets {cfg : Cfg K V A X} (hd : cfg.delta = false) {s : State K V A X} (h : Reachable cfg s) {L : List (Attrs K V)} (hL : L.length ≤ cfg.limit)
    (hsets : ∀ e ∈ s.applied, e.2.2 ≠ [] → sortAndDedup cfg.srt e.2.2 ∈ L) : ∀ r ∈ s.done, PointsOf cfg.srt cfg.agg (cumOk cfg.srt r) (cumMust cfg.srt r) r.points := by
  intro r hr
  obtain ⟨k1, k2, k3⟩ := cumulative_between hd h
  obtain ⟨n1, pts, h1, h2, h3, h4⟩ := k3 r hr
  obtain ⟨c1, c2, c3, c4⟩ := (chain_reachable hd h).done r hr
  have hmem : ∀ e ∈ s.hist, e.2 ≠ [] ∧ sortAndDedup cfg.srt e.2 ∈ L := by
    intro e he
    rw [← k1] at he
    obtain ⟨x, hx, rfl⟩ := List.mem_map.1 he
    have hx' := List.mem_filter.1 hx
    have hne : x.2.2 ≠ [] := by simpa using hx'.2
    exact ⟨hne, hsets x hx'.1 hne⟩
  have hlim : ∀ h' : Hist K V X, h' <+: s.hist → (setsOf (sortAndDedup cfg.srt) h').length ≤ cfg.limit := fun h' hp =>
    Nat.le_trans (setsOf_length_le fun e he _ => (hmem e (hp.subset he)).2) hL
  have hkey : ∀ p ∈ pts, p.1 ≠ [] := by
    intro p hp hnil
    obtain ⟨_, h', g1, g2, g3, _⟩ := h3 p hp
    obtain ⟨e, he, hr⟩ := (valuesOf_ne_nil _ _).1 g3
    rw [route_within cfg.srt cfg.limit cfg.overflow _ (hlim h' (g2.trans c2)) e he, hnil, canon_nil, canon_eq_nil] at hr
    exact (hmem e ((g2.trans c2).subset he)).1 hr
  rw [h1]
  refine ⟨distinct_append h2 hkey, fun p hp => ?_, fun a ha => ?_⟩
  · rcases List.mem_append.1 hp with hp | hp
    · have hnil := noPart_nil_key cfg r p hp
      unfold noPart at hp
      split at hp
      · cases hp
      · rename_i vs hvs
        rw [List.mem_singleton] at hp
        refine ⟨vs.map Prod.snd, ⟨r.startHist, vs, List.prefix_refl _, c1, fun _ => hvs, ?_, fun hc => absurd hnil hc⟩, by rw [hp]⟩
        rw [setValues, if_pos hnil]
    · obtain ⟨_, h', g1, g2, g3, g4⟩ := h3 p hp
      rw [valuesOf_within (hlim h' (g2.trans c2))] at g3 g4
      refine ⟨_, ⟨h', r.startNo, g1, g2, fun hc => absurd hc (hkey p hp), rfl, fun _ => ?_⟩, ?_⟩
      · rw [setValues, if_neg (hkey p hp)]; exact g3
      · rw [setValues, if_neg (hkey p hp)]; exact g4
  · by_cases hnil : a = []
    · subst hnil
      rw [cumMust, setValues, if_pos rfl] at ha
      cases hv : r.noVals with
      | none => rw [hv] at ha; exact absurd rfl ha
      | some vs => exact ⟨_, List.mem_append_left _ (by rw [noPart, hv]; exact List.mem_singleton_self _), rfl⟩
    · rw [cumMust, setValues, if_neg hnil] at ha
      obtain ⟨x, hx⟩ := List.exists_mem_of_ne_nil _ ha
      obtain ⟨e, he, _⟩ := List.mem_map.1 hx
      have he' := List.mem_filter.1 he
      obtain ⟨p, hp, hpe⟩ := h4 e he'.1
      rw [route_within cfg.srt cfg.limit cfg.overflow _ (hlim _ (c1.trans c2)) e he'.1] at hpe
      exact ⟨p, List.mem_append_right _ hp, hpe.trans (by simpa using he'.2)⟩

/-- Cumulative: a point tells everything recorded for its set before the collection began, and nothing that was not recorded. -/
theorem cumulative_within {cfg : Cfg K V A X} (hd : cfg.delta = false) {s : State K V A X} (h : Reachable cfg s) {r : Collection K V A X} (hr : r ∈ s.done)
    {a : Attrs K V} {xs : List X} (hok : cumOk cfg.srt r a xs) : setValues cfg.srt r.startHist r.startNo a <+: xs ∧ xs <+: recordedOf cfg.srt s a := by
  obtain ⟨c1, c2, c3, c4⟩ := (chain_reachable hd h).done r hr
  obtain ⟨h', no, g1, g2, g3, g4, _⟩ := hok
  rw [recordedOf_eq, (logs_reachable h).attrsCum hd, (logs_reachable h).noCum hd, g4]
  by_cases ha : a = []
  · obtain ⟨k1, k2⟩ := c4 no (g3 ha)
    exact ⟨setValues_prefix _ g1 k1 _, setValues_prefix _ (g2.trans c2) k2 _⟩
  · have e : ∀ n : List (Nat × X), setValues cfg.srt h' no a = setValues cfg.srt h' n a := fun n => by rw [setValues, setValues, if_neg ha, if_neg ha]
    rw [e r.startNo]
    exact ⟨setValues_prefix _ g1 (List.prefix_refl _) _, setValues_prefix _ (g2.trans c2) c3 _⟩

/-- Cumulative: a later collection tells everything that an earlier one told, and what was recorded since. -/
theorem cumulative_grows {cfg : Cfg K V A X} (hd : cfg.delta = false) {s : State K V A X} (h : Reachable cfg s) :
    s.done.Pairwise fun r q => ∀ a xs ys, cumOk cfg.srt r a xs → cumOk cfg.srt q a ys → xs <+: ys := by
  refine (chain_reachable hd h).order.imp_of_mem fun {r q} _ hq horder a xs ys hx hy => ?_
  refine List.IsPrefix.trans ?_ (cumulative_within hd h hq hy).1
  obtain ⟨h', no, _, g2, g3, g4, _⟩ := hx
  rw [g4]
  by_cases ha : a = []
  · exact setValues_prefix _ (g2.trans horder.1) (horder.2 no (g3 ha)) _
  · have e : setValues cfg.srt h' no a = setValues cfg.srt h' q.startNo a := by rw [setValues, setValues, if_neg ha, if_neg ha]
    rw [e]
    exact setValues_prefix _ (g2.trans horder.1) (List.prefix_refl _) _

/-- A cumulative collection that begins after a measurement without attributes returned has the point without attributes. -/
theorem cumulative_no_attributes {cfg : Cfg K V A X} (hd : cfg.delta = false) {s0 : State K V A X} (h0 : Reachable cfg s0) (hidle : s0.coll = .idle)
    {e : Nat × X × Attrs K V} (he : e ∈ s0.returned) (hnil : e.2.2 = []) {as : List (Action K V X)} {s : State K V A X} (hrun : runAll cfg s0 as = some s) :
    ∃ rs, s.done = s0.done ++ rs ∧ ∀ r ∈ rs, r.noVals ≠ none := by
  have hflag : s0.flag = true := by
    clear hidle hrun
    induction h0 with
    | init => cases he
    | step _ a hs ih =>
      cases a <;> step_cases hs
      all_goals first
        | (cases hs; done)
        | (injection hs with hs; subst hs
           first
             | exact ih he
             | rfl
             | (simp [hd]; done)
             | (rcases List.mem_append.1 he with he | he
                · exact ih he
                · exfalso
                  rw [List.mem_singleton] at he
                  subst he
                  first
                    | exact (locks_reachable ‹_›).write _ _ _ ‹_› hnil
                    | exact ((locks_reachable ‹_›).found _ _ _ _ ‹_›).2.1 hnil))
  suffices key : ∀ (as : List (Action K V X)) (s1 s : State K V A X), s1.flag = true → (s1.coll = .idle ∨ s1.coll = .flag ∨ s1.coll = .takeNo ∨ s1.cur.noVals ≠ none) →
      runAll cfg s1 as = some s → ∃ rs, s.done = s1.done ++ rs ∧ ∀ r ∈ rs, r.noVals ≠ none from key as s0 s hflag (.inl hidle) hrun
  clear hrun hflag hidle he
  intro as
  induction as with
  | nil => intro s1 s _ _ hr; injection hr with hr; subst hr; exact ⟨[], by simp, fun r hr => by cases hr⟩
  | cons a as ih =>
    intro s1 s hf hc hr
    simp only [runAll] at hr
    split at hr
    · rename_i s2 hs
      have hstep : s2.flag = true ∧ (s2.coll = .idle ∨ s2.coll = .flag ∨ s2.coll = .takeNo ∨ s2.cur.noVals ≠ none) ∧
          (s2.done = s1.done ∨ ∃ r, s2.done = s1.done ++ [r] ∧ r.noVals ≠ none) := by
        clear hr ih
        cases a <;> step_cases hs
        all_goals first
          | (cases hs; done)
          | (injection hs with hs; subst hs; simp_all; done)
      obtain ⟨g1, g2, g3⟩ := hstep
      obtain ⟨rs, k1, k2⟩ := ih s2 s g1 g2 hr
      rcases g3 with g3 | ⟨r, g3, g4⟩
      · exact ⟨rs, by rw [k1, g3], k2⟩
      · refine ⟨r :: rs, by rw [k1, g3]; simp, fun q hq => ?_⟩
        rcases List.mem_cons.1 hq with rfl | hq
        · exact g4
        · exact k2 q hq
    · cases hr

end Otel.Metrics.Conc
