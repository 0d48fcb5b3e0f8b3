import Verif.Metrics.ConcurrentInv
/-! # The collector's loop in the concurrent store -/

set_option linter.unusedSectionVars false

namespace Otel.Metrics.Conc

variable {K V : Type} [LinearOrder K] [DecidableEq V] {A X : Type}

theorem mem_insertTracker {l : List (Attrs K V × Nat)} {a : Attrs K V} {p : Nat} {e : Attrs K V × Nat} (h : e ∈ insertTracker l a p) :
    e ∈ l ∨ e = (a, p) := by
  unfold insertTracker at h
  split at h
  · obtain ⟨f, hf, rfl⟩ := List.mem_map.1 h
    split
    · exact Or.inr rfl
    · exact Or.inl hf
  · rcases List.mem_append.1 h with h | h
    · exact Or.inl h
    · exact Or.inr (by simpa using h)

theorem get_mem {m : ValueMap K V A} {a : Attrs K V} {p : Nat} (h : m.get a = some p) : (a, p) ∈ m.trackers := by
  simp only [ValueMap.get, Option.map_eq_some_iff] at h
  obtain ⟨e, he, rfl⟩ := h
  have h1 := List.mem_of_find?_eq_some he
  have h2 : e.1 = a := by simpa using List.find?_some he
  rw [← h2]; exact h1

theorem lookup_mem {srt : Sorter K V} {m : ValueMap K V A} {a : Attrs K V} {p : Nat} (h : lookupTracker srt m a = some p) :
    ∃ b, (b, p) ∈ m.trackers := by
  unfold lookupTracker at h
  split at h
  · rename_i hg; injection h with h; subst h; exact ⟨_, get_mem hg⟩
  · exact ⟨_, get_mem h⟩

/-- All trackers of the map are at or above `n`. -/
def Above (n : Nat) (m : ValueMap K V A) : Prop := (∀ e ∈ m.trackers, n ≤ e.2) ∧ n ≤ m.next

theorem above_updateAt {n : Nat} {m : ValueMap K V A} (agg : Aggregator A X) {b : Attrs K V} {p : Nat} (h : Above n m)
    (hp : (b, p) ∈ m.trackers) (x : X) : Above n (m.updateAt agg p x) ∧ ∀ q < n, (m.updateAt agg p x).heap q = m.heap q := by
  refine ⟨h, fun q hq => ?_⟩
  have := h.1 _ hp
  simp only [ValueMap.updateAt]
  rw [if_neg]; omega

theorem above_measureWrite {n : Nat} {m : ValueMap K V A} (srt : Sorter K V) (agg : Aggregator A X) (limit : Nat) (ov : Attrs K V)
    (h : Above n m) (x : X) (a : Attrs K V) :
    Above n (m.measureWrite srt agg limit ov x a) ∧ ∀ q < n, (m.measureWrite srt agg limit ov x a).heap q = m.heap q := by
  have hal : ∀ q < n, (m.alloc agg x).heap q = m.heap q := by
    intro q hq
    have := h.2
    simp only [ValueMap.alloc]
    rw [if_neg]; omega
  unfold ValueMap.measureWrite
  split
  · rename_i hg; exact above_updateAt agg h (get_mem hg) x
  · split
    · rename_i hg; exact above_updateAt agg h (get_mem hg) x
    · split
      · refine ⟨⟨?_, ?_⟩, hal⟩
        · intro e he
          rcases mem_insertTracker he with he | rfl
          · rcases mem_insertTracker he with he | rfl
            · exact h.1 e he
            · exact h.2
          · exact h.2
        · exact Nat.le_trans h.2 (Nat.le_succ _)
      · split
        · rename_i hg; exact above_updateAt agg h (get_mem hg) x
        · refine ⟨⟨?_, ?_⟩, hal⟩
          · intro e he
            rcases mem_insertTracker he with he | rfl
            · exact h.1 e he
            · exact h.2
          · exact Nat.le_trans h.2 (Nat.le_succ _)

/-- The points still to be pushed by the loop. -/
def walkPoints (m : ValueMap K V A) (seen : List Nat) (rest : List (Attrs K V × Nat)) : List (Attrs K V × A) :=
  (firstOfEach seen rest).map fun e => (e.1, m.heap e.2)

theorem walkPoints_congr {m m' : ValueMap K V A} {seen : List Nat} {rest : List (Attrs K V × Nat)}
    (h : ∀ e ∈ rest, m'.heap e.2 = m.heap e.2) : walkPoints m' seen rest = walkPoints m seen rest := by
  unfold walkPoints
  apply List.map_congr_left
  intro e he
  rw [h e ((firstOfEach_spec seen rest).1.subset he)]

/-- A correct delta collection. -/
def DeltaOk (cfg : Cfg K V A X) (r : Collection K V A X) : Prop :=
  ∃ pts, r.points = noPart cfg r ++ pts ∧ Report (sortAndDedup cfg.srt) cfg.agg cfg.limit [cfg.overflow] r.period pts

/-- The loop of a delta collection. -/
structure DeltaInv (cfg : Cfg K V A X) (s : State K V A X) : Prop where
  walk : ∀ rest seen, s.coll = .walk rest seen → ∃ pts n, s.dest ++ walkPoints s.map seen rest = noPart cfg s.cur ++ pts
    ∧ Report (sortAndDedup cfg.srt) cfg.agg cfg.limit [cfg.overflow] s.cur.period pts ∧ (∀ e ∈ rest, e.2 < n) ∧ Above n s.map
  done : ∀ r ∈ s.done, DeltaOk cfg r

theorem delta_step {cfg : Cfg K V A X} (hd : cfg.delta = true) {s s' : State K V A X} (hr : Reachable cfg s) (hi : DeltaInv cfg s)
    (a : Action K V X) (hs : step cfg s a = some s') : DeltaInv cfg s' := by
  have hl := locks_reachable hr
  have hc := content_reachable hr
  have hg := logs_reachable hr
  obtain ⟨h1, h2⟩ := hi
  cases a with
  | call t x a =>
    simp only [step] at hs
    split at hs
    · injection hs with hs; subst hs; exact ⟨h1, h2⟩
    · cases hs
  | thread t =>
    simp only [step, threadStep] at hs
    split at hs
    · cases hs
    · injection hs with hs; subst hs; exact ⟨h1, h2⟩
    · injection hs with hs; subst hs; exact ⟨h1, h2⟩
    · split at hs <;> (injection hs with hs; subst hs; exact ⟨h1, h2⟩)
    · rename_i x a p hpc
      obtain ⟨b, hb⟩ := lookup_mem (hl.found _ _ _ _ hpc).2.2
      injection hs with hs; subst hs
      refine ⟨fun rest seen hw => ?_, h2⟩
      obtain ⟨pts, n, g1, g2, g3, g4⟩ := h1 rest seen hw
      obtain ⟨k1, k2⟩ := above_updateAt cfg.agg g4 hb x
      refine ⟨pts, n, ?_, g2, g3, k1⟩
      rw [← g1]
      exact congrArg (s.dest ++ ·) (walkPoints_congr fun e he => k2 _ (g3 e he))
    · rename_i x a hpc
      split at hs
      · injection hs with hs; subst hs
        refine ⟨fun rest seen hw => ?_, h2⟩
        obtain ⟨pts, n, g1, g2, g3, g4⟩ := h1 rest seen hw
        obtain ⟨k1, k2⟩ := above_measureWrite cfg.srt cfg.agg cfg.limit [cfg.overflow] g4 x a
        refine ⟨pts, n, ?_, g2, g3, k1⟩
        rw [← g1]
        exact congrArg (s.dest ++ ·) (walkPoints_congr fun e he => k2 _ (g3 e he))
      · cases hs
  | collect =>
    simp only [step] at hs
    split at hs
    · injection hs with hs; subst hs; exact ⟨fun _ _ h => (by cases h), h2⟩
    · cases hs
  | collector it =>
    simp only [step, collectorStep] at hs
    split at hs
    · cases hs
    · split at hs <;> (injection hs with hs; subst hs; exact ⟨fun _ _ h => (by cases h), h2⟩)
    · injection hs with hs; subst hs; exact ⟨fun _ _ h => (by cases h), h2⟩
    · rename_i hcoll
      split at hs
      · rename_i hperm
        · split at hs
          · injection hs with hs; subst hs
            refine ⟨fun rest seen hw => ?_, h2⟩
            injection hw with e1 e2; subst e1 e2
            obtain ⟨g1, g2⟩ := hg.lock hcoll
            have hp := List.isPerm_iff.1 hperm
            have hrep := report_of_minv (canon_sortAndDedup cfg.srt cfg.overflow) hc.minv it hp
            have hno : s.map.noAttrPoint = [] := by
              unfold ValueMap.noAttrPoint
              rw [if_neg]
              intro hb
              exact hc.minv.hasNoAttr.1 hb (valuesOf_nil_of_ne (canon_sortAndDedup cfg.srt cfg.overflow) s.hist hc.nonempty)
            rw [ValueMap.collectReadonly, hno, List.nil_append] at hrep
            refine ⟨_, s.map.next, ?_, hrep, ?_, ?_, Nat.le_refl _⟩
            · show s.dest ++ _ = noPart cfg s.cur ++ _
              rw [g1]; rfl
            · intro e he; exact hc.minv.fresh e (hp.subset he)
            · intro e he; cases he
          · cases hs
      · cases hs
    · rename_i seen hcoll
      injection hs with hs; subst hs
      refine ⟨fun _ _ h => (by cases h), ?_⟩
      intro r hr'
      rcases List.mem_append.1 hr' with hr' | hr'
      · exact h2 r hr'
      · simp only [List.mem_singleton] at hr'
        subst hr'
        obtain ⟨pts, n, g1, g2, _, _⟩ := h1 [] seen hcoll
        simp only [walkPoints, firstOfEach, List.map_nil, List.append_nil] at g1
        exact ⟨pts, g1, g2⟩
    · rename_i e rest seen hcoll
      obtain ⟨pts, n, g1, g2, g3, g4⟩ := h1 _ _ hcoll
      have g3' : ∀ f ∈ rest, f.2 < n := fun f hf => g3 f (List.mem_cons_of_mem _ hf)
      split at hs
      · rename_i hin
        injection hs with hs; subst hs
        refine ⟨fun rest' seen' hw => ?_, h2⟩
        injection hw with e1 e2; subst e1 e2
        refine ⟨pts, n, ?_, g2, g3', g4⟩
        rw [← g1]; simp [walkPoints, firstOfEach, hin]
      · rename_i hin
        injection hs with hs; subst hs
        refine ⟨fun rest' seen' hw => ?_, h2⟩
        injection hw with e1 e2; subst e1 e2
        refine ⟨pts, n, ?_, g2, g3', g4⟩
        rw [← g1]; simp [walkPoints, firstOfEach, hin]

theorem delta_reachable {cfg : Cfg K V A X} (hd : cfg.delta = true) {s : State K V A X} (h : Reachable cfg s) : DeltaInv cfg s := by
  induction h with
  | init => exact ⟨fun _ _ h => (by cases h), by simp [State.init]⟩
  | step hr a hs ih => exact delta_step hd hr ih a hs

/-! ## Cumulative -/

/-- `p` reports the set of `e` with its value at a moment between `start` and `now`. -/
def ReadBetween (cfg : Cfg K V A X) (start now : Hist K V X) (a : Attrs K V) (p : Attrs K V × A) : Prop :=
  p.1 = a ∧ ∃ h, start <+: h ∧ h <+: now ∧ valuesOf (sortAndDedup cfg.srt) cfg.limit [cfg.overflow] h (sortAndDedup cfg.srt a) ≠ []
    ∧ p.2 = (valuesOf (sortAndDedup cfg.srt) cfg.limit [cfg.overflow] h (sortAndDedup cfg.srt a)).foldl cfg.agg.update cfg.agg.create

/-- A correct cumulative collection: distinct sets, each with its value at some moment of the collection; every set measured before
the collection began is there. -/
def CumulativeOk (cfg : Cfg K V A X) (r : Collection K V A X) : Prop :=
  (∀ vs, r.noVals = some vs → r.startNo <+: vs)
  ∧ ∃ pts, r.points = noPart cfg r ++ pts
    ∧ (pts.map fun p => sortAndDedup cfg.srt p.1).Nodup
    ∧ (∀ p ∈ pts, ReadBetween cfg r.startHist r.endHist p.1 p)
    ∧ ∀ e ∈ r.startHist, ∃ p ∈ pts, sortAndDedup cfg.srt p.1 = route (sortAndDedup cfg.srt) cfg.limit [cfg.overflow] r.startHist e.2

/-- The loop of a cumulative collection. -/
structure CumInv (cfg : Cfg K V A X) (s : State K V A X) : Prop where
  start : s.coll ≠ .idle → s.cur.startHist <+: s.hist ∧ s.cur.startNo <+: s.noHist ∧ ∀ vs, s.cur.noVals = some vs → s.cur.startNo <+: vs
  walk : ∀ rest seen, s.coll = .walk rest seen → ∃ it visited pts, it.Perm s.map.trackers
    ∧ visited ++ firstOfEach seen rest = firstOfEach [] it ∧ s.dest = noPart cfg s.cur ++ pts
    ∧ List.Forall₂ (fun e p => ReadBetween cfg s.cur.startHist s.hist e.1 p) visited pts
  done : ∀ r ∈ s.done, CumulativeOk cfg r

theorem readBetween_mono {cfg : Cfg K V A X} {start now now' : Hist K V X} (h : now <+: now') {a : Attrs K V} {p : Attrs K V × A}
    (hp : ReadBetween cfg start now a p) : ReadBetween cfg start now' a p := by
  obtain ⟨h1, hh, h2, h3, h4⟩ := hp
  exact ⟨h1, hh, h2, h3.trans h, h4⟩

theorem route_prefix {c : Attrs K V → Attrs K V} {limit : Nat} {ov : Attrs K V} {h h' : Hist K V X} (hp : h <+: h')
    (e : X × Attrs K V) (he : e ∈ h) : route c limit ov h' e.2 = route c limit ov h e.2 := by
  obtain ⟨t, rfl⟩ := hp
  induction t using List.reverseRecOn with
  | nil => simp
  | append_singleton t f ih =>
    obtain ⟨x, a⟩ := f
    rw [← List.append_assoc, route_old _ x a e (List.mem_append_left _ he), ih]

theorem cum_step {cfg : Cfg K V A X} (hd : cfg.delta = false) {s s' : State K V A X} (hr : Reachable cfg s) (hi : CumInv cfg s)
    (a : Action K V X) (hs : step cfg s a = some s') : CumInv cfg s' := by
  have hl := locks_reachable hr
  have hc := content_reachable hr
  have hg := logs_reachable hr
  obtain ⟨h0, h1, h2⟩ := hi
  cases a with
  | call t x a =>
    simp only [step] at hs
    split at hs
    · injection hs with hs; subst hs; exact ⟨h0, h1, h2⟩
    · cases hs
  | thread t =>
    simp only [step, threadStep] at hs
    split at hs
    · cases hs
    · injection hs with hs; subst hs
      refine ⟨fun h => ?_, h1, h2⟩
      obtain ⟨g1, g2, g3⟩ := h0 h
      exact ⟨g1, g2.trans (List.prefix_append _ _), g3⟩
    · injection hs with hs; subst hs; exact ⟨h0, h1, h2⟩
    · split at hs <;> (injection hs with hs; subst hs; exact ⟨h0, h1, h2⟩)
    · rename_i x a p hpc
      injection hs with hs; subst hs
      refine ⟨fun h => ?_, fun rest seen hw => ?_, h2⟩
      · obtain ⟨g1, g2, g3⟩ := h0 h
        exact ⟨g1.trans (List.prefix_append _ _), g2, g3⟩
      · obtain ⟨it, vis, pts, g1, g2, g3, g4⟩ := h1 rest seen hw
        exact ⟨it, vis, pts, g1, g2, g3, g4.imp fun _ _ h => readBetween_mono (List.prefix_append _ _) h⟩
    · rename_i x a hpc
      split at hs
      · rename_i hre
        injection hs with hs; subst hs
        refine ⟨fun h => ?_, fun rest seen hw => ?_, h2⟩
        · obtain ⟨g1, g2, g3⟩ := h0 h
          exact ⟨g1.trans (List.prefix_append _ _), g2, g3⟩
        · have := hl.collector.2 ⟨hd, rest, seen, hw⟩
          rw [hre] at this; cases this
      · cases hs
  | collect =>
    simp only [step] at hs
    split at hs
    · injection hs with hs; subst hs
      exact ⟨fun _ => ⟨List.prefix_refl _, List.prefix_refl _, fun _ h => by cases h⟩, fun _ _ h => (by cases h), h2⟩
    · cases hs
  | collector it =>
    simp only [step, collectorStep] at hs
    split at hs
    · cases hs
    · rename_i hcoll
      have h0' := h0 (by rw [hcoll]; simp)
      split at hs <;> (injection hs with hs; subst hs; exact ⟨fun _ => h0', fun _ _ h => (by cases h), h2⟩)
    · rename_i hcoll
      obtain ⟨g1, g2, g3⟩ := h0 (by rw [hcoll]; simp)
      injection hs with hs; subst hs
      refine ⟨fun _ => ⟨g1, ?_, ?_⟩, fun _ _ h => (by cases h), h2⟩
      · simpa [hd] using g2
      · intro vs hvs; injection hvs with hvs; subst hvs; exact g2
    · rename_i hcoll
      obtain ⟨g1, g2⟩ := hg.lock hcoll
      have h0' := h0 (by rw [hcoll]; simp)
      split at hs
      · rename_i hperm
        split at hs
        · rename_i hd'; rw [hd] at hd'; cases hd'
        · injection hs with hs; subst hs
          refine ⟨fun _ => h0', fun rest seen hw => ?_, h2⟩
          injection hw with e1 e2; subst e1 e2
          exact ⟨it, [], [], List.isPerm_iff.1 hperm, rfl, by simpa using g1, List.Forall₂.nil⟩
      · cases hs
    · rename_i seen hcoll
      injection hs with hs; subst hs
      refine ⟨fun h => absurd rfl h, fun _ _ h => (by cases h), ?_⟩
      intro r hr'
      rcases List.mem_append.1 hr' with hr' | hr'
      · exact h2 r hr'
      · simp only [List.mem_singleton] at hr'
        subst hr'
        obtain ⟨k1, k2, k3⟩ := h0 (by rw [hcoll]; simp)
        obtain ⟨it, vis, pts, g1, g2, g3, g4⟩ := h1 [] seen hcoll
        simp only [firstOfEach, List.append_nil] at g2
        obtain ⟨f1, f2, _, f4⟩ := firstOfEach_spec [] it
        rw [← g2] at f1 f2 f4
        have hmem : ∀ e ∈ vis, e ∈ s.map.trackers := fun e he => g1.subset (f1.subset he)
        have hfst : pts.map Prod.fst = vis.map Prod.fst := by
          clear g2 f1 f2 f4 hmem g3
          induction g4 with
          | nil => rfl
          | cons h _ ih => simp only [List.map_cons]; rw [h.1, ih]
        refine ⟨k3, pts, g3, ?_, ?_, ?_⟩
        · rw [show (fun p : Attrs K V × A => sortAndDedup cfg.srt p.1) = (sortAndDedup cfg.srt) ∘ Prod.fst from rfl, ← List.map_map, hfst, List.map_map]
          have hnd : vis.Nodup := List.Nodup.of_map _ f2
          refine (List.nodup_map_iff_inj_on hnd).2 ?_
          intro e he f hf hef
          simp only [Function.comp] at hef
          have he' := hc.minv.closed e (hmem e he)
          have hf' := hc.minv.closed f (hmem f hf)
          rw [hef] at he'
          have h5 := List.inj_on_of_nodup_map hc.minv.nodup he' hf' rfl
          have h6 : e.2 = f.2 := by simpa using congrArg Prod.snd h5
          exact List.inj_on_of_nodup_map f2 he hf h6
        · intro p hp
          have : ∀ {vis : List (Attrs K V × Nat)} {pts : List (Attrs K V × A)},
              List.Forall₂ (fun e p => ReadBetween cfg s.cur.startHist s.hist e.1 p) vis pts → p ∈ pts →
              ReadBetween cfg s.cur.startHist s.hist p.1 p := by
            intro vis pts hf
            induction hf with
            | nil => intro h; cases h
            | cons h _ ih =>
              intro hm
              rcases List.mem_cons.1 hm with rfl | hm
              · have := h.1; rw [← this] at h; exact h
              · exact ih hm
          exact this g4 hp
        · intro e he
          have heh : e ∈ s.hist := k1.subset he
          have hne := hc.nonempty e heh
          have hv := (valuesOf_ne_nil (c := sortAndDedup cfg.srt) (limit := cfg.limit) (ov := [cfg.overflow]) s.hist _).2 ⟨e, heh, rfl⟩
          obtain ⟨f, hf, h5⟩ := (hc.minv.dom _).2 ⟨route_ne_nil (canon_sortAndDedup cfg.srt cfg.overflow) _ _ hne, hv⟩
          rw [route_prefix k1 e he] at h5
          rcases f4 f (g1.mem_iff.2 hf) with h6 | ⟨g, hg', h6⟩
          · cases h6
          · have hgf : sortAndDedup cfg.srt g.1 = sortAndDedup cfg.srt f.1 := hc.minv.inj g (hmem g hg') f hf h6
            have : g.1 ∈ pts.map Prod.fst := by rw [hfst]; exact List.mem_map.2 ⟨g, hg', rfl⟩
            obtain ⟨p, hp, hpg⟩ := List.mem_map.1 this
            exact ⟨p, hp, by rw [hpg, hgf, h5]⟩
    · rename_i e rest seen hcoll
      have h0' := h0 (by rw [hcoll]; simp)
      obtain ⟨it, vis, pts, g1, g2, g3, g4⟩ := h1 _ _ hcoll
      split at hs
      · rename_i hin
        injection hs with hs; subst hs
        refine ⟨fun _ => h0', fun rest' seen' hw => ?_, h2⟩
        injection hw with e1 e2; subst e1 e2
        exact ⟨it, vis, pts, g1, by simpa [firstOfEach, hin] using g2, g3, g4⟩
      · rename_i hin
        injection hs with hs; subst hs
        refine ⟨fun _ => h0', fun rest' seen' hw => ?_, h2⟩
        injection hw with e1 e2; subst e1 e2
        have hmem : e ∈ s.map.trackers := by
          apply g1.subset
          apply (firstOfEach_spec [] it).1.subset
          rw [← g2]; simp [firstOfEach, hin]
        refine ⟨it, vis ++ [e], pts ++ [(e.1, s.map.heap e.2)], g1, by simpa [firstOfEach, hin] using g2, ?_, ?_⟩
        · show s.dest ++ _ = noPart cfg s.cur ++ _
          rw [g3, List.append_assoc]
        · refine List.rel_append g4 (List.Forall₂.cons ?_ List.Forall₂.nil)
          exact ⟨rfl, s.hist, h0'.1, List.prefix_refl _, ((hc.minv.dom _).1 ⟨e, hmem, rfl⟩).2, hc.minv.vals e hmem⟩

theorem cum_reachable {cfg : Cfg K V A X} (hd : cfg.delta = false) {s : State K V A X} (h : Reachable cfg s) : CumInv cfg s := by
  induction h with
  | init => exact ⟨fun h => absurd rfl h, fun _ _ h => (by cases h), by simp [State.init]⟩
  | step hr a hs ih => exact cum_step hd hr ih a hs

end Otel.Metrics.Conc
