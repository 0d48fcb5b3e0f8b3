import Verif.Metrics.ConcurrentWalk
import Verif.Metrics.ValueMapProps
/-! # Nothing is lost or counted twice between concurrent measurements and collections (C38, C42) -/

set_option linter.unusedSectionVars false

namespace Otel.Metrics.Conc

variable {K V : Type} [LinearOrder K] [DecidableEq V] {A X : Type}

/-- **C38.** In every schedule each call of a thread updates exactly one tracker once: the updates by a thread are its returned calls,
in order, and the one whose flag is still to be set. -/
theorem calls_apply_once {cfg : Cfg K V A X} {s : State K V A X} (h : Reachable cfg s) (t : Nat) (hidle : s.pc t = .idle) :
    s.applied.filter (fun e => e.1 = t) = s.returned.filter (fun e => e.1 = t) := by
  have := (logs_reachable h).calls t
  rw [hidle] at this
  simpa using this

/-- **C38.** With delta temporality, when no collection is running, the measurements made so far are, in order, those of the first
collection, those of the second, and so on, and those in the store: nothing is lost, nothing is in two collections. The points of
each collection are exactly the report of its measurements. -/
theorem delta_exactly_once {cfg : Cfg K V A X} (hd : cfg.delta = true) {s : State K V A X} (h : Reachable cfg s) (hidle : s.coll = .idle) :
    (s.applied.filter (fun e => e.2.2 ≠ [])).map (fun e => e.2) = s.done.flatMap (·.period) ++ s.hist
      ∧ (s.applied.filter (fun e => e.2.2 = [])).map (fun e => (e.1, e.2.1)) = s.done.flatMap (fun r => r.noVals.getD []) ++ s.noHist
      ∧ ∀ r ∈ s.done, ∃ pts,
          r.points = (match r.noVals with
            | none => []
            | some vs => [([], (vs.map Prod.snd).foldl cfg.agg.update cfg.agg.create)]) ++ pts
          ∧ Report (sortAndDedup cfg.srt) cfg.agg cfg.limit [cfg.overflow] r.period pts := by
  have hl := logs_reachable h
  obtain ⟨_, g2, g3⟩ := hl.before (Or.inl hidle)
  refine ⟨?_, ?_, (delta_reachable hd h).done⟩
  · have := hl.attrs
    rw [g3, List.append_nil] at this; exact this
  · have := hl.no hd
    rw [g2] at this
    simp only [Option.getD_none, List.append_nil] at this
    exact this

/-- The store holds what `hist` and `noHist` say: a collection started now, undisturbed, would report exactly them. -/
theorem store_content {cfg : Cfg K V A X} {s : State K V A X} (h : Reachable cfg s) (it : List (Attrs K V × Nat)) (hp : it.Perm s.map.trackers) :
    Report (sortAndDedup cfg.srt) cfg.agg cfg.limit [cfg.overflow] s.hist (s.map.collectReadonly it)
      ∧ s.noTracker = (s.noHist.map Prod.snd).foldl cfg.agg.update cfg.agg.create :=
  ⟨report_of_minv (canon_sortAndDedup cfg.srt cfg.overflow) (content_reachable h).minv it hp, (content_reachable h).no⟩

/-- The sum of the points of a report is the sum of its measurements. -/
theorem report_total {N : Type} [AddCommMonoid N] (srt : Sorter K V) (limit : Nat) (o : K × V) (hist : Hist K V N)
    (pts : List (Attrs K V × N)) (hrep : Report (sortAndDedup srt) (increment N) limit [o] hist pts) :
    (pts.map Prod.snd).sum = (hist.map Prod.fst).sum := by
  have hval : pts.map Prod.snd = (pts.map fun p => sortAndDedup srt p.1).map fun s => (valuesOf (sortAndDedup srt) limit [o] hist s).sum := by
    rw [List.map_map]
    apply List.map_congr_left
    intro p hp
    rw [(hrep.values p hp).2]
    simp only [Function.comp, List.sum_eq_foldl]; rfl
  rw [hval]
  exact sum_by_class _ hrep.distinct (fun e => route (sortAndDedup srt) limit [o] hist e.2) hist
    (fun e he => by
      obtain ⟨p, hp, h1⟩ := hrep.complete e he
      exact List.mem_map.2 ⟨p, hp, h1⟩)

theorem sum_split {N : Type} [AddCommMonoid N] (l : List (Nat × N × Attrs K V)) :
    (l.map fun e => e.2.1).sum = ((l.filter fun e => e.2.2 ≠ []).map fun e => e.2.1).sum + ((l.filter fun e => e.2.2 = []).map fun e => e.2.1).sum := by
  induction l with
  | nil => simp
  | cons e l ih =>
    by_cases he : e.2.2 = []
    · simp only [List.map_cons, List.sum_cons, he, ne_eq, not_true_eq_false, decide_false, Bool.false_eq_true, not_false_eq_true,
        List.filter_cons_of_neg, decide_true, List.filter_cons_of_pos, ih]
      rw [add_left_comm]
    · simp only [List.map_cons, List.sum_cons, he, ne_eq, not_false_eq_true, decide_true, List.filter_cons_of_pos, decide_false,
        Bool.false_eq_true, List.filter_cons_of_neg, ih]
      rw [add_assoc]

/-- **C38.** For every schedule of threads and delta collections, when no collection is running: the sum of all values collected so
far and what the store still holds is the sum of everything recorded. For any commutative addition (wrapping integers). -/
theorem delta_total {N : Type} [AddCommMonoid N] {cfg : Cfg K V N N} (hagg : cfg.agg = increment N) (hd : cfg.delta = true)
    {s : State K V N N} (h : Reachable cfg s) (hidle : s.coll = .idle) :
    ((s.done.flatMap (·.points)).map Prod.snd).sum + ((s.hist.map Prod.fst).sum + (s.noHist.map Prod.snd).sum)
      = (s.applied.map fun e => e.2.1).sum := by
  obtain ⟨h1, h2, h3⟩ := delta_exactly_once hd h hidle
  have hpts : ((s.done.flatMap (·.points)).map Prod.snd).sum
      = ((s.done.flatMap (·.period)).map Prod.fst).sum + ((s.done.flatMap fun r => r.noVals.getD []).map Prod.snd).sum := by
    clear h1 h2
    revert h3
    induction s.done with
    | nil => intro _; simp
    | cons r rs ih =>
      intro h3
      obtain ⟨pts, e1, e2⟩ := h3 r List.mem_cons_self
      have ih' := ih fun q hq => h3 q (List.mem_cons_of_mem _ hq)
      rw [hagg] at e1 e2
      have hr : (r.points.map Prod.snd).sum = (r.period.map Prod.fst).sum + ((r.noVals.getD []).map Prod.snd).sum := by
        rw [e1, List.map_append, List.sum_append, report_total cfg.srt cfg.limit cfg.overflow r.period pts e2, add_comm]
        congr 1
        cases r.noVals with
        | none => simp
        | some vs =>
          rw [Option.getD_some, List.map_cons, List.map_nil, List.sum_cons, List.sum_nil, add_zero, List.sum_eq_foldl]; rfl
      rw [List.flatMap_cons, List.flatMap_cons, List.flatMap_cons, List.map_append, List.map_append, List.map_append,
        List.sum_append, List.sum_append, List.sum_append, hr, ih']
      ac_rfl
  rw [hpts, sum_split s.applied]
  have k1 : ((s.applied.filter fun e => e.2.2 ≠ []).map fun e => e.2.1).sum = ((s.done.flatMap (·.period)).map Prod.fst).sum + (s.hist.map Prod.fst).sum := by
    have := congrArg (fun l => (l.map Prod.fst).sum) h1
    simp only [List.map_map, List.map_append, List.sum_append] at this
    exact this
  have k2 : ((s.applied.filter fun e => e.2.2 = []).map fun e => e.2.1).sum
      = ((s.done.flatMap fun r => r.noVals.getD []).map Prod.snd).sum + (s.noHist.map Prod.snd).sum := by
    have := congrArg (fun l => (l.map Prod.snd).sum) h2
    simp only [List.map_map, List.map_append, List.sum_append] at this
    exact this
  rw [k1, k2]; ac_rfl

/-- **C38.** A cumulative collection concurrent with any measurements: distinct attribute sets, each with its value at some moment
between the start and the end of the collection, never less than what was recorded before the collection started; every set
measured before is reported. -/
theorem cumulative_between {cfg : Cfg K V A X} (hd : cfg.delta = false) {s : State K V A X} (h : Reachable cfg s) :
    (s.applied.filter (fun e => e.2.2 ≠ [])).map (fun e => e.2) = s.hist
      ∧ (s.applied.filter (fun e => e.2.2 = [])).map (fun e => (e.1, e.2.1)) = s.noHist
      ∧ ∀ r ∈ s.done, CumulativeOk cfg r :=
  ⟨(logs_reachable h).attrsCum hd, (logs_reachable h).noCum hd, (cum_reachable hd h).done⟩

/-- **C38.** A collection that finds the flag unset skips only measurements (without attributes) whose call has not returned. -/
theorem skipped_not_returned {cfg : Cfg K V A X} {s : State K V A X} (h : Reachable cfg s) (hc : s.coll = .flag) (hf : s.flag = false)
    (e : Nat × X) (he : e ∈ s.noHist) : ∃ y, s.pc e.1 = .noFlag y := by
  rcases (logs_reachable h).flag e he with h1 | h1 | h1
  · rw [hf] at h1; cases h1
  · rw [hc] at h1; cases h1
  · exact h1

/-- **C38.** No deadlock: while a call or a collection is running, something can move. -/
theorem store_progress {cfg : Cfg K V A X} {s : State K V A X} (h : Reachable cfg s) (hb : (∃ t, s.pc t ≠ .idle) ∨ s.coll ≠ .idle) :
    (∃ t s', step cfg s (.thread t) = some s') ∨ ∃ it s', step cfg s (.collector it) = some s' := by
  have hl := locks_reachable h
  by_cases hr : s.readers = []
  · rcases hb with ⟨t, ht⟩ | hc
    · left
      refine ⟨t, ?_⟩
      simp only [step, threadStep]
      cases hp : s.pc t with
      | idle => exact absurd hp ht
      | noAttr x => exact ⟨_, rfl⟩
      | noFlag x => exact ⟨_, rfl⟩
      | lookup x a => simp only; split <;> exact ⟨_, rfl⟩
      | found x a p => exact ⟨_, rfl⟩
      | write x a => simp only [hr, if_true]; exact ⟨_, rfl⟩
    · right
      refine ⟨s.map.trackers, ?_⟩
      have hp : s.map.trackers.isPerm s.map.trackers = true := List.isPerm_iff.2 (List.Perm.refl _)
      simp only [step, collectorStep]
      cases hq : s.coll with
      | idle => exact absurd hq hc
      | flag => simp only; split <;> exact ⟨_, rfl⟩
      | takeNo => exact ⟨_, rfl⟩
      | lock => simp only [hp, hr, if_true]; split <;> exact ⟨_, rfl⟩
      | walk rest seen => cases rest with
        | nil => exact ⟨_, rfl⟩
        | cons e rest => simp only; split <;> exact ⟨_, rfl⟩
  · obtain ⟨o, os, ho⟩ := List.exists_cons_of_ne_nil hr
    cases o with
    | some t =>
      obtain ⟨x, a, p, hp⟩ := hl.reader t (by rw [ho]; simp)
      exact Or.inl ⟨t, by simp only [step, threadStep, hp]; exact ⟨_, rfl⟩⟩
    | none =>
      obtain ⟨_, rest, seen, hw⟩ := hl.collector.1 (by rw [ho]; simp)
      refine Or.inr ⟨[], ?_⟩
      simp only [step, collectorStep, hw]
      cases rest with
      | nil => exact ⟨_, rfl⟩
      | cons e rest => simp only; split <;> exact ⟨_, rfl⟩

/-- The states of the schedules in which no measurement without attributes is under way while a collection takes the tracker without
attributes. -/
inductive ReachableApart (cfg : Cfg K V A X) : State K V A X → Prop
  | init : ReachableApart cfg (State.init cfg)
  | step {s s'} (h : ReachableApart cfg s) (a : Action K V X) (hs : step cfg s a = some s')
      (apart : s'.coll = .takeNo → ∀ t x, s'.pc t ≠ .noAttr x ∧ s'.pc t ≠ .noFlag x) : ReachableApart cfg s'

theorem ReachableApart.reachable {cfg : Cfg K V A X} {s : State K V A X} (h : ReachableApart cfg s) : Reachable cfg s := by
  induction h with
  | init => exact .init
  | step _ a hs _ ih => exact ih.step a hs

structure ApartInv (cfg : Cfg K V A X) (s : State K V A X) : Prop where
  flag : s.flag = true → s.noHist ≠ []
  take : s.coll = .takeNo → s.noHist ≠ [] ∧ (cfg.delta = true → s.flag = false) ∧ ∀ t x, s.pc t ≠ .noAttr x ∧ s.pc t ≠ .noFlag x
  pend : ∀ t x, s.pc t = .noFlag x → s.noHist ≠ []
  cur : s.cur.noVals ≠ some []
  done : ∀ r ∈ s.done, r.noVals ≠ some []

theorem setPc_noFlag {pc : Nat → MPc K V X} {t u : Nat} {v : MPc K V X} (hv : ∀ x, v ≠ .noFlag x) {x : X} (h : setPc pc t v u = .noFlag x) :
    pc u = .noFlag x := by
  unfold setPc at h
  split at h
  · exact absurd h (hv x)
  · exact h

theorem apart_inv {cfg : Cfg K V A X} {s : State K V A X} (h : ReachableApart cfg s) : ApartInv cfg s := by
  induction h with
  | init => constructor <;> simp [State.init, Collection.empty]
  | @step s s' h a hs apart ih =>
    cases a with
    | call t x a =>
      simp only [Conc.step] at hs
      split at hs
      · injection hs with hs; subst hs
        refine ⟨ih.flag, fun hc => ⟨(ih.take hc).1, (ih.take hc).2.1, apart hc⟩, fun u y hu => ?_, ih.cur, ih.done⟩
        exact ih.pend u y (setPc_noFlag (by intro x; split <;> simp) hu)
      · cases hs
    | thread t =>
      simp only [Conc.step, threadStep] at hs
      split at hs
      · cases hs
      · injection hs with hs; subst hs
        refine ⟨fun _ => by simp, fun hc => ⟨by simp, (ih.take hc).2.1, apart hc⟩, fun _ _ _ => by simp, ih.cur, ih.done⟩
      · rename_i x hp
        injection hs with hs; subst hs
        refine ⟨fun _ => ih.pend t x hp, fun hc => absurd hp ((ih.take hc).2.2 t x).2, fun u y hu => ?_, ih.cur, ih.done⟩
        exact ih.pend u y (setPc_noFlag (by simp) hu)
      · split at hs
        all_goals
          injection hs with hs; subst hs
          refine ⟨ih.flag, fun hc => ⟨(ih.take hc).1, (ih.take hc).2.1, apart hc⟩, fun u y hu => ?_, ih.cur, ih.done⟩
          exact ih.pend u y (setPc_noFlag (by simp) hu)
      · injection hs with hs; subst hs
        refine ⟨ih.flag, fun hc => ⟨(ih.take hc).1, (ih.take hc).2.1, apart hc⟩, fun u y hu => ?_, ih.cur, ih.done⟩
        exact ih.pend u y (setPc_noFlag (by simp) hu)
      · split at hs
        · injection hs with hs; subst hs
          refine ⟨ih.flag, fun hc => ⟨(ih.take hc).1, (ih.take hc).2.1, apart hc⟩, fun u y hu => ?_, ih.cur, ih.done⟩
          exact ih.pend u y (setPc_noFlag (by simp) hu)
        · cases hs
    | collect =>
      simp only [Conc.step] at hs
      split at hs
      · injection hs with hs; subst hs
        exact ⟨ih.flag, fun hc => (by cases hc), ih.pend, by simp [Collection.empty], ih.done⟩
      · cases hs
    | collector it =>
      simp only [Conc.step, collectorStep] at hs
      split at hs
      · cases hs
      · split at hs
        · rename_i hf
          injection hs with hs; subst hs
          exact ⟨fun _ => ih.flag hf, fun hc => ⟨ih.flag hf, fun hd => by simp [hd], apart hc⟩, ih.pend, ih.cur, ih.done⟩
        · injection hs with hs; subst hs
          exact ⟨ih.flag, fun hc => (by cases hc), ih.pend, ih.cur, ih.done⟩
      · rename_i hc
        obtain ⟨h1, h2, h3⟩ := ih.take hc
        injection hs with hs; subst hs
        refine ⟨fun hf => ?_, fun hc => (by cases hc), fun t x hp => absurd hp (h3 t x).2, by simpa using h1, ih.done⟩
        cases hd : cfg.delta with
        | true => rw [h2 hd] at hf; cases hf
        | false => simpa using h1
      · split at hs
        · split at hs
          · split at hs
            · injection hs with hs; subst hs
              exact ⟨ih.flag, fun hc => (by cases hc), ih.pend, ih.cur, ih.done⟩
            · cases hs
          · injection hs with hs; subst hs
            exact ⟨ih.flag, fun hc => (by cases hc), ih.pend, ih.cur, ih.done⟩
        · cases hs
      · injection hs with hs; subst hs
        refine ⟨ih.flag, fun hc => (by cases hc), ih.pend, by simp [Collection.empty], fun r hr => ?_⟩
        rcases List.mem_append.1 hr with hr | hr
        · exact ih.done r hr
        · rw [List.mem_singleton.1 hr]; exact ih.cur
      · split at hs
        all_goals
          injection hs with hs; subst hs
          exact ⟨ih.flag, fun hc => (by cases hc), ih.pend, ih.cur, ih.done⟩

/-- **C42, the part that holds.** If no measurement without attributes is under way while a collection takes their tracker, a delta collection
reports a point without attributes only if such a measurement was made since the previous collection. Missing: the other schedules, for which
it is false (`spurious_point_violated`). -/
theorem no_spurious_point_partial {cfg : Cfg K V A X} (hd : cfg.delta = true) {s : State K V A X} (h : ReachableApart cfg s) :
    ∀ r ∈ s.done, ∃ pts,
      r.points = (match r.noVals with
        | none => []
        | some vs => [([], (vs.map Prod.snd).foldl cfg.agg.update cfg.agg.create)]) ++ pts
      ∧ Report (sortAndDedup cfg.srt) cfg.agg cfg.limit [cfg.overflow] r.period pts ∧ r.noVals ≠ some [] := by
  intro r hr
  obtain ⟨pts, h1, h2⟩ := (delta_reachable hd h.reachable).done r hr
  exact ⟨pts, h1, h2, (apart_inv h).done r hr⟩

/-! ## Witnesses -/

/-- A gauge without attributes. -/
def gaugeCfg : Cfg Nat Nat Nat Nat := ⟨stableSorter, ⟨0, fun _ x => x⟩, 2000, (0, 1), true⟩

/-- A thread records 7, sets the flag and records 8; the collector takes 8 before the flag is set again; the next collection finds
the flag set and nothing recorded. -/
def spuriousSchedule : List (Action Nat Nat Nat) :=
  [.call 0 7 [], .thread 0, .thread 0, .call 0 8 [], .thread 0,
   .collect, .collector [], .collector [], .collector [], .collector [],
   .thread 0,
   .collect, .collector [], .collector [], .collector [], .collector []]

/-- **C42, negation.** A gauge on which only 7 and 8 were ever recorded is reported with the value 0: a delta collection can report a
point for a set that was not measured since the previous collection. -/
theorem spurious_point_violated : ∃ s : State Nat Nat Nat Nat, Reachable gaugeCfg s
    ∧ s.applied.map (fun e => e.2.1) = [7, 8] ∧ s.done.map (fun r => r.points) = [[([], 8)], [([], 0)]] := by
  have h : (runAll gaugeCfg (State.init gaugeCfg) spuriousSchedule).map
      (fun s => (s.applied.map (fun e => e.2.1), s.done.map (fun r => r.points))) = some ([7, 8], [[([], 8)], [([], 0)]]) := by rfl
  obtain ⟨s, hs, he⟩ := Option.map_eq_some_iff.1 h
  simp only [Prod.mk.injEq] at he
  exact ⟨s, reachable_runAll .init _ hs, he.1, he.2⟩

/-- The hypotheses of `no_spurious_point_partial` are met by a history with a measurement and two collections, the second of them empty. -/
example : ∃ s : State Nat Nat Nat Nat, ReachableApart gaugeCfg s ∧ s.done.map (fun r => r.points) = [[([], 7)], []] := by
  have h0 : ReachableApart gaugeCfg _ := .init
  have h1 := h0.step (.call 0 7 []) rfl (fun hc => by cases hc)
  have h2 := h1.step (.thread 0) rfl (fun hc => by cases hc)
  have h3 := h2.step (.thread 0) rfl (fun hc => by cases hc)
  have h4 := h3.step .collect rfl (fun hc => by cases hc)
  have h5 := h4.step (.collector []) rfl (fun _ t x => by simp only [setPc]; split <;> (try split) <;> (try split) <;> simp [State.init])
  have h6 := h5.step (.collector []) rfl (fun hc => by cases hc)
  have h7 := h6.step (.collector []) rfl (fun hc => by cases hc)
  have h8 := h7.step (.collector []) rfl (fun hc => by cases hc)
  have h9 := h8.step .collect rfl (fun hc => by cases hc)
  have h10 := h9.step (.collector []) rfl (fun hc => by cases hc)
  have h11 := h10.step (.collector []) rfl (fun hc => by cases hc)
  have h12 := h11.step (.collector []) rfl (fun hc => by cases hc)
  exact ⟨_, h12, rfl⟩

/-- A counter with attributes: two threads race to create the tracker of one set, given in different orders, during a collection. -/
def sumCfg (delta : Bool) : Cfg Nat Nat Nat Nat := ⟨stableSorter, increment Nat, 2000, (0, 1), delta⟩

/-- Both miss, both write; the collector swaps while a third has looked the tracker up only afterwards. -/
def raceSchedule : List (Action Nat Nat Nat) :=
  [.call 0 5 [(2, 1), (3, 1)], .call 1 6 [(3, 1), (2, 1)], .thread 0, .thread 1, .thread 1, .thread 0,
   .collect, .collector [], .call 2 9 [(2, 1), (3, 1)], .collector [([(2, 1), (3, 1)], 0), ([(3, 1), (2, 1)], 0)], .thread 2,
   .collector [], .thread 2, .collector [], .collector []]

/-- The hypotheses of `delta_exactly_once` are met by a state with a collection and something left in the store. -/
example : ∃ s : State Nat Nat Nat Nat, Reachable (sumCfg true) s ∧ s.coll = .idle
    ∧ s.done.map (fun r => r.points) = [[([(2, 1), (3, 1)], 11)]] ∧ s.hist = [(9, [(2, 1), (3, 1)])] := by
  have h : (runAll (sumCfg true) (State.init (sumCfg true)) raceSchedule).map
      (fun s => (s.done.map (fun r => r.points), s.hist)) = some ([[([(2, 1), (3, 1)], 11)]], [(9, [(2, 1), (3, 1)])]) := by rfl
  have h' : (runAll (sumCfg true) (State.init (sumCfg true)) raceSchedule).map (fun s => s.coll) = some .idle := by rfl
  obtain ⟨s, hs, he⟩ := Option.map_eq_some_iff.1 h
  obtain ⟨s', hs', he'⟩ := Option.map_eq_some_iff.1 h'
  rw [hs] at hs'; injection hs' with hs'; subst hs'
  simp only [Prod.mk.injEq] at he
  exact ⟨s, reachable_runAll .init _ hs, he', he.1, he.2⟩

/-- A cumulative collection with a measurement in the middle of it. -/
example : ∃ s : State Nat Nat Nat Nat, Reachable (sumCfg false) s
    ∧ s.done.map (fun r => (r.startHist, r.points)) = [([(5, [(2, 1)])], [([(2, 1)], 7)])] := by
  have h : (runAll (sumCfg false) (State.init (sumCfg false))
      [.call 0 5 [(2, 1)], .thread 0, .thread 0, .collect, .call 1 2 [(2, 1)], .collector [], .collector [([(2, 1)], 0)], .thread 1, .thread 1,
       .collector [], .collector []]).map (fun s => s.done.map (fun r => (r.startHist, r.points)))
      = some [([(5, [(2, 1)])], [([(2, 1)], 7)])] := by rfl
  obtain ⟨s, hs, he⟩ := Option.map_eq_some_iff.1 h
  exact ⟨s, reachable_runAll .init _ hs, he⟩

end Otel.Metrics.Conc
