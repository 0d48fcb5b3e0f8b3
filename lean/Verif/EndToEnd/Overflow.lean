import Verif.Metrics.ConcurrentOverflow
import Verif.EndToEnd.Instruments
/-!
# Beyond the cardinality limit nothing is lost on the way to the collector (C109)

C99 without its assumption that there are not more attribute sets than the limit. What the collector receives of a collection is then at most two points more than the limit; the
first sets have points of their own, one point takes the others; and every measurement is in exactly one of the points. No code is modelled here.
-/

set_option linter.unusedSectionVars false

namespace Otel.EndToEnd
open Otel.Otlp Otel.Metrics
open Common (Val Scope)

variable {K V A X Y : Type} [LinearOrder K] [DecidableEq V]

/-! ## Specification -/

/-- The received points tell values, point by point, that are together these values. -/
def Shares (reads : WPt K → List X → Prop) (qs : List (WPt K)) (xs : List X) : Prop := ∃ vs : List (List X), List.Forall₂ reads qs vs ∧ vs.flatten.Perm xs

/-- All points of an instrument that the collector has received. -/
def heardPoints (decode : Y → Option (PRequest K (PMetric K))) (name : String) (qs : List (Exporter.Request Y)) : List (WPt K) :=
  (heard decode name qs).flatMap fun m => wpoints m.metric.data

/-! ## Lemmas -/

theorem flatMap_sublist_of {α β : Type} {l l' : List α} (f : α → List β) (h : List.Sublist l l') : List.Sublist (l.flatMap f) (l'.flatMap f) := by
  induction h with
  | slnil => exact .slnil
  | cons x _ ih => rw [List.flatMap_cons]; exact ih.trans (List.sublist_append_right _ _)
  | cons_cons x _ ih => rw [List.flatMap_cons, List.flatMap_cons]; exact (List.Sublist.refl _).append ih

theorem flatMap_filter_of {α β : Type} (p : α → Bool) (f : α → List β) (l : List α) (h : ∀ a ∈ l, p a = false → f a = []) : (l.filter p).flatMap f = l.flatMap f := by
  induction l with
  | nil => rfl
  | cons a l ih =>
    have ih' := ih fun b hb => h b (by simp [hb])
    cases hp : p a with
    | false => rw [List.filter_cons_of_neg (by simp [hp]), List.flatMap_cons, h a (by simp) hp, ih']; rfl
    | true => rw [List.filter_cons_of_pos hp, List.flatMap_cons, List.flatMap_cons, ih']

theorem Shares.append {reads : WPt K → List X → Prop} {qs qs' : List (WPt K)} {xs xs' : List X} (h : Shares reads qs xs) (h' : Shares reads qs' xs') :
    Shares reads (qs ++ qs') (xs ++ xs') := by
  obtain ⟨vs, h1, h2⟩ := h
  obtain ⟨vs', h1', h2'⟩ := h'
  exact ⟨vs ++ vs', List.rel_append h1 h1', by rw [List.flatten_append]; exact h2.append h2'⟩

/-! ## C109 -/

/-- C109: for every schedule of threads and collections of an instrument with delta temporality, any number of attribute sets and whatever the network does: the collector
receives a metric for some of the collections, in order; each is the instrument's, has no more points than the limit and two, one for each set that must have one; a point tells the
values of its set in the period, the overflow point those of all sets after the first ones; and each value measured in the period is told by exactly one point. -/
theorem overflow_delta {cc : Conc.Cfg K V A X} (hd : cc.delta = true) {st : Style K A} (hfit : st.Fit) (hkeep : st.Keeps) {val : V → Val} (hinj : Function.Injective val)
    (hplain : ∀ v, NotEmptyArray (val v)) {dflt : Scope K} {res : ResVal K} {ci : CounterId K} {cast : Cast} {decode : Y → Option (PRequest K (PMetric K))}
    {c : Exporter.Cfg Unit (Batch K) (PRequest K (PMetric K)) Y} (hc : MetricCfg cast decode c) {reads : WPt K → List X → Prop}
    (hreads : ∀ start now kvs xs, reads (wireOf cast st.kind start now (st.point kvs (xs.foldl cc.agg.update cc.agg.create))) xs) {t0 t : Nat}
    {s : Conc.State K V A X} {e : Exporter.St Unit} {log : List (Sending Y)} (h : Measured cc st val dflt res ci c t0 s t e log) :
    ∃ all bs : List (Conc.Collection K V A X × Around K), all.map Prod.fst = s.done ∧
      (all.map fun x => (x.2.start, x.2.now)) = intervals timeDelta t0 (all.map (·.2.now)) ∧ List.Sublist bs all ∧
      List.Forall₂ (fun x m => Names st.kind true res ci x.2.start x.2.now m ∧ (wpoints m.metric.data).length ≤ cc.limit + 2 ∧
        CarriesPoints cc.srt val reads (Conc.limitedOk cc x.1) (Conc.limitedMust cc x.1) (wpoints m.metric.data) ∧
        Shares reads (wpoints m.metric.data) (Conc.periodValues x.1)) bs (heard decode ci.name (requests log)) ∧
      (bs.flatMap fun x => Conc.periodValues x.1).Subperm (Conc.allValues s) ∧
      (Exporter.TellsStatus c → AllOk log → ((bs.flatMap fun x => Conc.periodValues x.1) ++ Conc.pendingValues s).Perm (Conc.allValues s)) := by
  obtain ⟨all, bs, h1, h2, h3, h4, h5, h6⟩ := measured_heard hc h
  have hr := measured_reachable h
  have hdone := Conc.delta_limited hd hr
  have hmem : ∀ x ∈ all, x.1 ∈ s.done := fun x hx => by rw [← h1]; exact List.mem_map_of_mem hx
  have hsub : List.Sublist bs all := h4.trans List.filter_sublist
  have hall := Conc.delta_all hd hr
  rw [← h1, List.flatMap_map] at hall
  have htimes : timesOf cc.delta = timeDelta := by rw [hd]; rfl
  refine ⟨all, bs, h1, by rw [h2, htimes], hsub, ?_, ?_, fun ht ha => ?_⟩
  · rw [h5]
    refine forall₂_map_self fun x hx => ?_
    obtain ⟨k1, k2, k3⟩ := hdone x.1 (hmem x (hsub.subset hx))
    refine ⟨by rw [hd]; exact said_names cast st hfit true val res ci x.2 x.1.points, ?_, ?_, ?_⟩
    · rw [said_points cast st hfit, List.length_map]; exact k2
    · rw [said_points cast st hfit]
      exact carries_of hinj hplain (f := fun kvs x' => wireOf cast st.kind x.2.start x.2.now (st.point kvs x')) (hkeep _ _ _) (fun kvs _ xs _ => hreads _ _ kvs xs) k1
    · rw [said_points cast st hfit]
      refine ⟨x.1.points.map fun p => Conc.pointValues cc x.1.period (x.1.noVals.getD []) p.1, ?_, ?_⟩
      · rw [List.forall₂_map_left_iff, List.forall₂_map_right_iff, List.forall₂_same]
        intro p hp
        obtain ⟨xs, g1, g2⟩ := k1.values p hp
        rw [g2, ← g1.1]
        exact hreads _ _ _ _
      · rw [← List.flatMap_def]; exact k3
  · exact ((flatMap_sublist_of _ hsub).trans (List.sublist_append_left _ _)).subperm.trans hall.subperm
  · rw [h6 ht ha, flatMap_filter_of]
    · exact hall
    · intro x hx hp
      have hp' : x.1.points = [] := by simpa using hp
      have := (hdone x.1 (hmem x hx)).2.2
      rw [hp'] at this
      exact List.nil_perm.1 this

/-- C109: if every export succeeded, the points that the collector has received tell, together, every value recorded exactly once, but those still in the store. -/
theorem overflow_nothing_lost {cc : Conc.Cfg K V A X} (hd : cc.delta = true) {st : Style K A} (hfit : st.Fit) (hkeep : st.Keeps) {val : V → Val} (hinj : Function.Injective val)
    (hplain : ∀ v, NotEmptyArray (val v)) {dflt : Scope K} {res : ResVal K} {ci : CounterId K} {cast : Cast} {decode : Y → Option (PRequest K (PMetric K))}
    {c : Exporter.Cfg Unit (Batch K) (PRequest K (PMetric K)) Y} (hc : MetricCfg cast decode c) {reads : WPt K → List X → Prop}
    (hreads : ∀ start now kvs xs, reads (wireOf cast st.kind start now (st.point kvs (xs.foldl cc.agg.update cc.agg.create))) xs) {t0 t : Nat}
    {s : Conc.State K V A X} {e : Exporter.St Unit} {log : List (Sending Y)} (h : Measured cc st val dflt res ci c t0 s t e log) :
    ∃ xs, Shares reads (heardPoints decode ci.name (requests log)) xs ∧ xs.Subperm (Conc.allValues s) ∧
      (Exporter.TellsStatus c → AllOk log → (xs ++ Conc.pendingValues s).Perm (Conc.allValues s)) := by
  obtain ⟨all, bs, _, _, hb, hm, hsub, hall⟩ := overflow_delta hd hfit hkeep hinj hplain hc hreads h
  refine ⟨_, ?_, hsub, hall⟩
  clear hsub hall hb
  rw [heardPoints]
  generalize heard decode ci.name (requests log) = ms at hm
  induction hm with
  | nil => exact ⟨[], .nil, .refl _⟩
  | cons hx _ ih => rw [List.flatMap_cons, List.flatMap_cons]; exact hx.2.2.2.append ih

/-- C109: the same with cumulative temporality: each metric received tells everything that was recorded before its collection began and nothing that was not recorded before
it ended, each value by exactly one point; what a point tells grows from metric to metric. -/
theorem overflow_cumulative {cc : Conc.Cfg K V A X} (hd : cc.delta = false) {st : Style K A} (hfit : st.Fit) (hkeep : st.Keeps) {val : V → Val}
    (hinj : Function.Injective val) (hplain : ∀ v, NotEmptyArray (val v)) {dflt : Scope K} {res : ResVal K} {ci : CounterId K} {cast : Cast}
    {decode : Y → Option (PRequest K (PMetric K))} {c : Exporter.Cfg Unit (Batch K) (PRequest K (PMetric K)) Y} (hc : MetricCfg cast decode c)
    {reads : WPt K → List X → Prop} (hreads : ∀ start now kvs xs, reads (wireOf cast st.kind start now (st.point kvs (xs.foldl cc.agg.update cc.agg.create))) xs) {t0 t : Nat}
    {s : Conc.State K V A X} {e : Exporter.St Unit} {log : List (Sending Y)} (h : Measured cc st val dflt res ci c t0 s t e log) :
    ∃ all bs : List (Conc.Collection K V A X × Around K), all.map Prod.fst = s.done ∧ List.Sublist bs all ∧
      (Exporter.TellsStatus c → AllOk log → bs = all.filter fun x => !x.1.points.isEmpty) ∧
      List.Forall₂ (fun x m => Names st.kind false res ci x.2.start x.2.now m ∧ (wpoints m.metric.data).length ≤ cc.limit + 2 ∧
        CarriesPoints cc.srt val reads (Conc.limitedCumOk cc x.1) (Conc.limitedCumMust cc x.1) (wpoints m.metric.data) ∧
        ∃ xs, Shares reads (wpoints m.metric.data) xs ∧ (Conc.startValues x.1).Subperm xs ∧ xs.Subperm (Conc.endValues x.1)) bs (heard decode ci.name (requests log)) ∧
      (∀ x ∈ bs, (Conc.endValues x.1).Subperm (Conc.allValues s) ∧
        ∀ a xs, Conc.limitedCumOk cc x.1 a xs → Conc.pointValues cc x.1.startHist x.1.startNo a <+: xs ∧ xs <+: Conc.pointValues cc s.hist s.noHist a) ∧
      bs.Pairwise fun x y => ∀ a xs ys, Conc.limitedCumOk cc x.1 a xs → Conc.limitedCumOk cc y.1 a ys → xs <+: ys := by
  obtain ⟨all, bs, h1, h2, _, h4, h5, h6⟩ := measured_heard hc h
  have hr := measured_reachable h
  have hdone := Conc.cumulative_limited hd hr
  have hmem : ∀ x ∈ all, x.1 ∈ s.done := fun x hx => by rw [← h1]; exact List.mem_map_of_mem hx
  have hsub : List.Sublist bs all := h4.trans List.filter_sublist
  refine ⟨all, bs, h1, hsub, h6, ?_, fun x hx => ⟨?_, fun a xs hok => Conc.limited_within hd hr (hmem x (hsub.subset hx)) hok⟩, ?_⟩
  · rw [h5]
    refine forall₂_map_self fun x hx => ?_
    obtain ⟨k1, k2, vs, k3, k4, k5⟩ := hdone x.1 (hmem x (hsub.subset hx))
    refine ⟨by rw [hd]; exact said_names cast st hfit false val res ci x.2 x.1.points, ?_, ?_, vs.flatten, ⟨vs, ?_, .refl _⟩, k4, k5⟩
    · rw [said_points cast st hfit, List.length_map]; exact k2
    · rw [said_points cast st hfit]
      exact carries_of hinj hplain (f := fun kvs x' => wireOf cast st.kind x.2.start x.2.now (st.point kvs x')) (hkeep _ _ _) (fun kvs _ xs _ => hreads _ _ kvs xs) k1
    · rw [said_points cast st hfit, List.forall₂_map_left_iff]
      refine k3.imp fun p xs hp => ?_
      rw [hp.2]
      exact hreads _ _ _ _
  · obtain ⟨c1, c2, c3, c4⟩ := (Conc.chain_reachable hd hr).done x.1 (hmem x (hsub.subset hx))
    exact Conc.ends_within hd hr c2 fun vs hv => (c4 vs hv).2
  · have hg := Conc.limited_grows hd hr
    rw [← h1, List.pairwise_map] at hg
    exact hg.sublist hsub

/-! ## Totals -/

/-- C109, up-down counters: the integers of all points received add up to what was recorded, but what is in the store, if all sums of parts fit; whatever the number of sets. -/
theorem updown_total {cc : Conc.Cfg K V (BitVec 64) (BitVec 64)} (hagg : cc.agg = increment (BitVec 64)) (hd : cc.delta = true) (mono : Bool) {val : V → Val}
    (hinj : Function.Injective val) (hplain : ∀ v, NotEmptyArray (val v)) {dflt : Scope K} {res : ResVal K} {ci : CounterId K} {cast : Cast}
    {decode : Y → Option (PRequest K (PMetric K))} {c : Exporter.Cfg Unit (Batch K) (PRequest K (PMetric K)) Y} (hc : MetricCfg cast decode c)
    (ht : Exporter.TellsStatus c) {t0 t : Nat} {s : Store K V} {e : Exporter.St Unit} {log : List (Sending Y)}
    (h : Measured cc (i64Sum mono) val dflt res ci c t0 s t e log) (hok : AllOk log)
    (hbound : ((Conc.allValues s).map fun x => |x.toInt|).sum < 2 ^ 63) :
    ∃ is : List Int, List.Forall₂ TellsInt (heardPoints decode ci.name (requests log)) is ∧
      is.sum + ((Conc.pendingValues s).map BitVec.toInt).sum = ((Conc.allValues s).map BitVec.toInt).sum := by
  obtain ⟨xs, ⟨vs, h1, h2⟩, _, h4⟩ := overflow_nothing_lost hd (i64Sum_ok mono).1 (i64Sum_ok mono).2 hinj hplain hc
    (reads := fun q xs => -2 ^ 63 ≤ (xs.map BitVec.toInt).sum → (xs.map BitVec.toInt).sum < 2 ^ 63 → TellsInt q (xs.map BitVec.toInt).sum)
    (fun start now kvs xs => by rw [hagg]; exact i64_reads cast mono start now kvs xs) h
  have h4 := h4 ht hok
  refine ⟨vs.map fun ys => (ys.map BitVec.toInt).sum, ?_, ?_⟩
  · have hsmall : ∀ ys ∈ vs, -2 ^ 63 ≤ (ys.map BitVec.toInt).sum ∧ (ys.map BitVec.toInt).sum < 2 ^ 63 := by
      intro ys hys
      have g1 : (ys.map fun x => |x.toInt|).sum ≤ ((Conc.allValues s).map fun x => |x.toInt|).sum := by
        obtain ⟨l, g2, g3⟩ : ys.Subperm (Conc.allValues s) :=
          (List.sublist_flatten_of_mem hys).subperm.trans (h2.subperm.trans ((List.sublist_append_left _ _).subperm.trans h4.subperm))
        rw [← (g2.map _).sum_eq]
        exact (g3.map _).sum_le_sum fun x hx => by
          obtain ⟨y, _, rfl⟩ := List.mem_map.1 hx
          exact abs_nonneg _
      have g4 : |(ys.map BitVec.toInt).sum| ≤ (ys.map fun x => |x.toInt|).sum := by
        clear g1 h1 hys
        induction ys with
        | nil => simp
        | cons y ys ih =>
          rw [List.map_cons, List.map_cons, List.sum_cons, List.sum_cons]
          exact (abs_add_le _ _).trans (by omega)
      have := abs_le.1 (g4.trans g1)
      omega
    rw [List.forall₂_map_right_iff]
    clear h2 h4
    generalize heardPoints decode ci.name (requests log) = qs at h1 ⊢
    induction h1 with
    | nil => exact .nil
    | cons hq _ ih => exact .cons (hq (hsmall _ (by simp)).1 (hsmall _ (by simp)).2) (ih fun ys hys => hsmall ys (by simp [hys]))
  · have e1 : (vs.map fun ys => (ys.map BitVec.toInt).sum).sum = (vs.flatten.map BitVec.toInt).sum := by
      rw [List.map_flatten, List.sum_flatten, List.map_map]; rfl
    rw [e1, (h2.map BitVec.toInt).sum_eq, ← (h4.map BitVec.toInt).sum_eq, List.map_append, List.sum_append]

/-- The count of a received histogram point. -/
def TellsCount (q : WPt K) (n : Nat) : Prop := ∃ p, q = .hist p ∧ p.count.toNat = n

/-- C109, histograms: the counts of all points received add up to the number of measurements, but those in the store; whatever the number of sets. -/
theorem histogram_count_total {N : Type} (k : NumKind) (toNum : N → Num) (word : Rust.F64 → BitVec 64) (num : NumOps N) (bounds : List Rust.F64) (mm rs : Bool)
    {cc : Conc.Cfg K V (Buckets N) (N × Nat)} (hagg : cc.agg = bucketsAgg num (bounds.length + 1)) (hd : cc.delta = true) {val : V → Val}
    (hinj : Function.Injective val) (hplain : ∀ v, NotEmptyArray (val v)) {dflt : Scope K} {res : ResVal K} {ci : CounterId K} {cast : Cast}
    {decode : Y → Option (PRequest K (PMetric K))} {c : Exporter.Cfg Unit (Batch K) (PRequest K (PMetric K)) Y} (hc : MetricCfg cast decode c)
    (ht : Exporter.TellsStatus c) {t0 t : Nat} {s : Conc.State K V (Buckets N) (N × Nat)} {e : Exporter.St Unit} {log : List (Sending Y)}
    (h : Measured cc (histogramOf k toNum word num bounds mm rs) val dflt res ci c t0 s t e log) (hok : AllOk log) (hbound : s.applied.length < 2 ^ 64) :
    ∃ ns : List Nat, List.Forall₂ TellsCount (heardPoints decode ci.name (requests log)) ns ∧ ns.sum + (Conc.pendingValues s).length = s.applied.length := by
  obtain ⟨xs, ⟨vs, h1, h2⟩, _, h4⟩ := overflow_nothing_lost hd (histogramOf_ok k toNum word num bounds mm rs).1 (histogramOf_ok k toNum word num bounds mm rs).2 hinj hplain hc
    (reads := fun q xs => xs.length < 2 ^ 64 → TellsCount q xs.length) (fun start now kvs xs hlen => by
      rw [hagg]
      refine ⟨_, rfl, ?_⟩
      have := (buckets_counts num (bounds.length + 1) xs).2.1
      show (BitVec.ofNat 64 (xs.foldl (Buckets.update num) (Buckets.new num (bounds.length + 1))).count).toNat = _
      rw [this, BitVec.toNat_ofNat, Nat.mod_eq_of_lt hlen]) h
  have h4 := h4 ht hok
  have hlen : (Conc.allValues s).length = s.applied.length := List.length_map _
  refine ⟨vs.map List.length, ?_, ?_⟩
  · have hsmall : ∀ ys ∈ vs, ys.length < 2 ^ 64 := by
      intro ys hys
      have g1 := (List.sublist_flatten_of_mem hys).length_le
      have g2 := h2.length_eq
      have g3 := h4.length_eq
      rw [List.length_append] at g3
      omega
    rw [List.forall₂_map_right_iff]
    clear h2 h4
    generalize heardPoints decode ci.name (requests log) = qs at h1 ⊢
    induction h1 with
    | nil => exact .nil
    | cons hq _ ih => exact .cons (hq (hsmall _ (by simp))) (ih fun ys hys => hsmall ys (by simp [hys]))
  · have g2 := h2.length_eq
    have g3 := h4.length_eq
    rw [List.length_append] at g3
    rw [← List.length_flatten]
    omega

/-! ## The hypotheses are met -/

/-- A store with a limit of one set. -/
def exStoreOne : Conc.Cfg Nat Bool (BitVec 64) (BitVec 64) := ⟨stableSorter, increment (BitVec 64), 1, (0, true), true⟩

/-- Three sets with a limit of one: the first has its point, the two others share the overflow point, the measurement without attributes has its own; all are received. -/
theorem overflow_example : ∃ (s : Store Nat Bool) (t : Nat) (log : List (Sending (PRequest Nat (PMetric Nat)))),
    Measured exStoreOne (i64Sum false) Val.bool ⟨"", none, none, []⟩ ⟨[], none⟩ exCounter exMetricCfg 1 s t ⟨true, ()⟩ log ∧ AllOk log ∧
      s.done.map (·.points) = [[([], 1), ([(1, true)], 5), ([(0, true)], 13)]] ∧ ((Conc.allValues s).map fun x => |x.toInt|).sum < 2 ^ 63 ∧ s.applied.length = 4 := by
  have h : (Conc.runAll exStoreOne (.init exStoreOne) [.call 0 5 [(1, true)], .thread 0, .thread 0, .call 0 6 [(2, true)], .thread 0, .thread 0, .call 0 7 [(3, true)], .thread 0,
      .thread 0, .call 1 1 [], .thread 1, .thread 1, .collect, .collector [], .collector [], .collector [([(1, true)], 0), ([(0, true)], 1)], .collector [], .collector [],
      .collector []]).map (fun s => (s.applied, s.done.map (·.points)))
      = some ([(0, 5, [(1, true)]), (0, 6, [(2, true)]), (0, 7, [(3, true)]), (1, 1, [])], [[([], 1), ([(1, true)], 5), ([(0, true)], 13)]]) := by rfl
  obtain ⟨s, hs, he⟩ := Option.map_eq_some_iff.1 h
  simp only [Prod.mk.injEq] at he
  obtain ⟨t, log, hp, hl⟩ := measured_of_run (st := i64Sum false) (val := Val.bool) (dflt := ⟨"", none, none, []⟩) (res := ⟨[], none⟩) (ci := exCounter) (c := exMetricCfg) (t0 := 1)
    ⟨true, some ⟨0, 0⟩⟩ exAround exAround_distinct _ .init hs
  refine ⟨s, t, log, hp, fun x hx => ?_, he.2, by rw [Conc.allValues, he.1]; decide, by rw [he.1]; rfl⟩
  rcases hl x hx with hx | ⟨_, rfl⟩
  · cases hx
  · rfl

/-- Beside `histogram_count_total`: a histogram with a limit of one set; three measurements of three sets, one of which is in the store when the collection is done. -/
theorem overflow_histogram_example (r : Rust.F64.Rounding) : ∃ (s : Conc.State Nat Bool (Buckets (BitVec 64)) (BitVec 64 × Nat)) (t : Nat)
    (log : List (Sending (PRequest Nat (PMetric Nat)))),
    Measured ⟨stableSorter, bucketsAgg (u64Ops r) 2, 1, (0, true), true⟩ (histogramOf .u64 Num.u64 (fun _ => 0) (u64Ops r) [.fin 2] true true) Val.bool ⟨"", none, none, []⟩
      ⟨[], none⟩ exCounter exMetricCfg 1 s t ⟨true, ()⟩ log ∧ AllOk log ∧ s.done.map (fun c => c.points.map fun p => (p.1, p.2.count)) = [[([(1, true)], 1), ([(0, true)], 1)]] ∧
      (Conc.pendingValues s).length = 1 ∧ s.applied.length = 3 := by
  let cc : Conc.Cfg Nat Bool (Buckets (BitVec 64)) (BitVec 64 × Nat) := ⟨stableSorter, bucketsAgg (u64Ops r) 2, 1, (0, true), true⟩
  have h : (Conc.runAll cc (.init cc) [.call 0 (5, 1) [(1, true)], .thread 0, .thread 0, .call 0 (1, 0) [(2, true)], .thread 0, .thread 0, .collect, .collector [],
      .collector [([(1, true)], 0), ([(0, true)], 1)], .call 0 (1, 0) [(3, true)], .thread 0, .thread 0, .collector [], .collector [], .collector []]).map
      (fun s => (s.applied.length, (Conc.pendingValues s).length, s.done.map fun c => c.points.map fun p => (p.1, p.2.count)))
      = some (3, 1, [[([(1, true)], 1), ([(0, true)], 1)]]) := by rfl
  obtain ⟨s, hs, he⟩ := Option.map_eq_some_iff.1 h
  simp only [Prod.mk.injEq] at he
  obtain ⟨t, log, hp, hl⟩ := measured_of_run (st := histogramOf .u64 Num.u64 (fun _ => 0) (u64Ops r) [.fin 2] true true) (val := Val.bool) (dflt := ⟨"", none, none, []⟩) (res := ⟨[], none⟩)
    (ci := exCounter) (c := exMetricCfg) (t0 := 1) ⟨true, some ⟨0, 0⟩⟩ exAround exAround_distinct _ .init hs
  refine ⟨s, t, log, hp, fun x hx => ?_, he.2.2, he.2.1, he.1⟩
  rcases hl x hx with hx | ⟨_, rfl⟩
  · cases hx
  · rfl

/-- Beside `overflow_cumulative`: the same with a cumulative store; the second collection has both sets in the overflow point. -/
theorem overflow_cumulative_example : ∃ (s : Store Nat Bool) (t : Nat) (log : List (Sending (PRequest Nat (PMetric Nat)))),
    Measured { exStoreOne with delta := false } (i64Sum false) Val.bool ⟨"", none, none, []⟩ ⟨[], none⟩ exCounter exMetricCfg 1 s t ⟨true, ()⟩ log ∧ AllOk log ∧
      s.done.map (·.points) = [[([(1, true)], 5), ([(0, true)], 6)], [([(1, true)], 5), ([(0, true)], 13)]] := by
  have h : (Conc.runAll { exStoreOne with delta := false } (.init { exStoreOne with delta := false }) [.call 0 5 [(1, true)], .thread 0, .thread 0, .call 0 6 [(2, true)],
      .thread 0, .thread 0, .collect, .collector [], .collector [([(1, true)], 0), ([(0, true)], 1)], .collector [], .collector [], .collector [],
      .call 0 7 [(3, true)], .thread 0, .thread 0, .collect, .collector [], .collector [([(1, true)], 0), ([(0, true)], 1)], .collector [], .collector [], .collector []]).map
      (fun s => s.done.map (·.points)) = some [[([(1, true)], 5), ([(0, true)], 6)], [([(1, true)], 5), ([(0, true)], 13)]] := by rfl
  obtain ⟨s, hs, he⟩ := Option.map_eq_some_iff.1 h
  obtain ⟨t, log, hp, hl⟩ := measured_of_run (st := i64Sum false) (val := Val.bool) (dflt := ⟨"", none, none, []⟩) (res := ⟨[], none⟩) (ci := exCounter) (c := exMetricCfg) (t0 := 1)
    ⟨true, some ⟨0, 0⟩⟩ exAround exAround_distinct _ .init hs
  refine ⟨s, t, log, hp, fun x hx => ?_, he⟩
  rcases hl x hx with hx | ⟨_, rfl⟩
  · cases hx
  · rfl

end Otel.EndToEnd
