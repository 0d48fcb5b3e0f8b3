import Verif.Metrics.ObservableRuns
import Verif.EndToEnd.Instruments
/-!
# From the callbacks of an observable instrument to the collector (C103)

The composition of C99 for observable instruments: a reader that collects runs the callbacks, reads the store, and exports. The store and the callbacks are those of
`Metrics/ObservableRuns.lean`; callbacks run by other readers observe into the same store at any time. Sources as in `Instruments.lean`;
opentelemetry-sdk/src/metrics/internal/precomputed_sum.rs.
-/

set_option linter.unusedSectionVars false

namespace Otel.EndToEnd
open Otel.Otlp Otel.Metrics
open Common (Val Scope)

variable {K V A X Y : Type} [LinearOrder K] [DecidableEq V]

/-- Callbacks, store, reader and exporter together; see `Measured`. -/
inductive Watched (cc : Conc.Cfg K V A X) (change : List (Attrs K V × A) → List (Attrs K V × A) → List (Attrs K V × A)) (st : Style K A) (val : V → Val) (dflt : Scope K)
    (res : ResVal K) (ci : CounterId K) (c : Exporter.Cfg Unit (Batch K) (PRequest K (PMetric K)) Y) (t0 : Nat) :
    Obs.State K V A X → Nat → Exporter.St Unit → List (Sending Y) → Prop
  | init : Watched cc change st val dflt res ci c t0 (.init cc) t0 ⟨true, ()⟩ []
  /-- a step that does not complete a collection -/
  | work {s s' t e log} (a : Obs.Act K V X) : Watched cc change st val dflt res ci c t0 s t e log → Obs.step cc change s a = some s' → s'.runs = s.runs →
      Watched cc change st val dflt res ci c t0 s' t e log
  /-- the collection is complete, and there is nothing in it -/
  | nothing {s s' t e log} (a : Obs.Act K V X) (x : Obs.Run K V A X) (o : Around K) :
      Watched cc change st val dflt res ci c t0 s t e log → Obs.step cc change s a = some s' → s'.runs = s.runs ++ [x] → o.Distinct ci →
      (timesOf cc.delta t o.now).1.1 = o.start → (gathered st cc.delta val dflt res ci o x.shown).scopeMetrics = [] →
      Watched cc change st val dflt res ci c t0 s' (timesOf cc.delta t o.now).2 e log
  /-- the collection is complete and is exported -/
  | export {s s' t e log} (a : Obs.Act K V X) (x : Obs.Run K V A X) (o : Around K) (w : Exporter.World) :
      Watched cc change st val dflt res ci c t0 s t e log → Obs.step cc change s a = some s' → s'.runs = s.runs ++ [x] → o.Distinct ci →
      (timesOf cc.delta t o.now).1.1 = o.start → (gathered st cc.delta val dflt res ci o x.shown).scopeMetrics ≠ [] →
      Watched cc change st val dflt res ci c t0 s' (timesOf cc.delta t o.now).2 e (log ++ [⟨w, (Exporter.doExport c e (gathered st cc.delta val dflt res ci o x.shown) w).1,
        (Exporter.doExport c e (gathered st cc.delta val dflt res ci o x.shown) w).2⟩])
  /-- the exporter is shut down -/
  | shut {s t e log} : Watched cc change st val dflt res ci c t0 s t e log → Watched cc change st val dflt res ci c t0 s t (Exporter.shutdown c e).2 log

/-! ## Specification -/

/-- The received points, one for each set that has a value now: a point tells the value now minus the value before (`z` if there was none). A point without attributes may
also be there without a value (C38, `spurious_point_violated`). -/
structure CarriesChanges {N : Type} (srt : Sorter K V) (val : V → Val) (tells : WPt K → N → Prop) (z : N) (sub : N → N → N) (now before : Attrs K V → Option N)
    (qs : List (WPt K)) : Prop where
  distinct : qs.Pairwise fun p q => ∀ a b, ReadsSet val p.attributes a → ReadsSet val q.attributes b → sortAndDedup srt a ≠ sortAndDedup srt b
  values : ∀ q ∈ qs, ∃ a, ReadsSet val q.attributes a ∧ (a ≠ [] → now a ≠ none) ∧ tells q (sub ((now a).getD z) ((before a).getD z))
  complete : ∀ a, now a ≠ none → ∃ q ∈ qs, ∃ b, ReadsSet val q.attributes b ∧ sortAndDedup srt b = sortAndDedup srt a

/-- The last value that the collection `x` found for a set. -/
def lastFound {N : Type} (srt : Sorter K V) (x : Obs.Run K V N N) (a : Attrs K V) : Option N := (Obs.found srt x.coll a).getLast?

/-! ## Lemmas -/

theorem watched_reachable {cc : Conc.Cfg K V A X} {change : List (Attrs K V × A) → List (Attrs K V × A) → List (Attrs K V × A)} {st : Style K A} {val : V → Val} {dflt : Scope K}
    {res : ResVal K} {ci : CounterId K} {c : Exporter.Cfg Unit (Batch K) (PRequest K (PMetric K)) Y} {t0 t : Nat} {s : Obs.State K V A X} {e : Exporter.St Unit}
    {log : List (Sending Y)} (h : Watched cc change st val dflt res ci c t0 s t e log) : Obs.Reachable cc change s := by
  induction h with
  | init => exact .init
  | work a _ hs _ ih => exact .step ih a hs
  | nothing a r o _ hs _ _ _ _ ih => exact .step ih a hs
  | «export» a r o w _ hs _ _ _ _ ih => exact .step ih a hs
  | shut _ ih => exact ih

/-- See `measured_heard`. -/
theorem watched_heard {cc : Conc.Cfg K V A X} {change : List (Attrs K V × A) → List (Attrs K V × A) → List (Attrs K V × A)} {st : Style K A} {val : V → Val} {dflt : Scope K}
    {res : ResVal K} {ci : CounterId K} {cast : Cast} {decode : Y → Option (PRequest K (PMetric K))} {c : Exporter.Cfg Unit (Batch K) (PRequest K (PMetric K)) Y}
    (hc : MetricCfg cast decode c) {t0 t : Nat} {s : Obs.State K V A X} {e : Exporter.St Unit} {log : List (Sending Y)}
    (h : Watched cc change st val dflt res ci c t0 s t e log) :
    ∃ all bs : List (Obs.Run K V A X × Around K), all.map Prod.fst = s.runs ∧
      (all.map fun x => (x.2.start, x.2.now)) = intervals (timesOf cc.delta) t0 (all.map (·.2.now)) ∧
      t = (all.map (·.2.now)).foldl (fun t n => (timesOf cc.delta t n).2) t0 ∧
      List.Sublist bs (all.filter fun x => !x.1.shown.isEmpty) ∧
      heard decode ci.name (requests log) = bs.map (fun x => saidOf cast st cc.delta val res ci x.2 x.1.shown) ∧
      (Exporter.TellsStatus c → AllOk log → bs = all.filter fun x => !x.1.shown.isEmpty) := by
  induction h with
  | init => exact ⟨[], [], rfl, rfl, rfl, List.Sublist.refl _, rfl, fun _ _ => rfl⟩
  | work a _ _ he ih => rw [he]; exact ih
  | shut _ ih => exact ih
  | nothing a r o _ _ he ho ht hn ih =>
    obtain ⟨all, bs, h1, h2, h3, h4, h5, h6⟩ := ih
    have hempty : r.shown = [] := by
      by_contra hp
      have := message_heard st cc.delta val dflt res ci o ho cast r.shown
      rw [if_neg hp, metricsMessage, metricsRequest, hn] at this
      simp [heardIn] at this
    have hf : (all ++ [(r, o)]).filter (fun x => !x.1.shown.isEmpty) = all.filter fun x => !x.1.shown.isEmpty := by
      rw [List.filter_append]; simp [hempty]
    refine ⟨all ++ [(r, o)], bs, by rw [he, List.map_append, h1]; rfl, ?_, ?_, by rw [hf]; exact h4, h5, by rw [hf]; exact h6⟩
    · rw [List.map_append, List.map_append, List.map_singleton, List.map_singleton, intervals_concat, ← h3, h2]
      congr 2
      exact Prod.ext ht.symm (timesOf_now ..).symm
    · rw [List.map_append, List.foldl_append, ← h3]; rfl
  | @«export» s s' t e log a r o w _ _ he ho ht hn ih =>
    obtain ⟨all, bs, h1, h2, h3, h4, h5, h6⟩ := ih
    have k2 : ((all ++ [(r, o)]).map fun x => (x.2.start, x.2.now)) = intervals (timesOf cc.delta) t0 ((all ++ [(r, o)]).map (·.2.now)) := by
      rw [List.map_append, List.map_append, List.map_singleton, List.map_singleton, intervals_concat, ← h3, h2]
      congr 2
      exact Prod.ext ht.symm (timesOf_now ..).symm
    have k3 : (timesOf cc.delta t o.now).2 = ((all ++ [(r, o)]).map (·.2.now)).foldl (fun t n => (timesOf cc.delta t n).2) t0 := by
      rw [List.map_append, List.foldl_append, ← h3]; rfl
    have hf : (all ++ [(r, o)]).filter (fun x => !x.1.shown.isEmpty) = (all.filter fun x => !x.1.shown.isEmpty) ++ if r.shown = [] then [] else [(r, o)] := by
      rw [List.filter_append]
      by_cases hp : r.shown = []
      · simp [hp]
      · simp [hp]
    generalize hb : gathered st cc.delta val dflt res ci o r.shown = b
    have hr : requests (log ++ [(⟨w, (Exporter.doExport c e b w).1, (Exporter.doExport c e b w).2⟩ : Sending Y)]) = requests log ++ (Exporter.doExport c e b w).2 := by
      rw [requests, List.flatMap_append]
      simp [requests]
    have hall : AllOk (log ++ [(⟨w, (Exporter.doExport c e b w).1, (Exporter.doExport c e b w).2⟩ : Sending Y)]) →
        AllOk log ∧ (Exporter.doExport c e b w).1 = .ok := fun ha =>
      ⟨fun x hx => ha x (by simp [hx]), ha ⟨w, _, (Exporter.doExport c e b w).2⟩ (by simp)⟩
    rcases Exporter.doExport_sent c e b w with hs | ⟨q, hs, henc, _⟩
    · refine ⟨all ++ [(r, o)], bs, by rw [he, List.map_append, h1]; rfl, k2, k3, ?_, ?_, fun ht ha => ?_⟩
      · rw [hf]; exact h4.trans (List.sublist_append_left _ _)
      · rw [hr, hs, List.append_nil]; exact h5
      · obtain ⟨_, q, hq, _⟩ := (Exporter.doExport_ok c ht e b w).1 (hall ha).2
        rw [hs] at hq
        cases hq
    · rw [hc.message] at henc
      refine ⟨all ++ [(r, o)], bs ++ (if r.shown = [] then [] else [(r, o)]), by rw [he, List.map_append, h1]; rfl, k2, k3, ?_, ?_, fun ht ha => ?_⟩
      · rw [hf]; exact h4.append (List.Sublist.refl _)
      · have hq : heard decode ci.name [q] = if r.shown = [] then [] else [saidOf cast st cc.delta val res ci o r.shown] := by
          simp only [heard, List.flatMap_cons, List.flatMap_nil, List.append_nil, hc.wire _ _ henc]
          rw [← hb]
          exact message_heard st cc.delta val dflt res ci o ho cast r.shown
        rw [hr, hs, heard, List.flatMap_append, List.map_append]
        congr 1
        rw [← heard, hq]
        by_cases hp : r.shown = []
        · simp [hp]
        · simp [hp]
      · rw [hf, h6 ht (hall ha).1]

/-- Where the points are those of the store, this is the composition of C99 with the callbacks as threads. -/
theorem watched_measured {cc : Conc.Cfg K V A X} {st : Style K A} {val : V → Val} {dflt : Scope K} {res : ResVal K} {ci : CounterId K}
    {c : Exporter.Cfg Unit (Batch K) (PRequest K (PMetric K)) Y} {t0 t : Nat} {s : Obs.State K V A X} {e : Exporter.St Unit} {log : List (Sending Y)}
    (h : Watched cc Obs.plain st val dflt res ci c t0 s t e log) : Measured cc st val dflt res ci c t0 s.st t e log := by
  induction h with
  | init => exact .init
  | shut _ ih => exact .shut ih
  | work a _ hs he ih =>
    rcases Obs.step_store hs with ⟨h1, _⟩ | ⟨b, h1, h2, _⟩ | ⟨b, made, r, h1, h2, h3, h4⟩
    · rw [h1]; exact ih
    · exact .work b ih h1 h2
    · rw [he] at h4
      have := congrArg List.length h4
      simp at this
  | nothing a x o _ hs he ho ht hn ih =>
    rcases Obs.step_store hs with ⟨_, h2, _⟩ | ⟨_, _, _, h2, _⟩ | ⟨b, made, r, h1, h2, h3, h4⟩
    · rw [he] at h2; have := congrArg List.length h2; simp at this
    · rw [he] at h2; have := congrArg List.length h2; simp at this
    · rw [he] at h4
      obtain rfl := List.singleton_injective (List.append_cancel_left h4)
      exact .nothing b r o ih h1 h2 ho ht hn
  | «export» a x o w _ hs he ho ht hn ih =>
    rcases Obs.step_store hs with ⟨_, h2, _⟩ | ⟨_, _, _, h2, _⟩ | ⟨b, made, r, h1, h2, h3, h4⟩
    · rw [he] at h2; have := congrArg List.length h2; simp at this
    · rw [he] at h2; have := congrArg List.length h2; simp at this
    · rw [he] at h4
      obtain rfl := List.singleton_injective (List.append_cancel_left h4)
      exact .export b r o w ih h1 h2 ho ht hn

/-- What the points of a delta collection of last values say, when the attributes are sorted. -/
theorem last_points {N : Type} {cc : Conc.Cfg K V N N} (hd : cc.delta = true) {z : N} (hagg : cc.agg = assign N z) {s : Conc.State K V N N} (hr : Conc.Reachable cc s)
    {L : List (Attrs K V)} (hL : L.length ≤ cc.limit) (hsets : ∀ e ∈ s.applied, e.2.2 ≠ [] → sortAndDedup cc.srt e.2.2 ∈ L) (hstrict : ∀ e ∈ s.applied, Strict e.2.2) :
    ∀ r ∈ s.done, (∀ p ∈ r.points, Strict p.1 ∧ p.2 = ((Obs.found cc.srt r p.1).getLast?).getD z ∧ (p.1 ≠ [] → Obs.found cc.srt r p.1 ≠ [])) ∧ (r.points.map Prod.fst).Nodup ∧
      (r.points.map fun p => sortAndDedup cc.srt p.1).Nodup ∧
      (∀ a, Obs.found cc.srt r a ≠ [] → ∃ p ∈ r.points, sortAndDedup cc.srt p.1 = sortAndDedup cc.srt a) ∧
      ∀ a, Strict a → (lookupReported r.points a).getD z = ((Obs.found cc.srt r a).getLast?).getD z := by
  intro r hrm
  have hp := Conc.delta_sets hd hr hL hsets r hrm
  have hk := (Obs.keys_reachable hr (P := Strict) (by simp [Strict]) (by simp [Strict]) (fun a _ => canon_strict cc.srt a) hstrict).done r hrm
  have hnd : (r.points.map Prod.fst).Nodup := by
    have := hp.distinct
    rw [List.map_congr_left (g := Prod.fst)] at this
    · exact this
    · intro p hp'; exact canon_of_strict cc.srt _ (hk p hp')
  have hval : ∀ p ∈ r.points, p.2 = ((Obs.found cc.srt r p.1).getLast?).getD z ∧ (p.1 ≠ [] → Obs.found cc.srt r p.1 ≠ []) := by
    intro p hpm
    obtain ⟨xs, ⟨h1, h2⟩, h3⟩ := hp.values p hpm
    rw [hagg, assign_foldl, h1] at h3
    rw [h1] at h2
    exact ⟨h3, h2.1⟩
  refine ⟨fun p hpm => ⟨hk p hpm, hval p hpm⟩, hnd, hp.distinct, fun a ha => hp.complete a ha, fun a ha => ?_⟩
  cases hl : lookupReported r.points a with
  | some v =>
    obtain ⟨p, hp', rfl⟩ := Option.map_eq_some_iff.1 hl
    have h1 := List.mem_of_find?_eq_some hp'
    have h2 : p.1 = a := by simpa using List.find?_some hp'
    rw [← h2]
    exact (hval p h1).1
  | none =>
    by_cases hf : Obs.found cc.srt r a = []
    · rw [hf]; rfl
    · obtain ⟨p, hpm, hpa⟩ := hp.complete a hf
      rw [canon_of_strict cc.srt _ (hk p hpm), canon_of_strict cc.srt _ ha] at hpa
      have := lookup_nodup _ hnd p hpm
      rw [hpa, hl] at this
      cases this

/-- A pair of the list with predecessors: both are in the list. -/
theorem afterEach_mem {α : Type} {p : Option α} {l : List α} {x : Option α × α} (h : x ∈ Obs.afterEach p l) : x.2 ∈ l ∧ (x.1 = p ∨ ∃ y ∈ l, x.1 = some y) := by
  induction l generalizing p with
  | nil => cases h
  | cons y l ih =>
    rcases List.mem_cons.1 h with rfl | h
    · exact ⟨List.mem_cons_self, .inl rfl⟩
    · obtain ⟨h1, h2⟩ := ih h
      refine ⟨List.mem_cons_of_mem _ h1, .inr ?_⟩
      rcases h2 with h2 | ⟨z, hz, h2⟩
      · exact ⟨y, List.mem_cons_self, h2⟩
      · exact ⟨z, List.mem_cons_of_mem _ hz, h2⟩

theorem afterEach_map {α β : Type} (f : α → β) (p : Option α) (l : List α) : (Obs.afterEach p l).map (fun x => (x.1.map f, f x.2)) = Obs.afterEach (p.map f) (l.map f) := by
  induction l generalizing p with
  | nil => rfl
  | cons x l ih => rw [Obs.afterEach, List.map_cons, List.map_cons, Obs.afterEach, ih]; rfl

/-- What a run shows. -/
theorem run_carries {N : Type} {cc : Conc.Cfg K V N N} (hd : cc.delta = true) {z : N} (hagg : cc.agg = assign N z) {sub : N → N → N} {s : Obs.State K V N N}
    (hr : Obs.Reachable cc (Obs.changes z sub) s) {L : List (Attrs K V)} (hL : L.length ≤ cc.limit) (hsets : ∀ e ∈ s.st.applied, e.2.2 ≠ [] → sortAndDedup cc.srt e.2.2 ∈ L)
    (hstrict : ∀ e ∈ s.st.applied, Strict e.2.2) {val : V → Val} (hinj : Function.Injective val) (hplain : ∀ v, NotEmptyArray (val v)) {f : List (K × Val) → N → WPt K}
    (hattr : ∀ kvs x, (f kvs x).attributes = attributes kvs) {tells : WPt K → N → Prop} (htells : ∀ kvs x, tells (f kvs x) x) :
    ∀ x ∈ Obs.afterEach none s.runs, CarriesChanges cc.srt val tells z sub (lastFound cc.srt x.2) (fun a => x.1.bind fun y => lastFound cc.srt y a)
      (x.2.shown.map fun p => f (kvsOf val p.1) p.2) := by
  intro x hx
  have hi := Obs.runs_reachable hr
  obtain ⟨hm2, hm1⟩ := afterEach_mem hx
  have hdone : ∀ y ∈ s.runs, y.coll ∈ s.st.done := fun y hy => by rw [← hi.colls]; exact List.mem_map_of_mem hy
  have hlast := last_points hd hagg (Obs.reachable_store hr) hL hsets hstrict
  obtain ⟨l1, l2, l3, l4, _⟩ := hlast x.2.coll (hdone x.2 hm2)
  have hold : ∀ a, Strict a → (lookupReported ((x.1.map (·.coll.points)).getD []) a).getD z = ((x.1.bind fun y => lastFound cc.srt y a)).getD z := by
    intro a ha
    rcases hm1 with hm1 | ⟨y, hy, hm1⟩
    · rw [hm1]; rfl
    · rw [hm1]
      exact (hlast y.coll (hdone y hy)).2.2.2.2 a ha
  rw [hi.shown x hx, Obs.changes, List.map_map]
  have hread : ∀ p : Attrs K V × N, ∀ v : N, ReadsSet val (f (kvsOf val p.1) v).attributes p.1 := fun p v => by
    rw [hattr]
    exact readAttrs_attributes fun kv hkv => by
      obtain ⟨kv', _, rfl⟩ := List.mem_map.1 hkv
      exact hplain _
  refine ⟨?_, fun q hq => ?_, fun a ha => ?_⟩
  · rw [List.Nodup, List.pairwise_map] at l3
    rw [List.pairwise_map]
    refine l3.imp fun {p q} hpq a b ha hb => ?_
    rw [CarriesPoints.readsOne hinj ha (hread p _), CarriesPoints.readsOne hinj hb (hread q _)]
    exact hpq
  · obtain ⟨p, hp, rfl⟩ := List.mem_map.1 hq
    obtain ⟨k1, k2, k3⟩ := l1 p hp
    refine ⟨p.1, hread p _, fun hne => ?_, ?_⟩
    · rw [lastFound, ne_eq, List.getLast?_eq_none_iff]; exact k3 hne
    · rw [lastFound, ← k2, ← hold p.1 k1]
      exact htells _ _
  · obtain ⟨p, hp, hpa⟩ := l4 a fun h0 => ha (by rw [lastFound, h0]; rfl)
    exact ⟨_, List.mem_map_of_mem hp, p.1, hread p _, hpa⟩

theorem sublist_afterEach {α : Type} {p : Option α} {bs l : List α} (h : List.Sublist bs l) : ∃ cs, List.Sublist cs (Obs.afterEach p l) ∧ cs.map Prod.snd = bs := by
  induction h generalizing p with
  | slnil => exact ⟨[], .slnil, rfl⟩
  | cons x _ ih => obtain ⟨cs, h1, h2⟩ := ih (p := some x); exact ⟨cs, h1.cons _, h2⟩
  | cons_cons x _ ih => obtain ⟨cs, h1, h2⟩ := ih (p := some x); exact ⟨(p, x) :: cs, h1.cons_cons _, by rw [List.map_cons, h2]⟩

/-! ## C103 -/

/-- C103: observable counters and up-down counters with delta temporality, for every schedule of the reader, of its callbacks and of those that other readers run, and whatever
the network does: the times of the collections follow each other without gaps; the collector receives a metric for some of them, in order, for all that have points if every
export succeeded; each is the instrument's and has exactly one point for each set of attributes that was observed, that tells the value observed last minus the one observed
last before the previous collection; every set that the callbacks of a collection observe is in it. If no other reader runs the callbacks these are the values that the
callbacks observed in this collection and in the one before. Conditions: at most as many sets as the limit, attributes sorted by key and without repeated keys (C43), values
that are not empty arrays (C52). -/
theorem observable_changes_partial {N : Type} {cc : Conc.Cfg K V N N} (hd : cc.delta = true) {z : N} (hagg : cc.agg = assign N z) {sub : N → N → N} {st : Style K N} (hfit : st.Fit)
    (hkeep : st.Keeps) {val : V → Val} (hinj : Function.Injective val) (hplain : ∀ v, NotEmptyArray (val v)) {dflt : Scope K} {res : ResVal K} {ci : CounterId K} {cast : Cast}
    {decode : Y → Option (PRequest K (PMetric K))} {c : Exporter.Cfg Unit (Batch K) (PRequest K (PMetric K)) Y} (hc : MetricCfg cast decode c) {tells : WPt K → N → Prop}
    (htells : ∀ start now kvs x, tells (wireOf cast st.kind start now (st.point kvs x)) x) {t0 t : Nat} {s : Obs.State K V N N} {e : Exporter.St Unit} {log : List (Sending Y)}
    (h : Watched cc (Obs.changes z sub) st val dflt res ci c t0 s t e log) {L : List (Attrs K V)} (hL : L.length ≤ cc.limit)
    (hsets : ∀ e ∈ s.st.applied, e.2.2 ≠ [] → sortAndDedup cc.srt e.2.2 ∈ L) (hstrict : ∀ e ∈ s.st.applied, Strict e.2.2) :
    ∃ (all : List (Obs.Run K V N N × Around K)) (bs : List (Option (Obs.Run K V N N × Around K) × (Obs.Run K V N N × Around K))), all.map Prod.fst = s.runs ∧
      (all.map fun x => (x.2.start, x.2.now)) = intervals timeDelta t0 (all.map (·.2.now)) ∧ List.Sublist bs (Obs.afterEach none all) ∧
      (Exporter.TellsStatus c → AllOk log → bs.map Prod.snd = all.filter fun x => !x.1.shown.isEmpty) ∧
      List.Forall₂ (fun x m => Names st.kind true res ci x.2.2.start x.2.2.now m ∧
        CarriesChanges cc.srt val tells z sub (lastFound cc.srt x.2.1) (fun a => x.1.bind fun y => lastFound cc.srt y.1 a) (wpoints m.metric.data)) bs
        (heard decode ci.name (requests log)) ∧
      (∀ x ∈ all, ∀ a, (Obs.observed cc.srt x.1.made a).Sublist (Obs.found cc.srt x.1.coll a)) ∧
      (Obs.Alone s → ∀ x ∈ all, ∀ a, lastFound cc.srt x.1 a = (Obs.observed cc.srt x.1.made a).getLast?) := by
  obtain ⟨all, bs, h1, h2, _, h4, h5, h6⟩ := watched_heard hc h
  have hr := watched_reachable h
  have htimes : timesOf cc.delta = timeDelta := by rw [hd]; rfl
  have hcall := Obs.delta_tells_callbacks hd hr
  have hmem : ∀ x ∈ all, x.1 ∈ s.runs := fun x hx => by rw [← h1]; exact List.mem_map_of_mem hx
  obtain ⟨cs, k1, k2⟩ := sublist_afterEach (p := none) (h4.trans List.filter_sublist)
  refine ⟨all, cs, h1, by rw [h2, htimes], k1, fun ht ha => by rw [k2]; exact h6 ht ha, ?_, fun x hx a => (hcall x.1 (hmem x hx) a).1,
    fun al x hx a => by rw [lastFound, ((hcall x.1 (hmem x hx) a).2 al).1]⟩
  rw [h5, ← k2, List.map_map]
  refine forall₂_map_self fun x hx => ⟨by rw [hd]; exact said_names cast st hfit true val res ci x.2.2 x.2.1.shown, ?_⟩
  have hx' : (x.1.map Prod.fst, x.2.1) ∈ Obs.afterEach none s.runs := by
    have := List.mem_map_of_mem (f := fun y => (y.1.map Prod.fst, y.2.1)) (k1.subset hx)
    rw [afterEach_map (f := Prod.fst), h1] at this
    exact this
  have := run_carries hd hagg hr hL hsets hstrict hinj hplain (f := fun kvs x' => wireOf cast st.kind x.2.2.start x.2.2.now (st.point kvs x')) (hkeep _ _ _)
    (tells := tells) (fun kvs x' => htells _ _ kvs x') _ hx'
  simp only [Function.comp]
  rw [said_points cast st hfit]
  convert this using 2
  cases x.1 <;> rfl

/-! ## The values that the callbacks observed -/

/-- A list with what comes before each element. -/
def soFar {α : Type} : List α → List α → List (List α × α)
  | _, [] => []
  | pre, x :: l => (pre, x) :: soFar (pre ++ [x]) l

theorem soFar_mem {α : Type} {pre l : List α} {x : List α × α} (h : x ∈ soFar pre l) : ∃ post, pre ++ l = x.1 ++ x.2 :: post := by
  induction l generalizing pre with
  | nil => cases h
  | cons y l ih =>
    rcases List.mem_cons.1 h with rfl | h
    · exact ⟨l, rfl⟩
    · obtain ⟨post, hp⟩ := ih h
      exact ⟨post, by rw [← hp, List.append_assoc]; rfl⟩

theorem sublist_soFar {α : Type} {pre bs l : List α} (h : List.Sublist bs l) : ∃ cs, List.Sublist cs (soFar pre l) ∧ cs.map Prod.snd = bs := by
  induction h generalizing pre with
  | slnil => exact ⟨[], .slnil, rfl⟩
  | cons x _ ih => obtain ⟨cs, h1, h2⟩ := ih (pre := pre ++ [x]); exact ⟨cs, h1.cons _, h2⟩
  | cons_cons x _ ih => obtain ⟨cs, h1, h2⟩ := ih (pre := pre ++ [x]); exact ⟨(pre, x) :: cs, h1.cons_cons _, by rw [List.map_cons, h2]⟩

/-- What a collection tells: with delta temporality, what its callbacks observed; with cumulative temporality, also what was observed before. -/
def toldBy (delta : Bool) (pre : List (Obs.Run K V A X)) (x : Obs.Run K V A X) : List (X × Attrs K V) := if delta then x.made else pre.flatMap (·.made) ++ x.made

/-- What the points of a collection are, if only this reader runs the callbacks. -/
theorem run_tells {cc : Conc.Cfg K V A X} {change : List (Attrs K V × A) → List (Attrs K V × A) → List (Attrs K V × A)} {s : Obs.State K V A X}
    (hr : Obs.Reachable cc change s) (al : Obs.Alone s) {L : List (Attrs K V)} (hL : L.length ≤ cc.limit)
    (hsets : ∀ e ∈ s.st.applied, e.2.2 ≠ [] → sortAndDedup cc.srt e.2.2 ∈ L) {pre post : List (Obs.Run K V A X)} {x : Obs.Run K V A X} (hs : s.runs = pre ++ x :: post) :
    Conc.PointsOf cc.srt cc.agg (fun a xs => xs = Obs.observed cc.srt (toldBy cc.delta pre x) a ∧ xs ≠ []) (fun a => Obs.observed cc.srt (toldBy cc.delta pre x) a ≠ [])
      x.coll.points := by
  have hx : x ∈ s.runs := by rw [hs]; simp
  have hdone : x.coll ∈ s.st.done := by rw [← (Obs.runs_reachable hr).colls]; exact List.mem_map_of_mem hx
  cases hd : cc.delta with
  | true =>
    have hp := Conc.delta_sets hd (Obs.reachable_store hr) hL hsets x.coll hdone
    have hc := fun a => (Obs.delta_tells_callbacks hd hr x hx a).2 al
    refine ⟨hp.distinct, fun p hpm => ?_, fun a ha => hp.complete a ?_⟩
    · obtain ⟨xs, ⟨h1, h2, h3⟩, h4⟩ := hp.values p hpm
      refine ⟨xs, ⟨by rw [h1]; exact (hc p.1).1, fun h0 => ?_⟩, h4⟩
      by_cases hnil : p.1 = []
      · have h5 := h3 hnil
        rw [hnil, Conc.setValues, if_pos rfl, h0] at h1
        cases hv : x.coll.noVals with
        | none => exact h5 hv
        | some vs =>
          rw [hv] at h1
          refine (hc []).2 ?_
          rw [hv, show vs = [] from List.map_eq_nil_iff.1 h1.symm]
      · exact h2 hnil h0
    · rw [Conc.deltaMust]
      have := (hc a).1
      rw [Obs.found] at this
      rw [this]
      exact ha
  | false =>
    have hp := Conc.cumulative_sets hd (Obs.reachable_store hr) hL hsets x.coll hdone
    have hc := fun a => (Obs.cumulative_tells_callbacks hd hr pre x post hs a).2 al
    refine ⟨hp.distinct, fun p hpm => ?_, fun a ha => hp.complete a ?_⟩
    · obtain ⟨xs, ⟨h', no, g1, g2, g3, g4, g5⟩, h4⟩ := hp.values p hpm
      have he : h' = x.coll.startHist := by
        rw [(hc p.1).2.1] at g2
        exact g2.eq_of_length (Nat.le_antisymm g2.length_le g1.length_le)
      subst he
      by_cases hnil : p.1 = []
      · have hv := g3 hnil
        have hx' : xs = Conc.setValues cc.srt x.coll.startHist (x.coll.noVals.getD []) p.1 := by rw [g4, hv]; rfl
        refine ⟨xs, ⟨hx'.trans (hc p.1).1, fun h0 => ?_⟩, h4⟩
        rw [h0, hnil, Conc.setValues, if_pos rfl, hv] at hx'
        refine (hc []).2.2 ?_
        rw [hv, show no = [] from List.map_eq_nil_iff.1 hx'.symm]
      · refine ⟨xs, ⟨?_, g5 hnil⟩, h4⟩
        rw [g4, ← show _ = Obs.observed cc.srt (toldBy false pre x) p.1 from (hc p.1).1, Conc.setValues, Conc.setValues, if_neg hnil, if_neg hnil]
    · rw [Conc.cumMust, (hc a).1]; exact ha

/-- C103: observable gauges, observable counters with cumulative temporality, and observable instruments with any other aggregation, when no other reader runs the callbacks,
for every schedule and whatever the network does: the collector receives a metric for some of the collections, in order, for all that have points if every export succeeded;
each is the instrument's, and has exactly one point for each set of attributes observed by its callbacks (with cumulative temporality, also by those of earlier collections),
which tells what they observed, in order. For at most as many sets as the limit, and attribute values that are not empty arrays (C52). With callbacks run by other readers,
`watched_measured` makes it an instance of C99. -/
theorem observable_values_partial {cc : Conc.Cfg K V A X} {st : Style K A} (hfit : st.Fit) (hkeep : st.Keeps) {val : V → Val} (hinj : Function.Injective val)
    (hplain : ∀ v, NotEmptyArray (val v)) {dflt : Scope K} {res : ResVal K} {ci : CounterId K} {cast : Cast} {decode : Y → Option (PRequest K (PMetric K))}
    {c : Exporter.Cfg Unit (Batch K) (PRequest K (PMetric K)) Y} (hc : MetricCfg cast decode c) {reads : WPt K → List X → Prop}
    (hreads : ∀ start now kvs xs, xs ≠ [] → reads (wireOf cast st.kind start now (st.point kvs (xs.foldl cc.agg.update cc.agg.create))) xs) {t0 t : Nat}
    {s : Obs.State K V A X} {e : Exporter.St Unit} {log : List (Sending Y)} (h : Watched cc Obs.plain st val dflt res ci c t0 s t e log) (al : Obs.Alone s) {L : List (Attrs K V)}
    (hL : L.length ≤ cc.limit) (hsets : ∀ e ∈ s.st.applied, e.2.2 ≠ [] → sortAndDedup cc.srt e.2.2 ∈ L) :
    ∃ (all : List (Obs.Run K V A X × Around K)) (bs : List (List (Obs.Run K V A X × Around K) × (Obs.Run K V A X × Around K))), all.map Prod.fst = s.runs ∧
      (all.map fun x => (x.2.start, x.2.now)) = intervals (timesOf cc.delta) t0 (all.map (·.2.now)) ∧ List.Sublist bs (soFar [] all) ∧
      (Exporter.TellsStatus c → AllOk log → bs.map Prod.snd = all.filter fun x => !x.1.shown.isEmpty) ∧
      List.Forall₂ (fun x m => Names st.kind cc.delta res ci x.2.2.start x.2.2.now m ∧
        CarriesPoints cc.srt val reads (fun a xs => xs = Obs.observed cc.srt (toldBy cc.delta (x.1.map Prod.fst) x.2.1) a ∧ xs ≠ [])
          (fun a => Obs.observed cc.srt (toldBy cc.delta (x.1.map Prod.fst) x.2.1) a ≠ []) (wpoints m.metric.data)) bs (heard decode ci.name (requests log)) := by
  obtain ⟨all, bs, h1, h2, _, h4, h5, h6⟩ := watched_heard hc h
  have hr := watched_reachable h
  obtain ⟨cs, k1, k2⟩ := sublist_soFar (pre := []) (h4.trans List.filter_sublist)
  refine ⟨all, cs, h1, h2, k1, fun ht ha => by rw [k2]; exact h6 ht ha, ?_⟩
  rw [h5, ← k2, List.map_map]
  refine forall₂_map_self fun x hx => ⟨said_names cast st hfit cc.delta val res ci x.2.2 x.2.1.shown, ?_⟩
  obtain ⟨post, hp⟩ := soFar_mem (k1.subset hx)
  have hruns : s.runs = x.1.map Prod.fst ++ x.2.1 :: post.map Prod.fst := by
    rw [← h1, show all = x.1 ++ x.2 :: post from hp, List.map_append]; rfl
  have hshown : x.2.1.shown = x.2.1.coll.points := by
    have hm : x.2.1 ∈ (Obs.afterEach none s.runs).map Prod.snd := by rw [Obs.afterEach_snd, hruns]; simp
    obtain ⟨y, hy, hyx⟩ := List.mem_map.1 hm
    have := (Obs.runs_reachable hr).shown y hy
    rw [hyx] at this
    exact this
  simp only [Function.comp]
  rw [said_points cast st hfit, hshown]
  exact carries_of hinj hplain (f := fun kvs x' => wireOf cast st.kind x.2.2.start x.2.2.now (st.point kvs x')) (hkeep _ _ _) (fun kvs _ xs hok => hreads _ _ kvs xs hok.2)
    (run_tells hr al hL hsets hruns)

/-! ## The instruments -/

/-- C103: an observable counter of `u64` values: the point is the number, if that is less than 2^63 (C54). -/
theorem u64_tells (cast : Cast) (mono : Bool) (start now : Nat) (kvs : List (K × Val)) (x : BitVec 64) :
    x.toNat < 2 ^ 63 → TellsInt (wireOf cast (u64Sum (K := K) mono).kind start now ((u64Sum mono).point kvs x)) x.toNat := fun hb =>
  ⟨_, rfl, number_exact_partial (n := .u64 x) (by rw [Num.Fits]; exact hb)⟩

/-- C103: an observable up-down counter of `i64` values. -/
theorem i64_tells (cast : Cast) (mono : Bool) (start now : Nat) (kvs : List (K × Val)) (x : BitVec 64) :
    TellsInt (wireOf cast (i64Sum (K := K) mono).kind start now ((i64Sum mono).point kvs x)) x.toInt := ⟨_, rfl, rfl⟩

/-- C103: an observable counter of doubles. -/
theorem f64_tells (cast : Cast) (mono : Bool) (start now : Nat) (kvs : List (K × Val)) (x : BitVec 64) :
    TellsDouble (wireOf cast (f64Sum (K := K) mono).kind start now ((f64Sum mono).point kvs x)) x := ⟨_, rfl, rfl⟩

/-- The last of some values. -/
def TellsLast {N : Type} (tells : WPt K → N → Prop) (q : WPt K) (xs : List N) : Prop := ∃ x, xs.getLast? = some x ∧ tells q x

/-- C103: in `observable_values_partial`, sums and gauges tell the value observed last. -/
theorem assign_reads {N : Type} (cast : Cast) {st : Style K N} {tells : WPt K → N → Prop} (htells : ∀ start now kvs x, tells (wireOf cast st.kind start now (st.point kvs x)) x) (z : N)
    (start now : Nat) (kvs : List (K × Val)) (xs : List N) (hne : xs ≠ []) :
    TellsLast tells (wireOf cast st.kind start now (st.point kvs (xs.foldl (assign N z).update (assign N z).create))) xs := by
  refine ⟨xs.getLast hne, List.getLast?_eq_some_getLast hne, ?_⟩
  rw [assign_foldl, List.getLast?_eq_some_getLast hne]
  exact htells ..

theorem found_same {srt : Sorter K V} {r : Conc.Collection K V A X} {a b : Attrs K V} (h : sortAndDedup srt a = sortAndDedup srt b) : Obs.found srt r a = Obs.found srt r b := by
  have hnil : a = [] ↔ b = [] := by rw [← canon_eq_nil srt a, ← canon_eq_nil srt b, h]
  simp only [Obs.found, Conc.setValues, h, hnil]

theorem sum_afterEach {α : Type} (f : α → Int) (p : Option α) (l : List α) :
    ((Obs.afterEach p l).map fun x => f x.2 - (x.1.map f).getD 0).sum = ((l.getLast?.or p).map f).getD 0 - (p.map f).getD 0 := by
  induction l generalizing p with
  | nil => simp [Obs.afterEach]
  | cons x l ih =>
    rw [Obs.afterEach, List.map_cons, List.sum_cons, ih]
    cases l with
    | nil => simp
    | cons y l =>
      rw [List.getLast?_cons_cons]
      obtain ⟨w, hw⟩ : ∃ w, (y :: l).getLast? = some w := ⟨_, List.getLast?_eq_some_getLast (by simp)⟩
      rw [hw]
      simp

/-- Each value is at least the one before. -/
def NeverLess {α : Type} (f : α → Nat) (l : List α) : Prop := ∀ x ∈ Obs.afterEach none l, ∀ y, x.1 = some y → f y ≤ f x.2

/-- C103: an observable counter with delta temporality whose value for a set is observed in every collection and does not decrease: if every export succeeded, the numbers that
the collector receives for the set add up to the value observed last. -/
theorem changes_add_up {cc : Conc.Cfg K V (BitVec 64) (BitVec 64)} (hd : cc.delta = true) (hagg : cc.agg = assign (BitVec 64) 0) (mono : Bool) {val : V → Val}
    (hinj : Function.Injective val) (hplain : ∀ v, NotEmptyArray (val v)) {dflt : Scope K} {res : ResVal K} {ci : CounterId K} {cast : Cast}
    {decode : Y → Option (PRequest K (PMetric K))} {c : Exporter.Cfg Unit (Batch K) (PRequest K (PMetric K)) Y} (hc : MetricCfg cast decode c) {t0 t : Nat}
    {s : Obs.State K V (BitVec 64) (BitVec 64)} {e : Exporter.St Unit} {log : List (Sending Y)}
    (h : Watched cc (Obs.changes 0 (· - ·)) (u64Sum mono) val dflt res ci c t0 s t e log) {L : List (Attrs K V)} (hL : L.length ≤ cc.limit)
    (hsets : ∀ e ∈ s.st.applied, e.2.2 ≠ [] → sortAndDedup cc.srt e.2.2 ∈ L) (hstrict : ∀ e ∈ s.st.applied, Strict e.2.2) (ht : Exporter.TellsStatus c) (hok : AllOk log)
    (al : Obs.Alone s) {a : Attrs K V} {f : Obs.Run K V (BitVec 64) (BitVec 64) → Nat}
    (hf : ∀ x ∈ s.runs, ∃ v, (Obs.observed cc.srt x.made a).getLast? = some v ∧ v.toNat = f x ∧ f x < 2 ^ 63) (hmono : NeverLess f s.runs) :
    ∃ is : List Int, List.Forall₂ (fun m i => ∃ q ∈ wpoints m.metric.data, ∃ b, ReadsSet val q.attributes b ∧ sortAndDedup cc.srt b = sortAndDedup cc.srt a ∧ TellsInt q i)
      (heard decode ci.name (requests log)) is ∧ is.length = s.runs.length ∧ is.sum = (s.runs.getLast?.map f).getD 0 := by
  obtain ⟨all, bs, h1, _, h3, h4, h5, _, h7⟩ := observable_changes_partial hd hagg (u64Sum_ok mono).1 (u64Sum_ok mono).2 hinj hplain hc
    (tells := fun q x => x.toNat < 2 ^ 63 → TellsInt q x.toNat) (fun start now kvs x => u64_tells cast mono start now kvs x) h hL hsets hstrict
  have hr := watched_reachable h
  have hi := Obs.runs_reachable hr
  have hmem : ∀ x ∈ all, x.1 ∈ s.runs := fun x hx => by rw [← h1]; exact List.mem_map_of_mem hx
  have hlast : ∀ x ∈ all, ∃ v, lastFound cc.srt x.1 a = some v ∧ v.toNat = f x.1 ∧ f x.1 < 2 ^ 63 := fun x hx => by
    obtain ⟨v, g1, g2⟩ := hf x.1 (hmem x hx)
    exact ⟨v, by rw [h7 al x hx]; exact g1, g2⟩
  have hne : ∀ x ∈ all, x.1.shown ≠ [] := fun x hx hsh => by
    have hm : x.1 ∈ (Obs.afterEach none s.runs).map Prod.snd := by rw [Obs.afterEach_snd]; exact hmem x hx
    obtain ⟨y, hy, hyx⟩ := List.mem_map.1 hm
    have hs := hi.shown y hy
    rw [hyx, hsh] at hs
    have hp := List.map_eq_nil_iff.1 hs.symm
    obtain ⟨v, g1, _⟩ := hlast x hx
    have hfd : Obs.found cc.srt x.1.coll a ≠ [] := fun h0 => by rw [lastFound, h0] at g1; cases g1
    have hdone : x.1.coll ∈ s.st.done := by rw [← hi.colls]; exact List.mem_map_of_mem (hmem x hx)
    obtain ⟨p, hpm, _⟩ := (last_points hd hagg (Obs.reachable_store hr) hL hsets hstrict x.1.coll hdone).2.2.2.1 a hfd
    rw [hp] at hpm
    cases hpm
  have hbs : bs = Obs.afterEach none all := by
    refine h3.eq_of_length ?_
    have e1 := congrArg List.length (h4 ht hok)
    have e2 := congrArg List.length (Obs.afterEach_snd none all)
    rw [List.length_map] at e1 e2
    rw [e1, e2, List.filter_eq_self.2 fun x hx => by simp [hne x hx]]
  rw [hbs] at h5
  refine ⟨(Obs.afterEach none all).map fun x => (f x.2.1 : Int) - (x.1.map fun y => (f y.1 : Int)).getD 0, ?_, ?_, ?_⟩
  · refine List.Forall₂.flip ?_
    have hin : ∀ x ∈ bs, x ∈ Obs.afterEach none all := fun x hx => by rw [← hbs]; exact hx
    rw [← hbs]
    rw [← hbs] at h5
    generalize heard decode ci.name (requests log) = ms at h5
    clear hbs h4 h3
    induction h5 with
    | nil => exact .nil
    | @cons x m l ms hx _ ih =>
      rw [List.map_cons]
      refine .cons ?_ (ih fun y hy => hin y (List.mem_cons_of_mem _ hy))
      have hxm := hin x List.mem_cons_self
      obtain ⟨hm2, hm1⟩ := afterEach_mem hxm
      obtain ⟨v, g1, g2, g3⟩ := hlast x.2 hm2
      obtain ⟨q, hq, b, hb1, hb2⟩ := hx.2.complete a (by rw [g1]; simp)
      refine ⟨q, hq, b, hb1, hb2, ?_⟩
      obtain ⟨a', k1, _, k3⟩ := hx.2.values q hq
      obtain rfl := CarriesPoints.readsOne hinj k1 hb1
      have hsame : ∀ y : Obs.Run K V (BitVec 64) (BitVec 64), lastFound cc.srt y a' = lastFound cc.srt y a := fun y => by rw [lastFound, lastFound, found_same hb2]
      simp only [hsame, g1, Option.getD_some] at k3
      rcases hm1 with hm1 | ⟨y, hy, hm1⟩
      · rw [hm1] at k3 ⊢
        simp only [Option.bind_none, Option.getD_none, Option.map_none, sub_zero] at k3 ⊢
        rw [show v - 0 = v from BitVec.sub_zero v] at k3
        rw [← g2]
        exact k3 (by omega)
      · obtain ⟨u, g4, g5, g6⟩ := hlast y hy
        have hle : f y.1 ≤ f x.2.1 := by
          have hx' : (x.1.map Prod.fst, x.2.1) ∈ Obs.afterEach none s.runs := by
            have := List.mem_map_of_mem (f := fun y => (y.1.map Prod.fst, y.2.1)) hxm
            rw [afterEach_map (f := Prod.fst), h1] at this
            exact this
          exact hmono _ hx' y.1 (by rw [hm1]; rfl)
        rw [hm1] at k3 ⊢
        simp only [Option.bind_some, g4, Option.getD_some, Option.map_some] at k3 ⊢
        have hsub : (v - u).toNat = v.toNat - u.toNat := BitVec.toNat_sub_of_le (by rw [BitVec.le_def]; omega)
        have := k3 (by rw [hsub]; omega)
        rw [hsub] at this
        convert this using 1
        omega
  · have e2 := congrArg List.length (Obs.afterEach_snd none all)
    rw [List.length_map] at e2
    rw [List.length_map, e2, ← h1, List.length_map]
  · rw [sum_afterEach (fun x : Obs.Run K V (BitVec 64) (BitVec 64) × Around K => (f x.1 : Int)), ← h1, List.getLast?_map]
    cases all.getLast? <;> simp

/-! ## The hypotheses are met, and where the property fails -/

theorem step_runs {cc : Conc.Cfg K V A X} {change : List (Attrs K V × A) → List (Attrs K V × A) → List (Attrs K V × A)} {s s' : Obs.State K V A X} {a : Obs.Act K V X}
    (h : Obs.step cc change s a = some s') : s'.runs = s.runs ∨ ∃ x, s'.runs = s.runs ++ [x] := by
  cases a <;> simp only [Obs.step] at h <;> split at h <;> try cases h
  all_goals try (obtain ⟨st, _, rfl⟩ := Option.map_eq_some_iff.1 h; exact .inl rfl)
  · exact .inl rfl
  · obtain ⟨st, _, rfl⟩ := Option.map_eq_some_iff.1 h
    split
    · exact .inr ⟨_, rfl⟩
    · exact .inl rfl

/-- See `measured_of_run`. -/
theorem watched_of_run {cc : Conc.Cfg K V A X} {change : List (Attrs K V × A) → List (Attrs K V × A) → List (Attrs K V × A)} {st : Style K A} {val : V → Val} {dflt : Scope K}
    {res : ResVal K} {ci : CounterId K} {c : Exporter.Cfg Unit (Batch K) (PRequest K (PMetric K)) Y} (w : Exporter.World) (o : Around K) (ho : o.Distinct ci) {t0 : Nat}
    (as : List (Obs.Act K V X)) {s s' : Obs.State K V A X} {t : Nat} {log : List (Sending Y)} (h : Watched cc change st val dflt res ci c t0 s t ⟨true, ()⟩ log)
    (hr : Obs.runAll cc change s as = some s') :
    ∃ t' log', Watched cc change st val dflt res ci c t0 s' t' ⟨true, ()⟩ log' ∧
      ∀ x ∈ log', x ∈ log ∨ ∃ b, x = ⟨w, (Exporter.doExport c ⟨true, ()⟩ b w).1, (Exporter.doExport c ⟨true, ()⟩ b w).2⟩ := by
  induction as generalizing s t log with
  | nil => simp only [Obs.runAll, Option.some.injEq] at hr; subst hr; exact ⟨t, log, h, fun x hx => .inl hx⟩
  | cons a as ih =>
    simp only [Obs.runAll] at hr
    split at hr
    · rename_i s1 hs1
      rcases step_runs hs1 with hd | ⟨r, hd⟩
      · exact ih (.work a h hs1 hd) hr
      · let o' : Around K := { o with start := (timesOf cc.delta t o.now).1.1 }
        by_cases he : (gathered st cc.delta val dflt res ci o' r.shown).scopeMetrics = []
        · exact ih (.nothing a r o' h hs1 hd ho rfl he) hr
        · obtain ⟨t', log', g1, g2⟩ := ih (.export a r o' w h hs1 hd ho rfl he) hr
          refine ⟨t', log', g1, fun x hx => ?_⟩
          rcases g2 x hx with hx | hx
          · rw [List.mem_append, List.mem_singleton] at hx
            rcases hx with hx | rfl
            · exact .inl hx
            · exact .inr ⟨_, rfl⟩
          · exact .inr hx
    · cases hr

/-- A store of last values. -/
def exLast (delta : Bool) : Conc.Cfg Nat Bool (BitVec 64) (BitVec 64) := ⟨stableSorter, assign (BitVec 64) 0, 2000, (0, true), delta⟩

/-- A collection whose callback observes `x` for a set that the store does not have. -/
def exObserve (x : BitVec 64) (i : Nat) : List (Obs.Act Nat Bool (BitVec 64)) :=
  [.produce [(x, [(1, true)])], .observe, .measuring, .measuring, .collect, .collector [], .collector [([(1, true)], i)], .collector [], .collector []]

/-- A collection whose callback observes nothing. -/
def exSilent : List (Obs.Act Nat Bool (BitVec 64)) := [.produce [], .collect, .collector [], .collector [], .collector []]

/-- Two collections of a delta observable counter, with 5 and 12. -/
def exGrows : List (Obs.Act Nat Bool (BitVec 64)) := exObserve 5 0 ++ exObserve 12 1

/-- The hypotheses of `observable_changes_partial` and `changes_add_up` are met by two collections, with 5 and 12. -/
theorem observable_changes_example : ∃ (s : Obs.State Nat Bool (BitVec 64) (BitVec 64)) (t : Nat) (log : List (Sending (PRequest Nat (PMetric Nat)))),
    Watched (exLast true) (Obs.changes 0 (· - ·)) (u64Sum true) Val.bool ⟨"", none, none, []⟩ ⟨[], none⟩ exCounter exMetricCfg 1 s t ⟨true, ()⟩ log ∧ AllOk log ∧ Obs.Alone s ∧
      s.runs.map (·.made) = [[(5, [(1, true)])], [(12, [(1, true)])]] ∧ s.runs.map (·.shown) = [[([(1, true)], 5)], [([(1, true)], 7)]] ∧
      (∀ e ∈ s.st.applied, Strict e.2.2) ∧ (∀ e ∈ s.st.applied, sortAndDedup (exLast true).srt e.2.2 ∈ [sortAndDedup (exLast true).srt [(1, true)]]) := by
  have h : (Obs.runAll (exLast true) (Obs.changes 0 (· - ·)) (.init (exLast true)) exGrows).map (fun s => (s.st.applied, s.runs.map (·.made), s.runs.map (·.shown)))
      = some ([(0, 5, [(1, true)]), (0, 12, [(1, true)])], [[(5, [(1, true)])], [(12, [(1, true)])]], [[([(1, true)], 5)], [([(1, true)], 7)]]) := by rfl
  obtain ⟨s, hs, he⟩ := Option.map_eq_some_iff.1 h
  simp only [Prod.mk.injEq] at he
  obtain ⟨t, log, hp, hl⟩ := watched_of_run (st := u64Sum true) (val := Val.bool) (dflt := ⟨"", none, none, []⟩) (res := ⟨[], none⟩) (ci := exCounter) (c := exMetricCfg) (t0 := 1)
    ⟨true, some ⟨0, 0⟩⟩ exAround exAround_distinct _ .init hs
  refine ⟨s, t, log, hp, fun x hx => ?_, ?_, he.2.1, he.2.2, ?_, ?_⟩
  · rcases hl x hx with hx | ⟨_, rfl⟩
    · cases hx
    · rfl
  all_goals
    first | rw [Obs.Alone, he.1] | rw [he.1]
    intro e hem
    simp only [List.mem_cons, List.not_mem_nil, or_false] at hem
    rcases hem with rfl | rfl <;> first | rfl | simp [Strict]

/-- What the theorem says of that run: the collector's numbers add up to 12. -/
example : ∃ (log : List (Sending (PRequest Nat (PMetric Nat)))) (is : List Int),
    List.Forall₂ (fun m i => ∃ q ∈ wpoints m.metric.data, ∃ b, ReadsSet Val.bool q.attributes b ∧
      sortAndDedup (exLast true).srt b = sortAndDedup (exLast true).srt [(1, true)] ∧ TellsInt q i) (heard some exCounter.name (requests log)) is ∧ is.length = 2 ∧ is.sum = 12 := by
  obtain ⟨s, t, log, h1, h2, h3, h4, h5, h6, h7⟩ := observable_changes_example
  have hlen : s.runs.length = 2 := by have := congrArg List.length h4; simpa using this
  obtain ⟨r1, r2, hr⟩ : ∃ r1 r2, s.runs = [r1, r2] := List.length_eq_two.1 hlen
  rw [hr] at h4
  simp only [List.map_cons, List.map_nil, List.cons.injEq, and_true] at h4
  obtain ⟨is, g1, g2, g3⟩ := changes_add_up (a := [(1, true)]) (f := fun r => ((r.made.map fun e => e.1.toNat).getLast?).getD 0) rfl rfl true (val := Val.bool)
    (fun a b h => by cases h; rfl) (fun v => by simp [NotEmptyArray]) exMetricCfg_ok h1 (L := [sortAndDedup (exLast true).srt [(1, true)]]) (by decide) (fun e he _ => h7 e he) h6
    (fun h => by cases h.2) h2 h3 (by
      intro x hx
      rw [hr] at hx
      simp only [List.mem_cons, List.not_mem_nil, or_false] at hx
      rcases hx with rfl | rfl
      · rw [h4.1]; exact ⟨5, rfl, rfl, by decide⟩
      · rw [h4.2]; exact ⟨12, rfl, rfl, by decide⟩)
    (by
      intro x hx y hy
      rw [hr] at hx
      simp only [Obs.afterEach, List.mem_cons, List.not_mem_nil, or_false] at hx
      rcases hx with rfl | rfl
      · cases hy
      · injection hy with hy; subst hy
        simp only [h4.1, h4.2]; decide)
  refine ⟨log, is, g1, by rw [g2, hlen], ?_⟩
  rw [g3, hr]
  simp only [List.getLast?_cons_cons, List.getLast?_singleton, Option.map_some, Option.getD_some, h4.2]
  rfl

/-- The hypotheses of `observable_values_partial` are met with cumulative temporality (`observable_changes_example` has one with delta): 5, nothing, and 12 observed. -/
theorem observable_values_example : ∃ (s : Obs.State Nat Bool (BitVec 64) (BitVec 64)) (t : Nat) (log : List (Sending (PRequest Nat (PMetric Nat)))),
    Watched (exLast false) Obs.plain (u64Sum true) Val.bool ⟨"", none, none, []⟩ ⟨[], none⟩ exCounter exMetricCfg 1 s t ⟨true, ()⟩ log ∧ AllOk log ∧ Obs.Alone s ∧
      s.runs.map (·.made) = [[(5, [(1, true)])], [], [(12, [(1, true)])]] ∧ s.runs.map (·.shown) = [[([(1, true)], 5)], [([(1, true)], 5)], [([(1, true)], 12)]] ∧
      (∀ e ∈ s.st.applied, sortAndDedup (exLast false).srt e.2.2 ∈ [sortAndDedup (exLast false).srt [(1, true)]]) := by
  have h : (Obs.runAll (exLast false) Obs.plain (.init (exLast false)) (exObserve 5 0 ++
      [.produce [], .collect, .collector [], .collector [([(1, true)], 0)], .collector [], .collector []] ++ exObserve 12 0)).map
        (fun s => (s.st.applied, s.runs.map (·.made), s.runs.map (·.shown)))
      = some ([(0, 5, [(1, true)]), (0, 12, [(1, true)])], [[(5, [(1, true)])], [], [(12, [(1, true)])]],
        [[([(1, true)], 5)], [([(1, true)], 5)], [([(1, true)], 12)]]) := by rfl
  obtain ⟨s, hs, he⟩ := Option.map_eq_some_iff.1 h
  simp only [Prod.mk.injEq] at he
  obtain ⟨t, log, hp, hl⟩ := watched_of_run (st := u64Sum true) (val := Val.bool) (dflt := ⟨"", none, none, []⟩) (res := ⟨[], none⟩) (ci := exCounter) (c := exMetricCfg) (t0 := 1)
    ⟨true, some ⟨0, 0⟩⟩ exAround exAround_distinct _ .init hs
  refine ⟨s, t, log, hp, fun x hx => ?_, ?_, he.2.1, he.2.2, ?_⟩
  · rcases hl x hx with hx | ⟨_, rfl⟩
    · cases hx
    · rfl
  all_goals
    first | rw [Obs.Alone, he.1] | rw [he.1]
    intro e hem
    simp only [List.mem_cons, List.not_mem_nil, or_false] at hem
    rcases hem with rfl | rfl <;> first | rfl | simp

/-- C103 fails for a set that the callbacks skip once: the whole value counts again. The callbacks observe 5, nothing, and 7; the reported changes are 5 and 7, together 12. -/
theorem skipped_set_violated : ∃ s : Obs.State Nat Bool (BitVec 64) (BitVec 64), Obs.Reachable (exLast true) (Obs.changes 0 (· - ·)) s ∧ Obs.Alone s ∧
    s.runs.map (·.made) = [[(5, [(1, true)])], [], [(7, [(1, true)])]] ∧ s.runs.map (·.shown) = [[([(1, true)], 5)], [], [([(1, true)], 7)]] := by
  have h : (Obs.runAll (exLast true) (Obs.changes 0 (· - ·)) (.init (exLast true)) (exObserve 5 0 ++ exSilent ++ exObserve 7 1)).map
      (fun s => (s.st.applied, s.runs.map (·.made), s.runs.map (·.shown)))
      = some ([(0, 5, [(1, true)]), (0, 7, [(1, true)])], [[(5, [(1, true)])], [], [(7, [(1, true)])]], [[([(1, true)], 5)], [], [([(1, true)], 7)]]) := by rfl
  obtain ⟨s, hs, he⟩ := Option.map_eq_some_iff.1 h
  simp only [Prod.mk.injEq] at he
  obtain ⟨t, log, hp, _⟩ := watched_of_run (st := u64Sum true) (val := Val.bool) (dflt := ⟨"", none, none, []⟩) (res := ⟨[], none⟩) (ci := exCounter) (c := exMetricCfg) (t0 := 1)
    ⟨true, some ⟨0, 0⟩⟩ exAround exAround_distinct _ .init hs
  refine ⟨s, watched_reachable hp, ?_, he.2.1, he.2.2⟩
  rw [Obs.Alone, he.1]
  intro e hem
  simp only [List.mem_cons, List.not_mem_nil, or_false] at hem
  rcases hem with rfl | rfl <;> rfl

/-- C103 fails for an observable counter of `u64` that starts again: after 10, the value 3 gives the change 2^64 - 7 (in debug builds the subtraction panics), which the
collector receives as 0 (C54). -/
theorem restarted_counter_violated (cast : Cast) : ∃ s : Obs.State Nat Bool (BitVec 64) (BitVec 64), Obs.Reachable (exLast true) (Obs.changes 0 (· - ·)) s ∧ Obs.Alone s ∧
    s.runs.map (·.made) = [[(10, [(1, true)])], [(3, [(1, true)])]] ∧ s.runs.map (·.shown) = [[([(1, true)], 10)], [([(1, true)], -7)]] ∧
    TellsInt (wireOf cast (u64Sum (K := Nat) true).kind 1 2 ((u64Sum true).point (kvsOf Val.bool [(1, true)]) (-7))) 0 := by
  have h : (Obs.runAll (exLast true) (Obs.changes 0 (· - ·)) (.init (exLast true)) (exObserve 10 0 ++ exObserve 3 1)).map
      (fun s => (s.st.applied, s.runs.map (·.made), s.runs.map (·.shown)))
      = some ([(0, 10, [(1, true)]), (0, 3, [(1, true)])], [[(10, [(1, true)])], [(3, [(1, true)])]], [[([(1, true)], 10)], [([(1, true)], -7)]]) := by rfl
  obtain ⟨s, hs, he⟩ := Option.map_eq_some_iff.1 h
  simp only [Prod.mk.injEq] at he
  obtain ⟨t, log, hp, _⟩ := watched_of_run (st := u64Sum true) (val := Val.bool) (dflt := ⟨"", none, none, []⟩) (res := ⟨[], none⟩) (ci := exCounter) (c := exMetricCfg) (t0 := 1)
    ⟨true, some ⟨0, 0⟩⟩ exAround exAround_distinct _ .init hs
  refine ⟨s, watched_reachable hp, ?_, he.2.1, he.2.2, ⟨_, rfl, rfl⟩⟩
  rw [Obs.Alone, he.1]
  intro e hem
  simp only [List.mem_cons, List.not_mem_nil, or_false] at hem
  rcases hem with rfl | rfl <;> rfl

end Otel.EndToEnd
