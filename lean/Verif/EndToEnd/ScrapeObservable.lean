import Verif.EndToEnd.Observable
import Verif.EndToEnd.Scrape
/-!
# From the callbacks of an observable instrument to a Prometheus scrape (C124)

The composition of C101 for observable instruments: a scrape has the reader run the callbacks, read the store and turn what it found into families. Callbacks run by
other readers observe into the same store at any time. Sources as in `Observable.lean` and `Scrape.lean`. The reader of the exporter is cumulative
(opentelemetry-prometheus/src/lib.rs:172-174), so sums report what is in the store (`Obs.plain`).
-/

set_option linter.unusedSectionVars false

namespace Otel.EndToEnd.Scrape
open Otel.Otlp Otel.Metrics Otel.EndToEnd
open Rust (Str)
open Common (Val Scope)

variable {K V A X : Type} [LinearOrder K] [DecidableEq V]

/-- Callbacks, store, reader and scrapes together; see `Scraped` and `Watched`. -/
inductive Peeked (cc : Conc.Cfg K V A X) (st : Style K A) (val : V → Val) (x : Texts K) (cast : Cast) (cfg : Prom.Cfg) (dflt : Scope K) (res : ResVal K) (ci : CounterId K) (n : Str) :
    Obs.State K V A X → Bool → Prom.Known → List (List (Prom.Family (BitVec 64))) → Prop
  | init : Peeked cc st val x cast cfg dflt res ci n (.init cc) true [] []
  /-- a step that does not complete a collection -/
  | work {s s' alive known log} (a : Obs.Act K V X) : Peeked cc st val x cast cfg dflt res ci n s alive known log → Obs.step cc Obs.plain s a = some s' → s'.runs = s.runs →
      Peeked cc st val x cast cfg dflt res ci n s' alive known log
  /-- the collection of a scrape is complete -/
  | scrape {s s' known log} (a : Obs.Act K V X) (r : Obs.Run K V A X) (o : Around K) :
      Peeked cc st val x cast cfg dflt res ci n s true known log → Obs.step cc Obs.plain s a = some s' → s'.runs = s.runs ++ [r] → OtherNames x cast cfg n o →
      Peeked cc st val x cast cfg dflt res ci n s' true (scrapeOf x cast cfg known (gathered st cc.delta val dflt res ci o r.shown)).2
        (log ++ [(scrapeOf x cast cfg known (gathered st cc.delta val dflt res ci o r.shown)).1])
  /-- a collection that is not for a scrape -/
  | other {s s' alive known log} (a : Obs.Act K V X) (r : Obs.Run K V A X) :
      Peeked cc st val x cast cfg dflt res ci n s alive known log → Obs.step cc Obs.plain s a = some s' → s'.runs = s.runs ++ [r] →
      Peeked cc st val x cast cfg dflt res ci n s' alive known log
  /-- the reader is shut down -/
  | shut {s alive known log} : Peeked cc st val x cast cfg dflt res ci n s alive known log → Peeked cc st val x cast cfg dflt res ci n s false known log
  /-- a scrape after that -/
  | failed {s known log} : Peeked cc st val x cast cfg dflt res ci n s false known log → Peeked cc st val x cast cfg dflt res ci n s false known (log ++ [[]])

/-! ## Lemmas -/

theorem soFar_concat {α : Type} (pre l : List α) (x : α) : soFar pre (l ++ [x]) = soFar pre l ++ [(pre ++ l, x)] := by
  induction l generalizing pre with
  | nil => simp [soFar]
  | cons y l ih => rw [List.cons_append, soFar, ih, soFar]; simp

theorem peeked_reachable {cc : Conc.Cfg K V A X} {st : Style K A} {val : V → Val} {x : Texts K} {cast : Cast} {cfg : Prom.Cfg} {dflt : Scope K} {res : ResVal K} {ci : CounterId K} {n : Str}
    {s : Obs.State K V A X} {alive : Bool} {known : Prom.Known} {log : List (List (Prom.Family (BitVec 64)))} (h : Peeked cc st val x cast cfg dflt res ci n s alive known log) :
    Obs.Reachable cc Obs.plain s := by
  induction h with
  | init => exact .init
  | work a _ hs _ ih => exact .step ih a hs
  | scrape a r o _ hs _ _ ih => exact .step ih a hs
  | other a r _ hs _ ih => exact .step ih a hs
  | shut _ ih => exact ih
  | failed _ ih => exact ih

/-- The step that completes a collection is one of the store. -/
theorem step_completes {cc : Conc.Cfg K V A X} {s s' : Obs.State K V A X} {a : Obs.Act K V X} {x : Obs.Run K V A X} (h : Obs.step cc Obs.plain s a = some s')
    (he : s'.runs = s.runs ++ [x]) : ∃ b, Conc.step cc s.st b = some s'.st ∧ s'.st.done = s.st.done ++ [x.coll] ∧ x.shown = x.coll.points := by
  rcases Obs.step_store h with ⟨_, h2, _⟩ | ⟨_, _, _, h2, _⟩ | ⟨b, made, r, h1, h2, h3, h4⟩
  · rw [he] at h2; have := congrArg List.length h2; simp at this
  · rw [he] at h2; have := congrArg List.length h2; simp at this
  · rw [he] at h4
    obtain rfl := List.singleton_injective (List.append_cancel_left h4)
    exact ⟨b, h1, h2, rfl⟩

/-- The callbacks are threads of C101. -/
theorem peeked_scraped {cc : Conc.Cfg K V A X} {st : Style K A} {val : V → Val} {x : Texts K} {cast : Cast} {cfg : Prom.Cfg} {dflt : Scope K} {res : ResVal K} {ci : CounterId K} {n : Str}
    {s : Obs.State K V A X} {alive : Bool} {known : Prom.Known} {log : List (List (Prom.Family (BitVec 64)))} (h : Peeked cc st val x cast cfg dflt res ci n s alive known log) :
    Scraped cc st val x cast cfg dflt res ci n s.st alive known log := by
  induction h with
  | init => exact .init
  | shut _ ih => exact .shut ih
  | failed _ ih => exact .failed ih
  | work a _ hs he ih =>
    rcases Obs.step_store hs with ⟨h1, _⟩ | ⟨b, h1, h2, _⟩ | ⟨b, made, r, h1, h2, h3, h4⟩
    · rw [h1]; exact ih
    · exact .work b ih h1 h2
    · rw [he] at h4
      have := congrArg List.length h4
      simp at this
  | scrape a r o _ hs he ho ih =>
    obtain ⟨b, h1, h2, h3⟩ := step_completes hs he
    rw [h3]
    exact .scrape b r.coll o ih h1 h2 ho
  | other a r _ hs he ih =>
    obtain ⟨b, h1, h2, _⟩ := step_completes hs he
    exact .other b r.coll ih h1 h2

/-- The answers of the scrapes, each with its collection and those before. -/
theorem peeked_log {cc : Conc.Cfg K V A X} {st : Style K A} (hfit : st.Fit) (hattrs : KeepsAttrs st) {val : V → Val} {x : Texts K} {cast : Cast} {cfg : Prom.Cfg} {dflt : Scope K} {res : ResVal K}
    {ci : CounterId K} {ty : Prom.MType} {n : Str} (hid : exportedAs cfg st.kind ci = some (ty, n)) (hn : NotInfo n)
    {s : Obs.State K V A X} {alive : Bool} {known : Prom.Known} {log : List (List (Prom.Family (BitVec 64)))} (h : Peeked cc st val x cast cfg dflt res ci n s alive known log) :
    KnownAs known n ty ci.description.toList ∧ ∃ bs : List (Option (List (Obs.Run K V A X) × Obs.Run K V A X)), List.Sublist (bs.filterMap fun b => b) (soFar [] s.runs) ∧
      (alive = true → ∀ b ∈ bs, b ≠ none) ∧
      List.Forall₂ (fun b fs => match b with
        | none => fs = []
        | some r => named n fs = r.2.coll.points.map fun p => ⟨n, ci.description.toList, ty, seriesLabels x cfg val res ci p.1, shown cast (st.point (kvsOf val p.1) p.2)⟩) bs log := by
  induction h with
  | init => exact ⟨.inl rfl, [], List.Sublist.refl _, fun _ _ hb => (by cases hb), .nil⟩
  | work a _ _ he ih => rw [he]; exact ih
  | shut _ ih => obtain ⟨h1, bs, h2, _, h4⟩ := ih; exact ⟨h1, bs, h2, fun hc => (by cases hc), h4⟩
  | @scrape s _ _ _ a r o _ hs he ho ih =>
    obtain ⟨h1, bs, h2, h3, h4⟩ := ih
    obtain ⟨_, _, _, hsh⟩ := step_completes hs he
    obtain ⟨g1, g2⟩ := scrape_named x cast cfg st hfit hattrs cc.delta val dflt res ci hid hn o ho r.shown h1
    refine ⟨g2, bs ++ [some (s.runs, r)], ?_, fun _ b hb => ?_, List.rel_append h4 (.cons (by rw [hsh] at g1 ⊢; exact g1) .nil)⟩
    · rw [he, soFar_concat, List.filterMap_append]
      exact h2.append (List.Sublist.refl _)
    · rcases List.mem_append.1 hb with hb | hb
      · exact h3 rfl b hb
      · rw [List.mem_singleton.1 hb]; simp
  | other a r _ hs he ih =>
    obtain ⟨h1, bs, h2, h3, h4⟩ := ih
    exact ⟨h1, bs, by rw [he, soFar_concat]; exact h2.trans (List.sublist_append_left _ _), h3, h4⟩
  | failed _ ih =>
    obtain ⟨h1, bs, h2, _, h4⟩ := ih
    refine ⟨h1, bs ++ [none], ?_, fun hc => (by cases hc), List.rel_append h4 (.cons rfl .nil)⟩
    rw [List.filterMap_append, List.filterMap_cons, List.filterMap_nil, List.append_nil]; exact h2

/-! ## C124 -/

/-- **C124.** An observable instrument whose callbacks only this reader runs, for every schedule: a scrape before the shutdown shows, with the type, name and help text
of the instrument, exactly one series for each set of attributes that its callbacks observed in this or an earlier collection, and the number is made of the values
they observed for it, in order. Collections `x` are given with those before them, in order. A scrape after the shutdown shows nothing. For at most as many attribute sets as
the limit. -/
theorem observable_scrape_partial {cc : Conc.Cfg K V A X} (hd : cc.delta = false) {st : Style K A} (hfit : st.Fit) (hattrs : KeepsAttrs st) {val : V → Val} {x : Texts K} {cast : Cast}
    {cfg : Prom.Cfg} {dflt : Scope K} {res : ResVal K} {ci : CounterId K} {ty : Prom.MType} {n : Str} (hid : exportedAs cfg st.kind ci = some (ty, n)) (hn : NotInfo n)
    {s : Obs.State K V A X} {alive : Bool} {known : Prom.Known} {log : List (List (Prom.Family (BitVec 64)))} (h : Peeked cc st val x cast cfg dflt res ci n s alive known log)
    (al : Obs.Alone s) {L : List (Attrs K V)} (hL : L.length ≤ cc.limit) (hsets : ∀ e ∈ s.st.applied, e.2.2 ≠ [] → sortAndDedup cc.srt e.2.2 ∈ L) :
    ∃ bs : List (Option (List (Obs.Run K V A X) × Obs.Run K V A X)), List.Sublist (bs.filterMap fun b => b) (soFar [] s.runs) ∧ (alive = true → ∀ b ∈ bs, b ≠ none) ∧
      List.Forall₂ (fun b fs => match b with
        | none => fs = []
        | some r => Shows cc st val x cast cfg res ci ty n (fun a xs => xs = Obs.observed cc.srt (r.1.flatMap (·.made) ++ r.2.made) a ∧ xs ≠ [])
            (fun a => Obs.observed cc.srt (r.1.flatMap (·.made) ++ r.2.made) a ≠ []) fs) bs log := by
  obtain ⟨_, bs, h1, h2, h3⟩ := peeked_log hfit hattrs hid hn h
  have hr := peeked_reachable h
  have hmem : ∀ r, some r ∈ bs → r ∈ soFar [] s.runs := fun r hb => h1.subset (List.mem_filterMap.2 ⟨some r, hb, rfl⟩)
  refine ⟨bs, h1, h2, ?_⟩
  clear h1 h2 h
  induction h3 with
  | nil => exact .nil
  | @cons b fs bs log hb hrest ih =>
    refine .cons ?_ (ih fun r hb => hmem r (by simp [hb]))
    cases b with
    | none => exact hb
    | some r =>
      obtain ⟨post, hp⟩ := soFar_mem (hmem r (by simp))
      have := run_tells hr al hL hsets hp
      simp only [toldBy, hd, Bool.false_eq_true, if_false] at this
      exact ⟨r.2.coll.points, this, hb⟩

/-- The numbers of a scrape are doubles of the last values. -/
theorem last_shown {N : Type} (cast : Cast) {st : Style K N} {toNum : N → Num} (hst : ∀ kvs y, shown cast (st.point kvs y) = .value (intoF64 cast (toNum y))) (z : N) (kvs : List (K × Val))
    {xs : List N} {y : N} (hy : xs.getLast? = some y) : shown cast (st.point kvs (xs.foldl (assign N z).update (assign N z).create)) = .value (intoF64 cast (toNum y)) := by
  rw [assign_foldl, hy]; exact hst _ _

/-- The styles of observable counters, up-down counters and gauges show a value as a double. -/
theorem value_styles (cast : Cast) (mono : Bool) :
    (∀ kvs y, shown cast ((u64Sum (K := K) mono).point kvs y) = .value (intoF64 cast (.u64 y))) ∧
    (∀ kvs y, shown cast ((i64Sum (K := K) mono).point kvs y) = .value (intoF64 cast (.i64 y))) ∧
    (∀ kvs y, shown cast ((f64Sum (K := K) mono).point kvs y) = .value (intoF64 cast (.f64 y))) ∧
    ∀ (N : Type) (k : NumKind) (toNum : N → Num) kvs y, shown cast ((gaugeOf (K := K) k toNum).point kvs y) = .value (intoF64 cast (toNum y)) :=
  ⟨fun _ _ => rfl, fun _ _ => rfl, fun _ _ => rfl, fun _ _ _ _ _ => rfl⟩

/-- **C124, counters, up-down counters and gauges.** Each series of the instrument shows the value that the callbacks observed last for its set, and every set they
observed has a series. Collections are given with those before them. -/
theorem observable_last_partial {N : Type} {cc : Conc.Cfg K V N N} (hd : cc.delta = false) {z : N} (hagg : cc.agg = assign N z) {st : Style K N} (hfit : st.Fit) (hattrs : KeepsAttrs st)
    {toNum : N → Num} {val : V → Val} {x : Texts K} {cast : Cast} (hst : ∀ kvs y, shown cast (st.point kvs y) = .value (intoF64 cast (toNum y)))
    {cfg : Prom.Cfg} {dflt : Scope K} {res : ResVal K} {ci : CounterId K} {ty : Prom.MType} {n : Str} (hid : exportedAs cfg st.kind ci = some (ty, n)) (hn : NotInfo n)
    {s : Obs.State K V N N} {known : Prom.Known} {log : List (List (Prom.Family (BitVec 64)))} (h : Peeked cc st val x cast cfg dflt res ci n s true known log)
    (al : Obs.Alone s) {L : List (Attrs K V)} (hL : L.length ≤ cc.limit) (hsets : ∀ e ∈ s.st.applied, e.2.2 ≠ [] → sortAndDedup cc.srt e.2.2 ∈ L) :
    ∃ bs : List (List (Obs.Run K V N N) × Obs.Run K V N N), List.Sublist bs (soFar [] s.runs) ∧
      List.Forall₂ (fun r fs =>
        (∀ f ∈ named n fs, ∃ a y, (Obs.observed cc.srt (r.1.flatMap (·.made) ++ r.2.made) a).getLast? = some y ∧
          f = ⟨n, ci.description.toList, ty, seriesLabels x cfg val res ci a, .value (intoF64 cast (toNum y))⟩) ∧
        ∀ a y, (Obs.observed cc.srt (r.1.flatMap (·.made) ++ r.2.made) a).getLast? = some y → ∃ b, sortAndDedup cc.srt b = sortAndDedup cc.srt a ∧
          ⟨n, ci.description.toList, ty, seriesLabels x cfg val res ci b, .value (intoF64 cast (toNum y))⟩ ∈ named n fs) bs log := by
  obtain ⟨bs, h1, h2, h3⟩ := observable_scrape_partial hd hfit hattrs hid hn h al hL hsets
  have hall := h2 rfl
  refine ⟨bs.filterMap fun b => b, h1, ?_⟩
  clear h1 h2 h
  induction h3 with
  | nil => exact .nil
  | @cons b fs bs log hb hrest ih =>
    cases b with
    | none => exact absurd rfl (hall none (by simp))
    | some r =>
      refine .cons ?_ (ih fun b hb => hall b (by simp [hb]))
      obtain ⟨pts, hp, hnm⟩ := hb
      rw [hagg] at hp
      refine ⟨fun f hf => ?_, fun a y hy => ?_⟩
      · rw [hnm] at hf
        obtain ⟨p, hpm, rfl⟩ := List.mem_map.1 hf
        obtain ⟨xs, ⟨g1, g2⟩, g3⟩ := hp.values p hpm
        refine ⟨p.1, xs.getLast g2, by rw [← g1]; exact List.getLast?_eq_some_getLast g2, ?_⟩
        rw [← last_shown cast hst z (kvsOf val p.1) (List.getLast?_eq_some_getLast g2), g3]
      · obtain ⟨p, hpm, hpa⟩ := hp.complete a (fun h0 => by rw [h0] at hy; cases hy)
        obtain ⟨xs, ⟨g1, g2⟩, g3⟩ := hp.values p hpm
        have hxs : xs.getLast? = some y := by
          rw [g1, ← hy]
          simp only [Obs.observed, hpa]
        refine ⟨p.1, hpa, ?_⟩
        rw [hnm]
        refine List.mem_map.2 ⟨p, hpm, ?_⟩
        rw [← last_shown cast hst z (kvsOf val p.1) hxs, g3]

/-- **C124.** An observable counter whose callbacks, whoever runs them, never observe less for a set than before: no series falls from one scrape to a later one. -/
theorem observable_never_falls_partial {cc : Conc.Cfg K V (BitVec 64) (BitVec 64)} (hagg : cc.agg = assign (BitVec 64) 0) (hd : cc.delta = false) (mono : Bool) {val : V → Val}
    {x : Texts K} (hx : Apart x val) {cast : Cast} {cfg : Prom.Cfg} {dflt : Scope K} {res : ResVal K} {ci : CounterId K} {ty : Prom.MType} {n : Str}
    (hid : exportedAs cfg (.sum mono) ci = some (ty, n)) (hn : NotInfo n) {s : Obs.State K V (BitVec 64) (BitVec 64)} {alive : Bool} {known : Prom.Known}
    {log : List (List (Prom.Family (BitVec 64)))} (h : Peeked cc (u64Sum mono) val x cast cfg dflt res ci n s alive known log) {L : List (Attrs K V)} (hL : L.length ≤ cc.limit)
    (hsets : ∀ e ∈ s.st.applied, e.2.2 ≠ [] → sortAndDedup cc.srt e.2.2 ∈ L) (hkeys : ∀ e ∈ s.st.applied, (e.2.2.map Prod.fst).Nodup)
    (hmono : ∀ a, (Conc.recordedOf cc.srt s.st a).Pairwise fun u v => u.toNat ≤ v.toNat) :
    log.Pairwise fun fs fs' => ∀ f ∈ named n fs, ∀ f' ∈ named n fs', f.labels = f'.labels →
      ∃ u v : BitVec 64, f.num = .value (cast.ofU64 u) ∧ f'.num = .value (cast.ofU64 v) ∧ u.toNat ≤ v.toNat := by
  have hg := series_grows_partial hd (u64Sum_ok mono).1 (sum_keeps mono).1 hx hid hn (peeked_scraped h) hL hsets hkeys
  refine hg.imp fun {fs fs'} hp f hf f' hf' hl => ?_
  obtain ⟨a, b, xs, ys, _, h2, h3, h4, h5⟩ := hp f hf f' hf' hl
  rw [hagg, assign_foldl] at h2 h3
  refine ⟨_, _, h2, h3, ?_⟩
  have hys : ys.Pairwise fun u v => u.toNat ≤ v.toNat := (hmono a).sublist h5.sublist
  obtain ⟨zs, rfl⟩ := h4
  cases hz : zs.getLast? with
  | none =>
    rw [List.getLast?_eq_none_iff] at hz
    rw [hz, List.append_nil]
  | some w =>
    rw [List.getLast?_append, hz]
    cases hxl : xs.getLast? with
    | none => exact Nat.zero_le _
    | some u => exact (List.pairwise_append.1 hys).2.2 u (List.mem_of_getLast? hxl) w (List.mem_of_getLast? hz)

/-! ## The hypotheses are met -/

/-- A schedule in which each collection is for a scrape, with the same other instruments each time. -/
theorem peeked_of_run {cc : Conc.Cfg K V A X} {st : Style K A} (hfit : st.Fit) (hattrs : KeepsAttrs st) {val : V → Val} {x : Texts K} {cast : Cast} {cfg : Prom.Cfg} {dflt : Scope K}
    {res : ResVal K} {ci : CounterId K} {ty : Prom.MType} {n : Str} (hid : exportedAs cfg st.kind ci = some (ty, n)) (hn : NotInfo n) (o : Around K) (ho : OtherNames x cast cfg n o)
    (as : List (Obs.Act K V X)) {s s' : Obs.State K V A X} {known : Prom.Known} {log : List (List (Prom.Family (BitVec 64)))}
    (h : Peeked cc st val x cast cfg dflt res ci n s true known log) (hr : Obs.runAll cc Obs.plain s as = some s')
    (hlog : log.map (named n) = s.runs.map fun r => r.shown.map fun p => ⟨n, ci.description.toList, ty, seriesLabels x cfg val res ci p.1, shown cast (st.point (kvsOf val p.1) p.2)⟩) :
    ∃ known' log', Peeked cc st val x cast cfg dflt res ci n s' true known' log' ∧
      log'.map (named n) = s'.runs.map fun r => r.shown.map fun p => ⟨n, ci.description.toList, ty, seriesLabels x cfg val res ci p.1, shown cast (st.point (kvsOf val p.1) p.2)⟩ := by
  induction as generalizing s known log with
  | nil => simp only [Obs.runAll, Option.some.injEq] at hr; subst hr; exact ⟨known, log, h, hlog⟩
  | cons a as ih =>
    simp only [Obs.runAll] at hr
    split at hr
    · rename_i s1 hs1
      rcases step_runs hs1 with hd | ⟨r, hd⟩
      · exact ih (.work a h hs1 hd) hr (by rw [hd]; exact hlog)
      · refine ih (.scrape a r o h hs1 hd ho) hr ?_
        rw [hd, List.map_append, List.map_append, hlog]
        congr 1
        rw [List.map_singleton, List.map_singleton]
        exact congrArg (fun l => [l]) (scrape_named x cast cfg st hfit hattrs cc.delta val dflt res ci hid hn o ho r.shown (peeked_log hfit hattrs hid hn h).1).1
    · cases hr

/-- Three scrapes of an observable counter: its callback observes 5, then 12, then nothing. -/
def exPeeks : List (Obs.Act Nat Bool (BitVec 64)) :=
  exObserve 5 0 ++
  [.produce [(12, [(1, true)])], .observe, .measuring, .measuring, .collect, .collector [], .collector [([(1, true)], 0)], .collector [], .collector []] ++
  [.produce [], .collect, .collector [], .collector [([(1, true)], 0)], .collector [], .collector []]

/-- The hypotheses of the theorems above are met, by three scrapes that show 5, 12 and 12. -/
theorem peeked_example (cast : Cast) : ∃ (s : Obs.State Nat Bool (BitVec 64) (BitVec 64)) (known : Prom.Known) (log : List (List (Prom.Family (BitVec 64)))),
    Peeked (exLast false) (u64Sum true) Val.bool exTexts cast (Prom.exampleCfg none) ⟨"", none, none, []⟩ ⟨[], none⟩ exCounter exName s true known log ∧ Obs.Alone s ∧
      s.runs.map (·.made) = [[(5, [(1, true)])], [(12, [(1, true)])], []] ∧
      (log.map (named exName)).map (fun l => l.map fun f => (f.labels.take 1, f.num)) =
        [[([("kk".toList, "true".toList)], .value (cast.ofU64 5))], [([("kk".toList, "true".toList)], .value (cast.ofU64 12))],
         [([("kk".toList, "true".toList)], .value (cast.ofU64 12))]] ∧
      (∀ e ∈ s.st.applied, (e.2.2.map Prod.fst).Nodup) ∧
      (∀ e ∈ s.st.applied, e.2.2 ≠ [] → sortAndDedup (exLast false).srt e.2.2 ∈ [sortAndDedup (exLast false).srt [(1, true)]]) ∧
      ∀ a, (Conc.recordedOf (exLast false).srt s.st a).Pairwise fun u v => u.toNat ≤ v.toNat := by
  have h : (Obs.runAll (exLast false) Obs.plain (.init (exLast false)) exPeeks).map (fun s => (s.st.applied, s.runs.map (·.made), s.runs.map (·.shown)))
      = some ([(0, 5, [(1, true)]), (0, 12, [(1, true)])], [[(5, [(1, true)])], [(12, [(1, true)])], []], [[([(1, true)], 5)], [([(1, true)], 12)], [([(1, true)], 12)]]) := by rfl
  obtain ⟨s, hs, he⟩ := Option.map_eq_some_iff.1 h
  simp only [Prod.mk.injEq] at he
  obtain ⟨known, log, hp, hl⟩ := peeked_of_run (st := u64Sum true) (u64Sum_ok true).1 (sum_keeps true).1 (val := Val.bool) (x := exTexts) (cast := cast)
    (dflt := ⟨"", none, none, []⟩) (res := ⟨[], none⟩) exName_id exName_notInfo exAround (exAround_names cast) exPeeks .init hs rfl
  refine ⟨s, known, log, hp, ?_, he.2.1, ?_, ?_, ?_, ?_⟩
  · rw [Obs.Alone, he.1]; decide
  · rw [hl]
    have : (s.runs.map fun r => r.shown.map fun p => (⟨exName, exCounter.description.toList, .counter, seriesLabels exTexts (Prom.exampleCfg none) Val.bool ⟨[], none⟩ exCounter p.1,
        shown cast ((u64Sum true).point (kvsOf Val.bool p.1) p.2)⟩ : Prom.Family (BitVec 64))) = (s.runs.map (·.shown)).map fun ps => ps.map fun p =>
          ⟨exName, exCounter.description.toList, .counter, seriesLabels exTexts (Prom.exampleCfg none) Val.bool ⟨[], none⟩ exCounter p.1, shown cast ((u64Sum true).point (kvsOf Val.bool p.1) p.2)⟩ := by
      rw [List.map_map]; rfl
    rw [this, he.2.2]
    have hlab : (seriesLabels exTexts (Prom.exampleCfg none) Val.bool ⟨[], none⟩ exCounter [(1, true)]).take 1 = [("kk".toList, "true".toList)] := by decide +kernel
    simp only [List.map_cons, List.map_nil, hlab]
    rfl
  · rw [he.1]; decide
  · rw [he.1]
    intro e hem hne
    simp only [List.mem_cons, List.not_mem_nil, or_false] at hem ⊢
    rcases hem with rfl | rfl <;> rfl
  · intro a
    rw [Conc.recordedOf, he.1]
    by_cases ha : sortAndDedup (exLast false).srt [(1, true)] = sortAndDedup (exLast false).srt a
    · simp [ha]
    · simp [ha]

/-- **C124, violated.** A scrape ought to show what the callbacks observe now, but a set they no longer observe keeps its series with the old value. -/
theorem stale_series_violated (cast : Cast) : ∃ (s : Obs.State Nat Bool (BitVec 64) (BitVec 64)) (known : Prom.Known) (log : List (List (Prom.Family (BitVec 64)))) (r : Obs.Run Nat Bool (BitVec 64) (BitVec 64)) (fs : List (Prom.Family (BitVec 64))),
    Peeked (exLast false) (u64Sum true) Val.bool exTexts cast (Prom.exampleCfg none) ⟨"", none, none, []⟩ ⟨[], none⟩ exCounter exName s true known log ∧
      s.runs.getLast? = some r ∧ log.getLast? = some fs ∧ s.runs.length = log.length ∧ r.made = [] ∧ ∃ f ∈ named exName fs, f.num = .value (cast.ofU64 12) := by
  obtain ⟨s, known, log, h1, _, h3, h4, _⟩ := peeked_example cast
  have l1 : s.runs.length = 3 := by simpa using congrArg List.length h3
  have l2 : log.length = 3 := by simpa using congrArg List.length h4
  obtain ⟨r1, r2, r3, hr⟩ := List.length_eq_three.1 l1
  obtain ⟨f1, f2, f3, hf⟩ := List.length_eq_three.1 l2
  subst hf
  rw [hr] at h3
  simp only [List.map_cons, List.map_nil, List.cons.injEq, and_true] at h3 h4
  refine ⟨s, known, _, r3, f3, h1, by rw [hr]; rfl, rfl, by rw [l1]; rfl, h3.2.2, ?_⟩
  obtain ⟨f, hm, hf⟩ := List.mem_map.1 (show (_, _) ∈ (named exName f3).map fun f => (f.labels.take 1, f.num) from by rw [h4.2.2]; exact List.mem_singleton.2 rfl)
  exact ⟨f, hm, (Prod.mk.inj hf).2⟩

end Otel.EndToEnd.Scrape
