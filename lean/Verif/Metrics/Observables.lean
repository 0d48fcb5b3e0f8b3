import Verif.Metrics.Precomputed
/-!
# The attribute filter of a view (C74), and observable instruments read by several readers (C75)
-/

namespace Otel.Metrics

variable {K V : Type} [LinearOrder K] [DecidableEq V] {A X : Type}

/-! ## The attribute filter -/

/-- The filter a stream's `allowed_attribute_keys` gives. pipeline.rs:386-389 -/
def keyFilter (keys : Option (List K)) : Option (K × V → Bool) := keys.map fun ks kv => decide (kv.1 ∈ ks)

/-- Operations on an instrument whose stream has allowed keys. aggregate.rs:106-114 -/
def runFiltered (srt : Sorter K V) (agg : Aggregator A X) (limit : Nat) (ov : Attrs K V) (keys : Option (List K)) (m : ValueMap K V A) :
    List (MapOp K V X) → Option (ValueMap K V A)
  | [] => some m
  | .measure x attrs :: ops => runFiltered srt agg limit ov keys (m.measureFiltered srt agg limit ov (keyFilter keys) x attrs) ops
  | op :: ops => match op.run srt agg limit ov m with
    | some (m', _) => runFiltered srt agg limit ov keys m' ops
    | none => none

/-- `pts` is reported by a collection after the operations `ops` on a fresh instrument with allowed keys. -/
def ReportedFiltered (srt : Sorter K V) (agg : Aggregator A X) (limit : Nat) (o : K × V) (keys : Option (List K)) (ops : List (MapOp K V X))
    (delta : Bool) (pts : List (Attrs K V × A)) : Prop :=
  ∃ m it m', runFiltered srt agg limit [o] keys (ValueMap.new agg) ops = some m
    ∧ (if delta then MapOp.delta it else MapOp.cumulative it).run srt agg limit [o] m = some (m', pts)

/-! ### Specification -/

/-- The attributes whose key is allowed. -/
def restrict (keys : Option (List K)) (a : Attrs K V) : Attrs K V :=
  match keys with
  | none => a
  | some ks => a.filter fun kv => decide (kv.1 ∈ ks)

/-- A history with the attributes that are not allowed taken away. -/
def restrictHist (keys : Option (List K)) (h : Hist K V X) : Hist K V X := h.map fun e => (e.1, restrict keys e.2)

/-! ### Proofs -/

theorem measureFiltered_eq (srt : Sorter K V) (agg : Aggregator A X) (limit : Nat) (ov : Attrs K V) (keys : Option (List K)) (m : ValueMap K V A)
    (x : X) (attrs : Attrs K V) :
    m.measureFiltered srt agg limit ov (keyFilter keys) x attrs = m.measure srt agg limit ov x (restrict keys attrs) := by
  cases keys <;> rfl

/-- An operation with its attributes restricted. -/
def MapOp.restrict (keys : Option (List K)) : MapOp K V X → MapOp K V X
  | .measure x a => .measure x (Metrics.restrict keys a)
  | .cumulative it => .cumulative it
  | .delta it => .delta it

theorem runFiltered_eq (srt : Sorter K V) (agg : Aggregator A X) (limit : Nat) (ov : Attrs K V) (keys : Option (List K)) (ops : List (MapOp K V X))
    (m : ValueMap K V A) : runFiltered srt agg limit ov keys m ops = runOps srt agg limit ov m (ops.map (MapOp.restrict keys)) := by
  induction ops generalizing m with
  | nil => rfl
  | cons op ops ih =>
    cases op with
    | measure x a =>
      simp only [runFiltered, List.map_cons, MapOp.restrict, runOps, MapOp.run, measureFiltered_eq]
      exact ih _
    | cumulative it =>
      simp only [runFiltered, List.map_cons, MapOp.restrict, runOps]
      cases MapOp.run srt agg limit ov m (.cumulative it) with
      | none => rfl
      | some r => exact ih r.1
    | delta it =>
      simp only [runFiltered, List.map_cons, MapOp.restrict, runOps]
      cases MapOp.run srt agg limit ov m (.delta it) with
      | none => rfl
      | some r => exact ih r.1

theorem sinceReset_restrict (keys : Option (List K)) (ops : List (MapOp K V X)) (h : Hist K V X) :
    sinceReset (ops.map (MapOp.restrict keys)) (restrictHist keys h) = restrictHist keys (sinceReset ops h) := by
  induction ops generalizing h with
  | nil => rfl
  | cons op ops ih =>
    cases op with
    | measure x a =>
      have := ih (h ++ [(x, a)])
      simp only [restrictHist, List.map_append, List.map_cons, List.map_nil] at this
      simpa only [List.map_cons, MapOp.restrict, sinceReset, restrictHist] using this
    | cumulative it => exact ih h
    | delta it => exact ih []

theorem reported_of_filtered {srt : Sorter K V} {agg : Aggregator A X} {limit : Nat} {o : K × V} {keys : Option (List K)} {ops : List (MapOp K V X)}
    {delta : Bool} {pts : List (Attrs K V × A)} (h : ReportedFiltered srt agg limit o keys ops delta pts) :
    Reported srt agg limit o (ops.map (MapOp.restrict keys)) delta pts := by
  obtain ⟨m, it, m', h1, h2⟩ := h
  exact ⟨m, it, m', by rw [← runFiltered_eq]; exact h1, h2⟩

/-- **C74.** With allowed keys, each collection reports exactly the data points of the specification for the measurements with the other attributes
taken away: measurements that agree on the allowed keys share a point, and none is lost. -/
theorem filtered_report (srt : Sorter K V) (agg : Aggregator A X) (limit : Nat) (o : K × V) (keys : Option (List K)) (ops : List (MapOp K V X))
    (delta : Bool) (pts : List (Attrs K V × A)) (h : ReportedFiltered srt agg limit o keys ops delta pts) :
    Report (sortAndDedup srt) agg limit [o] (restrictHist keys (sinceReset ops [])) pts := by
  have := collection_report srt agg limit o _ delta pts (reported_of_filtered h)
  rw [show ([] : Hist K V X) = restrictHist keys [] from rfl, sinceReset_restrict] at this
  exact this

/-- **C74.** No reported point has a key that is not allowed, but for the overflow point. -/
theorem only_allowed_keys (srt : Sorter K V) (agg : Aggregator A X) (limit : Nat) (o : K × V) (ks : List K) (ops : List (MapOp K V X)) (delta : Bool)
    (pts : List (Attrs K V × A)) (h : ReportedFiltered srt agg limit o (some ks) ops delta pts) (p : Attrs K V × A) (hp : p ∈ pts) :
    p.1 = [o] ∨ ∀ kv ∈ p.1, kv.1 ∈ ks := by
  rcases reported_attributes srt agg limit o _ delta pts (reported_of_filtered h) p hp with h1 | ⟨e, he, h1⟩
  · exact .inl h1
  · right
    rw [show ([] : Hist K V X) = restrictHist (some ks) [] from rfl, sinceReset_restrict] at he
    obtain ⟨f, _, rfl⟩ := List.mem_map.1 he
    have hall : ∀ kv ∈ restrict (some ks) f.2, kv.1 ∈ ks := by
      intro kv hkv
      simpa using (List.mem_filter.1 hkv).2
    rcases h1 with h1 | h1
    · rw [h1]; exact hall
    · intro kv hkv
      rw [h1] at hkv
      have hsub : ∀ (l : Attrs K V) (a : K × V), ∀ x ∈ dedupAfter a l, x ∈ l := by
        intro l
        induction l with
        | nil => intro a x hx; cases hx
        | cons b l ih =>
          intro a x hx
          simp only [dedupAfter] at hx
          split at hx
          · exact List.mem_cons_of_mem _ (ih a x hx)
          · rcases List.mem_cons.1 hx with rfl | hx
            · exact List.mem_cons_self
            · exact List.mem_cons_of_mem _ (ih b x hx)
      have hded : ∀ l : Attrs K V, ∀ x ∈ dedupByKey l, x ∈ l := by
        intro l x hx
        cases l with
        | nil => cases hx
        | cons a l =>
          rcases List.mem_cons.1 hx with rfl | hx
          · exact List.mem_cons_self
          · exact List.mem_cons_of_mem _ (hsub l a x hx)
      exact hall kv ((srt.perm _).subset (hded _ kv hkv))

/-- **C74.** The grand total of a counter does not depend on the allowed keys. -/
theorem filtered_total {N : Type} [AddCommMonoid N] (srt : Sorter K V) (limit : Nat) (o : K × V) (keys : Option (List K)) (ops : List (MapOp K V N))
    (delta : Bool) (pts : List (Attrs K V × N)) (h : ReportedFiltered srt (increment N) limit o keys ops delta pts) :
    (pts.map Prod.snd).sum = ((sinceReset ops []).map Prod.fst).sum := by
  have := total_preserved srt limit o _ delta pts (reported_of_filtered h)
  rw [show ([] : Hist K V N) = restrictHist keys [] from rfl, sinceReset_restrict] at this
  rw [this, restrictHist, List.map_map]; rfl

/-- Two measurements that differ in a key that is not allowed share a point. -/
example : ReportedFiltered stableSorter (increment Nat) 10 (0, 1) (some [1]) [.measure 3 [(1, 10), (2, 20)], .measure 4 [(2, 21), (1, 10)]] false
    [([(1, 10)], 7)] :=
  ⟨_, [([(1, 10)], 0)], _, rfl, rfl⟩

/-! ## Several readers

A callback registered for an observable instrument is run once by every collection of every reader (`register_callback`, pipeline.rs:656-664;
`produce`, pipeline.rs:113-116), and what it observes goes to the aggregators of *all* readers: the `Observable` holds the measures of every pipeline
(meter.rs:154-162, pipeline.rs:726-750). Collections do not overlap here. -/

variable {N : Type}

/-- One collection: by which reader, what the callbacks observe, the order of iteration of that reader's map. -/
structure Collect (K V N : Type) where
  reader : Nat
  obs : List (N × Attrs K V)
  it : List (Attrs K V × Nat)

/-- The aggregators of the readers after a collection, and what it reports: every reader's aggregator gets the observations, then the collecting
reader's is read and reset. precomputed_sum.rs:38-84 -/
def collectOne (srt : Sorter K V) (z : N) (sub : N → N → N) (limit : Nat) (ov : Attrs K V) (s : Nat → PSum K V N) (c : Collect K V N) :
    Option (List (Attrs K V × N) × (Nat → PSum K V N)) :=
  let s1 : Nat → PSum K V N := fun r => ⟨observeAll srt z limit ov (s r).map c.obs, (s r).reported⟩
  if c.it.isPerm (s1 c.reader).map.trackers then
    let d := PSum.delta z sub (s1 c.reader) c.it
    some (d.1, fun r => if r = c.reader then d.2 else s1 r)
  else none

/-- Several collections. -/
def collectRun (srt : Sorter K V) (z : N) (sub : N → N → N) (limit : Nat) (ov : Attrs K V) (s : Nat → PSum K V N) :
    List (Collect K V N) → Option (Nat → PSum K V N)
  | [] => some s
  | c :: cs => match collectOne srt z sub limit ov s c with
    | some (_, s') => collectRun srt z sub limit ov s' cs
    | none => none

/-- The periods of reader `r`: the observations of all collections since its last one, up to and including its own; and what was observed since. -/
def periods (r : Nat) : List (Collect K V N) → List (N × Attrs K V) → List (Cycle K V N) × List (N × Attrs K V)
  | [], acc => ([], acc)
  | c :: cs, acc =>
    if c.reader = r then
      let rest := periods r cs []
      (⟨acc ++ c.obs, c.it⟩ :: rest.1, rest.2)
    else periods r cs (acc ++ c.obs)

theorem observeAll_append (srt : Sorter K V) (z : N) (limit : Nat) (ov : Attrs K V) (m : ValueMap K V N) (a b : List (N × Attrs K V)) :
    observeAll srt z limit ov (observeAll srt z limit ov m a) b = observeAll srt z limit ov m (a ++ b) := by
  simp [observeAll, List.foldl_append]

/-- Reader `r` sees its own periods: a run of all collections is, for `r`, a run of its periods. -/
theorem reader_sees_periods (srt : Sorter K V) (z : N) (sub : N → N → N) (limit : Nat) (ov : Attrs K V) (r : Nat) (cs : List (Collect K V N))
    (s s' : Nat → PSum K V N) (base : PSum K V N) (acc : List (N × Attrs K V))
    (hb : s r = ⟨observeAll srt z limit ov base.map acc, base.reported⟩) (hr : collectRun srt z sub limit ov s cs = some s') :
    ∃ b, base.run srt z sub limit ov (periods r cs acc).1 = some b ∧
      s' r = ⟨observeAll srt z limit ov b.map (periods r cs acc).2, b.reported⟩ := by
  induction cs generalizing s base acc with
  | nil => injection hr with hr; subst hr; exact ⟨base, rfl, hb⟩
  | cons c cs ih =>
    simp only [collectRun] at hr
    split at hr
    · rename_i pts s1 h1
      simp only [collectOne] at h1
      split at h1
      · rename_i hperm
        injection h1 with h1; injection h1 with _ h1
        by_cases hc : c.reader = r
        · subst hc
          simp only [periods, if_true]
          have hnew : s1 c.reader = (PSum.delta z sub ⟨observeAll srt z limit ov base.map (acc ++ c.obs), base.reported⟩ c.it).2 := by
            rw [← h1]
            simp only [if_true, hb, observeAll_append]
          obtain ⟨b, h2, h3⟩ := ih s1 (s1 c.reader) [] (by simp [observeAll]) hr
          refine ⟨b, ?_, h3⟩
          simp only [PSum.run, PSum.cycle]
          rw [hb, observeAll_append] at hperm
          rw [if_pos hperm]
          simp only [← hnew]
          exact h2
        · simp only [periods, if_neg hc]
          refine ih s1 base (acc ++ c.obs) ?_ hr
          rw [← h1]
          simp only [if_neg (Ne.symm hc), hb, observeAll_append]
      · cases h1
    · cases hr

/-- **C75, partial.** Whatever readers collect in whatever order: a collection by reader `r` reports, for each set observed since that reader's previous
collection, the value observed last minus the value observed last in the reader's previous period. In particular every set its own callbacks observe is
reported with the value they observe. The sets have sorted attributes without repeated keys and stay within the limit, as for one reader (C43). Missing:
sets observed only in the collections of other readers are reported too, see `foreign_set_reported_violated`. -/
theorem several_readers_partial (srt : Sorter K V) (z : N) (sub : N → N → N) (limit : Nat) (o : K × V) (cs : List (Collect K V N)) (c : Collect K V N)
    (s s' : Nat → PSum K V N) (pts : List (Attrs K V × N))
    (hg : ∀ d ∈ (periods c.reader (cs ++ [c]) []).1, GoodObs limit d.obs)
    (hr : collectRun srt z sub limit [o] (fun _ => PSum.new z) cs = some s) (hc : collectOne srt z sub limit [o] s c = some (pts, s')) :
    (∀ p ∈ pts, ∃ v, lastObserved ((periods c.reader cs []).2 ++ c.obs) p.1 = some v ∧
        p.2 = sub v ((lastObserved (lastCycle (periods c.reader cs []).1) p.1).getD z))
      ∧ (∀ e ∈ (periods c.reader cs []).2 ++ c.obs, ∃ p ∈ pts, p.1 = e.2) ∧ (pts.map Prod.fst).Nodup
      ∧ ∀ p ∈ pts, ∀ v, lastObserved c.obs p.1 = some v → p.2 = sub v ((lastObserved (lastCycle (periods c.reader cs []).1) p.1).getD z) := by
  have hper : ∀ (cs : List (Collect K V N)) (acc : List (N × Attrs K V)),
      (periods c.reader (cs ++ [c]) acc).1 = (periods c.reader cs acc).1 ++ [⟨(periods c.reader cs acc).2 ++ c.obs, c.it⟩] := by
    intro cs
    induction cs with
    | nil => intro acc; simp [periods]
    | cons d cs ih =>
      intro acc
      by_cases hd : d.reader = c.reader
      · simp only [List.cons_append, periods, if_pos hd, ih]
      · simp only [List.cons_append, periods, if_neg hd, ih]
  rw [hper] at hg
  obtain ⟨b, h1, h2⟩ := reader_sees_periods srt z sub limit [o] c.reader cs _ s (PSum.new z) [] (by simp [observeAll]) hr
  simp only [collectOne] at hc
  split at hc
  · rename_i hperm
    injection hc with hc; injection hc with hpts _
    have hcy : b.cycle srt z sub limit [o] ⟨(periods c.reader cs []).2 ++ c.obs, c.it⟩ =
        some (PSum.delta z sub ⟨observeAll srt z limit [o] b.map ((periods c.reader cs []).2 ++ c.obs), b.reported⟩ c.it) := by
      simp only [PSum.cycle]
      rw [h2, observeAll_append] at hperm
      rw [if_pos hperm]
    have hpts' : pts = (PSum.delta z sub ⟨observeAll srt z limit [o] b.map ((periods c.reader cs []).2 ++ c.obs), b.reported⟩ c.it).1 := by
      rw [← hpts, h2]
      simp only [observeAll_append]
    have key := observable_delta_partial srt z sub limit o _ _ b _ pts hg h1 (hcy.trans (by rw [hpts']))
    refine ⟨key.1, key.2.1, key.2.2, ?_⟩
    intro p hp v hv
    obtain ⟨w, hw, he⟩ := key.1 p hp
    have : w = v := by
      simp only [lastObserved, List.filter_append, List.map_append, List.getLast?_append] at hw hv
      rw [hv] at hw
      simpa using hw.symm
    rw [he, this]
  · cases hc

/-- Two readers in turn: reader 0 sees 5, reader 1 sees 7, reader 0 sees 12. -/
example : let a : Attrs Nat Nat := [(1, 10)]
    let cs : List (Collect Nat Nat Int) := [⟨0, [(5, a)], [(a, 0)]⟩, ⟨1, [(7, a)], [(a, 0)]⟩]
    ∃ s s', collectRun stableSorter 0 (· - ·) 10 [(0, 1)] (fun _ => PSum.new 0) cs = some s ∧
      collectOne stableSorter 0 (· - ·) 10 [(0, 1)] s ⟨0, [(12, a)], [(a, 1)]⟩ = some ([(a, 7)], s') :=
  ⟨_, _, rfl, rfl⟩

/-- **C75, violated.** A set that the callbacks observed only when reader 1 collected is reported by reader 0, whose own collection did not observe it. -/
theorem foreign_set_reported_violated :
    let a : Attrs Nat Nat := [(1, 10)]
    ∃ s s', collectRun stableSorter (0 : Int) (· - ·) 10 [(0, 1)] (fun _ => PSum.new 0) [⟨1, [(7, a)], [(a, 0)]⟩] = some s ∧
      collectOne stableSorter 0 (· - ·) 10 [(0, 1)] s ⟨0, [], [(a, 0)]⟩ = some ([(a, 7)], s') :=
  ⟨_, _, rfl, rfl⟩

/-- **C75, violated.** With cumulative temporality a set that is no longer observed is reported for ever, with one reader too: the store is read and not
reset (precomputed_sum.rs:88-124). -/
theorem stale_set_reported_violated :
    let a : Attrs Nat Nat := [(1, 10)]
    let m := observeAll stableSorter (0 : Int) 10 [(0, 1)] (ValueMap.new (assign Int 0)) [(5, a)]
    (m.collectReadonly [(a, 0)] = [(a, 5)]) ∧ (observeAll stableSorter (0 : Int) 10 [(0, 1)] m []).collectReadonly [(a, 0)] = [(a, 5)] := by
  refine ⟨rfl, rfl⟩

/-- One collection, by reader `c.reader`, of an observable instrument with any other aggregation and cumulative temporality: the observations go to every
reader's store, and the collecting reader's is read. -/
def collectCumulative (srt : Sorter K V) (agg : Aggregator A N) (limit : Nat) (ov : Attrs K V) (s : Nat → ValueMap K V A) (c : Collect K V N) :
    List (Attrs K V × A) × (Nat → ValueMap K V A) :=
  let s1 : Nat → ValueMap K V A := fun r => c.obs.foldl (fun m e => m.measure srt agg limit ov e.1 e.2) (s r)
  ((s1 c.reader).collectReadonly c.it, s1)

/-- **C75, violated.** An observable instrument with a histogram view: each reader's histogram also counts the observations made for the other. Two
readers collect once each, the callback observes one value each time; the second reader's histogram has two observations. -/
theorem foreign_observation_counted_violated (num : NumOps Int) :
    let agg : Aggregator (Buckets Int) (Int × Nat) := bucketsAgg num 2
    let a : Attrs Nat Nat := [(1, 10)]
    let c0 : Collect Nat Nat (Int × Nat) := ⟨0, [((3, 1), a)], [(a, 0)]⟩
    let c1 : Collect Nat Nat (Int × Nat) := ⟨1, [((3, 1), a)], [(a, 0)]⟩
    let r0 := collectCumulative stableSorter agg 10 [(0, 1)] (fun _ => ValueMap.new agg) c0
    let r1 := collectCumulative stableSorter agg 10 [(0, 1)] r0.2 c1
    r0.1.map (fun p => p.2.count) = [1] ∧ r1.1.map (fun p => p.2.count) = [2] ∧ r1.1.map (fun p => p.2.counts) = [[0, 2]] :=
  ⟨rfl, rfl, rfl⟩

end Otel.Metrics
