import Verif.Metrics.AggregationProps
/-!
# Observable counters (`opentelemetry-sdk/src/metrics/internal/precomputed_sum.rs`) and collection times (C43, C44)
-/

namespace Otel.Metrics

variable {K V : Type} [LinearOrder K] [DecidableEq V] {N : Type}

/-- `PrecomputedSum<T>` with delta temporality: the store and what was reported last. precomputed_sum.rs:12-19. The hash map
`reported` is an association list without repeated keys. -/
structure PSum (K V N : Type) where
  map : ValueMap K V N
  reported : List (Attrs K V × N)

/-- `PrecomputedSum::new`. precomputed_sum.rs:22-36 -/
def PSum.new (z : N) : PSum K V N := ⟨ValueMap.new (assign N z), []⟩

/-- `HashMap::get` on `reported`. -/
def lookupReported (l : List (Attrs K V × N)) (a : Attrs K V) : Option N := (l.find? fun e => e.1 = a).map Prod.snd

/-- The observations of one run of the callbacks. -/
def observeAll (srt : Sorter K V) (z : N) (limit : Nat) (ov : Attrs K V) (m : ValueMap K V N) (obs : List (N × Attrs K V)) : ValueMap K V N :=
  obs.foldl (fun m e => m.measure srt (assign N z) limit ov e.1 e.2) m

/-- `delta`: the points of the store become differences to what was reported before for the same list of attributes.
`new_reported.insert` happens once per point; the points have different lists, so the new map is the list of points.
precomputed_sum.rs:38-84 -/
def PSum.delta (z : N) (sub : N → N → N) (s : PSum K V N) (it : List (Attrs K V × Nat)) : List (Attrs K V × N) × PSum K V N :=
  let pts := (s.map.collectAndReset (assign N z) it).1
  (pts.map fun p => (p.1, sub p.2 ((lookupReported s.reported p.1).getD z)),
   ⟨(s.map.collectAndReset (assign N z) it).2, pts⟩)

/-- One collection cycle: observe, then collect in some order of iteration. -/
structure Cycle (K V N : Type) where
  obs : List (N × Attrs K V)
  it : List (Attrs K V × Nat)

/-- Run one cycle. -/
def PSum.cycle (srt : Sorter K V) (z : N) (sub : N → N → N) (limit : Nat) (ov : Attrs K V) (s : PSum K V N) (c : Cycle K V N) :
    Option (List (Attrs K V × N) × PSum K V N) :=
  let m := observeAll srt z limit ov s.map c.obs
  if c.it.isPerm m.trackers then some (PSum.delta z sub ⟨m, s.reported⟩ c.it) else none

/-- Run several cycles. -/
def PSum.run (srt : Sorter K V) (z : N) (sub : N → N → N) (limit : Nat) (ov : Attrs K V) (s : PSum K V N) : List (Cycle K V N) → Option (PSum K V N)
  | [] => some s
  | c :: cs => match s.cycle srt z sub limit ov c with
    | some (_, s') => s'.run srt z sub limit ov cs
    | none => none

/-- The last value observed for an attribute list in a cycle. -/
def lastObserved (obs : List (N × Attrs K V)) (a : Attrs K V) : Option N :=
  ((obs.filter fun e => e.2.isPerm a).map Prod.fst).getLast?

/-! ## Proofs -/

theorem observeAll_inv (srt : Sorter K V) (z : N) (limit : Nat) (o : K × V) (m : ValueMap K V N) (h : Hist K V N)
    (hi : MInv (sortAndDedup srt) (assign N z) limit [o] m h) (hr : RawKeys (sortAndDedup srt) [o] m h) (obs : List (N × Attrs K V)) :
    MInv (sortAndDedup srt) (assign N z) limit [o] (observeAll srt z limit [o] m obs) (h ++ obs)
      ∧ RawKeys (sortAndDedup srt) [o] (observeAll srt z limit [o] m obs) (h ++ obs) := by
  induction obs generalizing m h with
  | nil => simpa [observeAll] using ⟨hi, hr⟩
  | cons e obs ih =>
    have := ih _ _ (minv_measure rfl (canon_sortAndDedup srt o) hi e.1 e.2) (rawKeys_measure srt _ limit [o] m h hr e.1 e.2)
    simpa [observeAll] using this

/-- What holds between cycles: the store is empty and `reported` has the last observations of the previous cycle. -/
structure PInv (srt : Sorter K V) (z : N) (limit : Nat) (o : K × V) (s : PSum K V N) (prev : List (N × Attrs K V)) : Prop where
  map : MInv (sortAndDedup srt) (assign N z) limit [o] s.map []
  raw : RawKeys (sortAndDedup srt) [o] s.map ([] : Hist K V N)
  reported : ∀ a, Strict a → lookupReported s.reported a = lastObserved prev a

/-- Observations with sorted attributes without repeated keys, of at most `limit` sets. -/
def GoodObs (limit : Nat) (obs : List (N × Attrs K V)) : Prop :=
  (∀ e ∈ obs, Strict e.2) ∧ ∃ L : List (Attrs K V), L.length ≤ limit ∧ ∀ e ∈ obs, e.2 ≠ [] → e.2 ∈ L

theorem strict_keys {a : Attrs K V} (h : Strict a) : (a.map Prod.fst).Nodup := by
  rw [List.Nodup, List.pairwise_map]; exact h.imp fun hab => ne_of_lt hab

theorem strict_perm {a b : Attrs K V} (ha : Strict a) (hb : Strict b) : a.Perm b ↔ a = b :=
  ⟨fun h => strict_perm_eq hb (ha.imp fun hab => le_of_lt hab) h, fun h => h ▸ List.Perm.refl _⟩

/-- The points of one cycle before the subtraction. -/
theorem psum_points (srt : Sorter K V) (z : N) (limit : Nat) (o : K × V) (s : PSum K V N) (prev : List (N × Attrs K V))
    (hs : PInv srt z limit o s prev) (obs : List (N × Attrs K V)) (hg : GoodObs limit obs) (it : List (Attrs K V × Nat))
    (hp : it.isPerm (observeAll srt z limit [o] s.map obs).trackers = true) :
    let pts := ((observeAll srt z limit [o] s.map obs).collectAndReset (assign N z) it).1
    (∀ p ∈ pts, Strict p.1 ∧ some p.2 = lastObserved obs p.1) ∧ (pts.map Prod.fst).Nodup ∧ ∀ e ∈ obs, ∃ p ∈ pts, p.1 = e.2 := by
  obtain ⟨hstrict, L, hlen, hL⟩ := hg
  obtain ⟨hi, hr⟩ := observeAll_inv srt z limit o s.map [] hs.map hs.raw obs
  simp only [List.nil_append] at hi hr
  have hc := canon_sortAndDedup srt o
  have hrep : Report (sortAndDedup srt) (assign N z) limit [o] obs ((observeAll srt z limit [o] s.map obs).collectAndReset (assign N z) it).1 :=
    report_of_minv hc hi it (List.isPerm_iff.1 hp)
  have hlim : (setsOf (sortAndDedup srt) obs).length ≤ limit := by
    refine Nat.le_trans (sets_within srt obs L ?_ ?_) hlen
    · intro e he hne; exact ⟨e.2, hL e he hne, List.Perm.refl _⟩
    · intro e he; exact strict_keys (hstrict e he)
  have hroute : ∀ e ∈ obs, route (sortAndDedup srt) limit [o] obs e.2 = e.2 := by
    intro e he
    rw [route_within srt limit o obs hlim e he]
    exact canon_of_strict srt _ (hstrict e he)
  have hst : ∀ p ∈ ((observeAll srt z limit [o] s.map obs).collectAndReset (assign N z) it).1, Strict p.1 := by
    intro p hp'
    simp only [ValueMap.collectAndReset, List.mem_append] at hp'
    rcases hp' with hp' | hp'
    · unfold ValueMap.noAttrPoint at hp'
      split at hp'
      · simp at hp'; rw [hp']; simp [Strict]
      · cases hp'
    · obtain ⟨e, he, rfl⟩ := List.mem_map.1 hp'
      rcases hr e ((List.isPerm_iff.1 hp).subset ((firstOfEach_spec [] it).1.subset he)) with h1 | ⟨f, hf, h1 | h1⟩
      · show Strict e.1; rw [h1]; simp [Strict]
      · show Strict e.1; rw [h1]; exact hstrict f hf
      · show Strict e.1; rw [h1]; exact canon_strict srt _
  refine ⟨?_, ?_, ?_⟩
  · intro p hp'
    have h1 := hst p hp'
    refine ⟨h1, ?_⟩
    obtain ⟨h2, h3⟩ := hrep.values p hp'
    rw [canon_of_strict srt _ h1] at h2 h3
    have hv : valuesOf (sortAndDedup srt) limit [o] obs p.1 = (obs.filter fun e => e.2.isPerm p.1).map Prod.fst := by
      unfold valuesOf
      congr 1
      apply List.filter_congr
      intro e he
      rw [hroute e he, Bool.eq_iff_iff, List.isPerm_iff, decide_eq_true_iff]
      exact (strict_perm (hstrict e he) h1).symm
    rw [hv] at h2 h3
    rw [h3, assign_foldl, lastObserved]
    cases hl : ((obs.filter fun e => e.2.isPerm p.1).map Prod.fst).getLast? with
    | none => exact absurd (List.getLast?_eq_none_iff.1 hl) h2
    | some v => rfl
  · have := hrep.distinct
    rw [List.map_congr_left (g := Prod.fst)] at this
    · exact this
    · intro p hp'; exact canon_of_strict srt _ (hst p hp')
  · intro e he
    obtain ⟨p, hp', h1⟩ := hrep.complete e he
    refine ⟨p, hp', ?_⟩
    rw [hroute e he, canon_of_strict srt _ (hst p hp')] at h1
    exact h1

theorem lookup_nodup (l : List (Attrs K V × N)) (hn : (l.map Prod.fst).Nodup) (p : Attrs K V × N) (hp : p ∈ l) : lookupReported l p.1 = some p.2 := by
  unfold lookupReported
  cases hf : l.find? fun e => e.1 = p.1 with
  | none => exact absurd (List.find?_eq_none.1 hf p hp) (by simp)
  | some e =>
    have h1 := List.mem_of_find?_eq_some hf
    have h2 : e.1 = p.1 := by simpa using List.find?_some hf
    rw [List.inj_on_of_nodup_map hn h1 hp h2]; rfl

theorem pinv_cycle (srt : Sorter K V) (z : N) (sub : N → N → N) (limit : Nat) (o : K × V) (s s' : PSum K V N) (prev : List (N × Attrs K V))
    (hs : PInv srt z limit o s prev) (c : Cycle K V N) (hg : GoodObs limit c.obs) (pts : List (Attrs K V × N))
    (hc : s.cycle srt z sub limit [o] c = some (pts, s')) : PInv srt z limit o s' c.obs := by
  simp only [PSum.cycle] at hc
  split at hc
  · rename_i hp
    injection hc with hc; injection hc with h1 h2; subst h2
    obtain ⟨hi, _⟩ := observeAll_inv srt z limit o s.map [] hs.map hs.raw c.obs
    obtain ⟨q1, q2, q3⟩ := psum_points srt z limit o s prev hs c.obs hg c.it hp
    refine ⟨minv_reset hi c.it, (by intro e he; cases he), ?_⟩
    intro a ha
    show lookupReported ((observeAll srt z limit [o] s.map c.obs).collectAndReset (assign N z) c.it).1 a = _
    cases hl : lookupReported ((observeAll srt z limit [o] s.map c.obs).collectAndReset (assign N z) c.it).1 a with
    | some v =>
      obtain ⟨e, he, rfl⟩ := Option.map_eq_some_iff.1 hl
      have h3 := List.mem_of_find?_eq_some he
      have h4 : e.1 = a := by simpa using List.find?_some he
      rw [← h4]; exact (q1 e h3).2
    | none =>
      symm
      rw [lastObserved, List.getLast?_eq_none_iff, List.map_eq_nil_iff, List.filter_eq_nil_iff]
      intro e he hpe
      obtain ⟨p, hp', h3⟩ := q3 e he
      have h4 : e.2 = a := (strict_perm (hg.1 e he) ha).1 (List.isPerm_iff.1 hpe)
      have := lookup_nodup _ q2 p hp'
      rw [h3, h4, hl] at this; cases this
  · cases hc

/-- The observations of the last of some cycles. -/
def lastCycle (cs : List (Cycle K V N)) : List (N × Attrs K V) := (cs.getLast?.map Cycle.obs).getD []

theorem pinv_run (srt : Sorter K V) (z : N) (sub : N → N → N) (limit : Nat) (o : K × V) (cs : List (Cycle K V N)) (s s' : PSum K V N)
    (prev : List (N × Attrs K V)) (hs : PInv srt z limit o s prev) (hg : ∀ c ∈ cs, GoodObs limit c.obs)
    (hc : s.run srt z sub limit [o] cs = some s') : PInv srt z limit o s' ((cs.getLast?.map Cycle.obs).getD prev) := by
  induction cs generalizing s prev with
  | nil => injection hc with hc; subst hc; exact hs
  | cons c cs ih =>
    simp only [PSum.run] at hc
    split at hc
    · rename_i pts s1 h1
      have := ih s1 c.obs (pinv_cycle srt z sub limit o s s1 prev hs c (hg c List.mem_cons_self) pts h1)
        (fun d hd => hg d (List.mem_cons_of_mem _ hd)) hc
      cases cs with
      | nil => simpa using this
      | cons d cs => rw [List.getLast?_cons_cons]; obtain ⟨x, hx⟩ : ∃ x, (d :: cs).getLast? = some x := ⟨_, List.getLast?_eq_some_getLast (by simp)⟩
                     rw [hx] at this ⊢; exact this
    · cases hc

theorem pinv_new (srt : Sorter K V) (z : N) (limit : Nat) (o : K × V) : PInv srt z limit o (PSum.new z) [] :=
  ⟨minv_new, (by intro e he; cases he), fun a _ => by simp [PSum.new, lookupReported, lastObserved]⟩

/-- **C43, partial.** If the callbacks give attributes sorted by key and without repeated keys, for at most `limit` sets per cycle:
after any number of cycles the next collection reports, for each set observed in it, the value observed last in this cycle minus the
value observed last in the previous cycle (zero if there was none). Missing: attributes in another order, see
`reordered_attributes_violated`. -/
theorem observable_delta_partial (srt : Sorter K V) (z : N) (sub : N → N → N) (limit : Nat) (o : K × V) (cs : List (Cycle K V N)) (c : Cycle K V N)
    (s s' : PSum K V N) (pts : List (Attrs K V × N)) (hg : ∀ d ∈ cs ++ [c], GoodObs limit d.obs)
    (hr : (PSum.new z).run srt z sub limit [o] cs = some s) (hc : s.cycle srt z sub limit [o] c = some (pts, s')) :
    (∀ p ∈ pts, ∃ v, lastObserved c.obs p.1 = some v ∧ p.2 = sub v ((lastObserved (lastCycle cs) p.1).getD z))
      ∧ (∀ e ∈ c.obs, ∃ p ∈ pts, p.1 = e.2) ∧ (pts.map Prod.fst).Nodup := by
  have hs := pinv_run srt z sub limit o cs _ s [] (pinv_new srt z limit o) (fun d hd => hg d (List.mem_append_left _ hd)) hr
  simp only [PSum.cycle] at hc
  split at hc
  · rename_i hp
    injection hc with hc; injection hc with h1 h2
    obtain ⟨q1, q2, q3⟩ := psum_points srt z limit o s _ hs c.obs (hg c (by simp)) c.it hp
    simp only at h1
    subst h1
    refine ⟨?_, ?_, ?_⟩
    · intro p hp'
      obtain ⟨q, hq, rfl⟩ := List.mem_map.1 hp'
      obtain ⟨h3, h4⟩ := q1 q hq
      exact ⟨q.2, h4.symm, by simp only [hs.reported q.1 h3]; rfl⟩
    · intro e he
      obtain ⟨q, hq, h3⟩ := q3 e he
      exact ⟨_, List.mem_map.2 ⟨q, hq, rfl⟩, h3⟩
    · rw [List.map_map]; exact q2
  · cases hc

/-- The hypotheses are met by two cycles: 5 observed, then 12, gives 7. -/
example : let c1 : Cycle Nat Nat Int := ⟨[(5, [(1, 10), (2, 20)])], [([(1, 10), (2, 20)], 0)]⟩
    let c2 : Cycle Nat Nat Int := ⟨[(12, [(1, 10), (2, 20)])], [([(1, 10), (2, 20)], 1)]⟩
    ∃ s s', (PSum.new (0 : Int)).run stableSorter 0 (· - ·) 10 [(0, 1)] [c1] = some s
      ∧ s.cycle stableSorter 0 (· - ·) 10 [(0, 1)] c2 = some ([([(1, 10), (2, 20)], 7)], s') :=
  ⟨_, _, rfl, rfl⟩

/-- **C43, violated.** The same attributes in a fixed but unsorted order, observed as 5 and then 12: the map has an entry for the order
given and one for the sorted order, and the collection takes whichever the hash map yields first. When that differs between two
collections, the second reports 12 instead of 7. -/
theorem reordered_attributes_violated :
    let c1 : Cycle Nat Nat Int := ⟨[(5, [(2, 20), (1, 10)])], [([(2, 20), (1, 10)], 0), ([(1, 10), (2, 20)], 0)]⟩
    let c2 : Cycle Nat Nat Int := ⟨[(12, [(2, 20), (1, 10)])], [([(1, 10), (2, 20)], 1), ([(2, 20), (1, 10)], 1)]⟩
    ∃ s s', (PSum.new (0 : Int)).run stableSorter 0 (· - ·) 10 [(0, 1)] [c1] = some s
      ∧ s.cycle stableSorter 0 (· - ·) 10 [(0, 1)] c2 = some ([([(1, 10), (2, 20)], 12)], s') :=
  ⟨_, _, rfl, rfl⟩

/-! ## Collection times (C44) -/

/-- `AggregateTimeInitiator`: the start time. `now` is the reading of the clock. aggregate.rs:60-90. Collections of one instrument are
serialised by the lock of the pipeline (pipeline.rs:104-109). -/
def timeDelta (start now : Nat) : (Nat × Nat) × Nat := ((start, now), now)

/-- `cumulative`. aggregate.rs:76-83 -/
def timeCumulative (start now : Nat) : (Nat × Nat) × Nat := ((start, now), start)

/-- The intervals reported by collections at the times `nows`. -/
def intervals (f : Nat → Nat → (Nat × Nat) × Nat) : Nat → List Nat → List (Nat × Nat)
  | _, [] => []
  | start, now :: nows => (f start now).1 :: intervals f (f start now).2 nows

/-- **C44.** Delta intervals tile the time since the instrument was created: the first starts there, each ends when its collection was
made, and each next one starts where the previous one ended. -/
theorem delta_tiles (t0 : Nat) (nows : List Nat) :
    (intervals timeDelta t0 nows).map Prod.snd = nows
      ∧ (intervals timeDelta t0 nows).map Prod.fst = (t0 :: nows).take nows.length := by
  induction nows generalizing t0 with
  | nil => simp [intervals]
  | cons n nows ih =>
    obtain ⟨h1, h2⟩ := ih n
    refine ⟨by simp only [intervals, List.map_cons, timeDelta, h1], ?_⟩
    simp only [intervals, List.map_cons, timeDelta, h2, List.length_cons, List.take_succ_cons]

/-- **C44.** Cumulative intervals all start when the instrument was created. -/
theorem cumulative_starts (t0 : Nat) (nows : List Nat) : intervals timeCumulative t0 nows = nows.map fun n => (t0, n) := by
  induction nows with
  | nil => rfl
  | cons n nows ih => simp only [intervals, timeCumulative, List.map_cons, ih]

example : intervals timeDelta 10 [20, 35] = [(10, 20), (20, 35)] := rfl

end Otel.Metrics
