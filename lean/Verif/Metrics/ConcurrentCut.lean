import Verif.Metrics.ConcurrentSets
import Mathlib.Data.List.Perm.Subperm
/-!
# What a collection has of the measurements made before it began (C104)

Consequences of C38: the measurements whose calls had returned before a collection began are in it, or, with delta temporality, in one before it. No code is modelled here.
-/

set_option linter.unusedSectionVars false

namespace Otel.Metrics.Conc

variable {K V : Type} [LinearOrder K] [DecidableEq V] {A X : Type}

/-- Among measurements, those with attributes. -/
def attrsPart (l : List (Nat × X × Attrs K V)) : Hist K V X := (l.filter fun e => e.2.2 ≠ []).map fun e => e.2

/-- And those without. -/
def bareOf (l : List (Nat × X × Attrs K V)) : List (Nat × X) := (l.filter fun e => e.2.2 = []).map fun e => (e.1, e.2.1)

theorem attrsPart_append (l m : List (Nat × X × Attrs K V)) : attrsPart (l ++ m) = attrsPart l ++ attrsPart m := by simp [attrsPart]
theorem bareOf_append (l m : List (Nat × X × Attrs K V)) : bareOf (l ++ m) = bareOf l ++ bareOf m := by simp [bareOf]
theorem attrsPart_bare (t : Nat) (x : X) : attrsPart [((t, x, []) : Nat × X × Attrs K V)] = [] := by simp [attrsPart]
theorem bareOf_bare (t : Nat) (x : X) : bareOf [((t, x, []) : Nat × X × Attrs K V)] = [(t, x)] := by simp [bareOf]
theorem attrsPart_cons (t : Nat) (x : X) {a : Attrs K V} (h : a ≠ []) : attrsPart [(t, x, a)] = [(x, a)] := by simp [attrsPart, h]
theorem bareOf_cons (t : Nat) (x : X) {a : Attrs K V} (h : a ≠ []) : bareOf [(t, x, a)] = [] := by simp [bareOf, h]

/-- The calls with attributes return when they are applied; `fl` are the calls without attributes that are applied and have not set the flag. While the flag is unset and no
collector has taken it, nothing else is in the store without attributes. -/
structure Cut (s : State K V A X) : Prop where
  attrs : attrsPart s.returned = attrsPart s.applied
  pcs : ∀ t x a, (s.pc t = .lookup x a ∨ s.pc t = .write x a ∨ ∃ p, s.pc t = .found x a p) → a ≠ []
  bare : ∃ fl : List (Nat × X), (bareOf s.applied).Perm (bareOf s.returned ++ fl) ∧ (∀ t x, s.pc t = .noFlag x → (t, x) ∈ fl) ∧
    (s.flag = false → s.coll ≠ .takeNo → s.noHist.Subperm fl)

theorem cut_reachable {cfg : Cfg K V A X} {s : State K V A X} (h : Reachable cfg s) : Cut s := by
  induction h with
  | init => exact ⟨rfl, fun t x a h => by simp [State.init] at h, [], by simp [State.init, bareOf], fun t x h => by simp [State.init] at h, fun _ _ => by simp [State.init]⟩
  | @step s s' hr a hs ih =>
    obtain ⟨i1, i2, fl, i3, i4, i5⟩ := ih
    cases a with
    | call t x a =>
      simp only [step] at hs
      split at hs
      · injection hs with hs; subst hs
        refine ⟨i1, fun u y b hu => ?_, fl, i3, fun u y hu => ?_, i5⟩
        · by_cases hut : u = t
          · subst hut
            by_cases ha : a = []
            · simp [setPc, ha] at hu
            · simp [setPc, ha] at hu; rw [← hu.2]; exact ha
          · simp only [setPc, if_neg hut] at hu; exact i2 u y b hu
        · by_cases hut : u = t
          · subst hut
            by_cases ha : a = [] <;> simp [setPc, ha] at hu
          · simp only [setPc, if_neg hut] at hu; exact i4 u y hu
      · cases hs
    | thread t =>
      have hpc : ∀ {v : MPc K V X} (hv : ∀ x a, (v = .lookup x a ∨ v = .write x a ∨ ∃ p, v = .found x a p) → a ≠ []),
          ∀ u x a, (setPc s.pc t v u = .lookup x a ∨ setPc s.pc t v u = .write x a ∨ ∃ p, setPc s.pc t v u = .found x a p) → a ≠ [] := by
        intro v hv u x a hu
        by_cases hut : u = t
        · subst hut; simp only [setPc, if_true] at hu; exact hv x a hu
        · simp only [setPc, if_neg hut] at hu; exact i2 u x a hu
      have hfl : ∀ {v : MPc K V X} {fl' : List (Nat × X)} (hv : ∀ x, v = .noFlag x → (t, x) ∈ fl') (hsub : ∀ e ∈ fl, e.1 ≠ t → e ∈ fl'),
          ∀ u x, setPc s.pc t v u = .noFlag x → (u, x) ∈ fl' := by
        intro v fl' hv hsub u x hu
        by_cases hut : u = t
        · subst hut; simp only [setPc, if_true] at hu; exact hv x hu
        · simp only [setPc, if_neg hut] at hu; exact hsub _ (i4 u x hu) hut
      simp only [step, threadStep] at hs
      split at hs
      · cases hs
      · rename_i x hx
        injection hs with hs; subst hs
        refine ⟨by rw [i1, attrsPart_append, attrsPart_bare, List.append_nil], hpc (by simp), fl ++ [(t, x)], ?_, hfl (by simp) (fun e he _ => by simp [he]), fun h1 h2 => ?_⟩
        · rw [bareOf_append, bareOf_bare, ← List.append_assoc]; exact i3.append_right _
        · exact (i5 h1 h2).append (List.Subperm.refl _)
      · rename_i x hx
        injection hs with hs; subst hs
        obtain ⟨l1, l2, hl⟩ := List.append_of_mem (i4 t x hx)
        refine ⟨by rw [attrsPart_append, attrsPart_bare, List.append_nil, i1], hpc (by simp), l1 ++ l2, ?_, hfl (by simp) (fun e he hne => ?_), fun h1 => by cases h1⟩
        · rw [bareOf_append, bareOf_bare, List.append_assoc]
          refine i3.trans (List.Perm.append_left _ ?_)
          rw [hl]; exact List.perm_middle
        · rw [hl] at he
          rcases List.mem_append.1 he with he | he
          · exact List.mem_append_left _ he
          · rcases List.mem_cons.1 he with rfl | he
            · exact absurd rfl hne
            · exact List.mem_append_right _ he
      · rename_i x a hx
        have ha := i2 t x a (.inl hx)
        split at hs
        · injection hs with hs; subst hs
          exact ⟨i1, hpc (by rintro y b (h | h | ⟨p, h⟩) <;> cases h; exact ha), fl, i3, hfl (by simp) (fun e he _ => he), i5⟩
        · injection hs with hs; subst hs
          exact ⟨i1, hpc (by rintro y b (h | h | ⟨p, h⟩) <;> cases h; exact ha), fl, i3, hfl (by simp) (fun e he _ => he), i5⟩
      · rename_i x a p hx
        have ha := i2 t x a (.inr (.inr ⟨p, hx⟩))
        injection hs with hs; subst hs
        refine ⟨by rw [attrsPart_append, attrsPart_append, i1], hpc (by simp), fl, ?_, hfl (by simp) (fun e he _ => he), i5⟩
        rw [bareOf_append, bareOf_append, bareOf_cons t x ha, List.append_nil, List.append_nil]; exact i3
      · rename_i x a hx
        have ha := i2 t x a (.inr (.inl hx))
        split at hs
        · injection hs with hs; subst hs
          refine ⟨by rw [attrsPart_append, attrsPart_append, i1], hpc (by simp), fl, ?_, hfl (by simp) (fun e he _ => he), i5⟩
          rw [bareOf_append, bareOf_append, bareOf_cons t x ha, List.append_nil, List.append_nil]; exact i3
        · cases hs
    | collect =>
      simp only [step] at hs
      split at hs
      · rename_i hc
        injection hs with hs; subst hs
        exact ⟨i1, i2, fl, i3, i4, fun h1 _ => i5 h1 (by rw [hc]; simp)⟩
      · cases hs
    | collector it =>
      simp only [step, collectorStep] at hs
      split at hs
      · cases hs
      · rename_i hc
        split at hs
        · injection hs with hs; subst hs
          exact ⟨i1, i2, fl, i3, i4, fun _ h2 => absurd rfl h2⟩
        · injection hs with hs; subst hs
          exact ⟨i1, i2, fl, i3, i4, fun h1 _ => i5 h1 (by rw [hc]; simp)⟩
      · rename_i hc
        injection hs with hs; subst hs
        refine ⟨i1, i2, fl, i3, i4, fun h1 _ => ?_⟩
        cases hd : cfg.delta with
        | true => simp
        | false => exact absurd ((takeNo_flag hr hd hc).symm.trans h1) (by simp)
      · rename_i hc
        split at hs
        · split at hs
          · split at hs
            · injection hs with hs; subst hs
              exact ⟨i1, i2, fl, i3, i4, fun h1 _ => i5 h1 (by rw [hc]; simp)⟩
            · cases hs
          · injection hs with hs; subst hs
            exact ⟨i1, i2, fl, i3, i4, fun h1 _ => i5 h1 (by rw [hc]; simp)⟩
        · cases hs
      · rename_i hc
        injection hs with hs; subst hs
        exact ⟨i1, i2, fl, i3, i4, fun h1 _ => i5 h1 (by rw [hc]; simp)⟩
      · rename_i hc
        split at hs <;> (injection hs with hs; subst hs; exact ⟨i1, i2, fl, i3, i4, fun h1 _ => i5 h1 (by rw [hc]; simp)⟩)

/-- Measurements without attributes that have returned have been applied. -/
theorem bare_returned {cfg : Cfg K V A X} {s : State K V A X} (h : Reachable cfg s) : (bareOf s.returned).Subperm s.appliedNo := by
  obtain ⟨_, _, fl, h1, _, _⟩ := cut_reachable h
  exact (List.sublist_append_left _ _).subperm.trans h1.symm.subperm

/-- If the flag is unset and not taken by a collector, all that have returned have been collected. -/
theorem bare_settled {cfg : Cfg K V A X} (hd : cfg.delta = true) {s : State K V A X} (h : Reachable cfg s) (hf : s.flag = false) (hc : s.coll ≠ .takeNo) :
    (bareOf s.returned).Subperm (s.done.flatMap (fun r => r.noVals.getD []) ++ s.cur.noVals.getD []) := by
  obtain ⟨_, _, fl, h1, _, h2⟩ := cut_reachable h
  have h3 := (logs_reachable h).no hd
  obtain ⟨l, hl, hs⟩ := h2 hf hc
  obtain ⟨fl2, hfl⟩ := hs.exists_perm_append
  have h4 : (s.done.flatMap (fun r => r.noVals.getD []) ++ s.cur.noVals.getD [] ++ s.noHist).Perm (bareOf s.returned ++ fl2 ++ s.noHist) := by
    rw [← h3]
    refine h1.trans ?_
    rw [List.append_assoc]
    refine List.Perm.append_left _ (hfl.trans ?_)
    exact (List.Perm.append_right _ hl).trans List.perm_append_comm
  exact (List.sublist_append_left _ _).subperm.trans ((List.perm_append_right_iff _).1 h4).symm.subperm

/-- The values of a set among measurements. -/
def valuesIn (srt : Sorter K V) (l : List (Nat × X × Attrs K V)) (a : Attrs K V) : List X :=
  (l.filter fun e => sortAndDedup srt e.2.2 = sortAndDedup srt a).map fun e => e.2.1

theorem valuesIn_eq (srt : Sorter K V) (l : List (Nat × X × Attrs K V)) (a : Attrs K V) : valuesIn srt l a = setValues srt (attrsPart l) (bareOf l) a := by
  unfold setValues valuesIn
  split
  · rename_i ha
    subst ha
    rw [bareOf, List.map_map]
    congr 1
    apply List.filter_congr
    intro e _
    simp only [canon_nil, canon_eq_nil]
  · rename_i ha
    rw [attrsPart, List.filter_map, List.map_map, List.filter_filter]
    congr 1
    apply List.filter_congr
    intro e _
    simp only [Function.comp]
    by_cases he : sortAndDedup srt e.2.2 = sortAndDedup srt a
    · have : e.2.2 ≠ [] := fun hn => ha (by rw [hn, canon_nil] at he; exact (canon_eq_nil srt a).1 he.symm)
      simp [he, this]
    · simp [he]

theorem setValues_subperm (srt : Sorter K V) {h h' : Hist K V X} {no no' : List (Nat × X)} (hh : h <+: h') (hn : no.Subperm no') (a : Attrs K V) :
    (setValues srt h no a).Subperm (setValues srt h' no' a) := by
  unfold setValues
  split
  · obtain ⟨l, hl, hs⟩ := hn
    exact ⟨l.map Prod.snd, hl.map _, hs.map _⟩
  · obtain ⟨x, rfl⟩ := hh
    rw [List.filter_append, List.map_append]
    exact (List.sublist_append_left _ _).subperm

/-! ## Delta -/

/-- A collection is running that began after the calls `B` had returned. -/
def TakesDelta (B : List (Nat × X × Attrs K V)) (s : State K V A X) : Prop := match s.coll with
  | .idle => False
  | .flag => True
  | .takeNo => True
  | .lock => (bareOf B).Subperm (s.done.flatMap (fun r => r.noVals.getD []) ++ s.cur.noVals.getD [])
  | .walk _ _ => (bareOf B).Subperm (s.done.flatMap (fun r => r.noVals.getD []) ++ s.cur.noVals.getD []) ∧ attrsPart B <+: s.done.flatMap (·.period) ++ s.cur.period

/-- The measurements `B` have been collected. -/
def TookDelta (B : List (Nat × X × Attrs K V)) (rs : List (Collection K V A X)) : Prop :=
  (bareOf B).Subperm (rs.flatMap fun r => r.noVals.getD []) ∧ attrsPart B <+: rs.flatMap (·.period)

theorem TookDelta.append {B : List (Nat × X × Attrs K V)} {rs : List (Collection K V A X)} (h : TookDelta B rs) (qs : List (Collection K V A X)) : TookDelta B (rs ++ qs) := by
  rw [TookDelta, List.flatMap_append, List.flatMap_append]
  exact ⟨h.1.trans (List.sublist_append_left _ _).subperm, h.2.trans (List.prefix_append _ _)⟩

theorem bareOf_prefix {B l : List (Nat × X × Attrs K V)} (h : B <+: l) : (bareOf B).Subperm (bareOf l) := by
  obtain ⟨x, rfl⟩ := h
  rw [bareOf_append]; exact (List.sublist_append_left _ _).subperm

theorem attrsPart_prefix {B l : List (Nat × X × Attrs K V)} (h : B <+: l) : attrsPart B <+: attrsPart l := by
  obtain ⟨x, rfl⟩ := h
  rw [attrsPart_append]; exact List.prefix_append _ _

theorem takesDelta_begin {cfg : Cfg K V A X} {s s' : State K V A X} (B : List (Nat × X × Attrs K V)) (hs : step cfg s .collect = some s') : TakesDelta B s' := by
  simp only [step] at hs
  split at hs
  · injection hs with hs; subst hs; trivial
  · cases hs

theorem takesDelta_step {cfg : Cfg K V A X} (hd : cfg.delta = true) {s s' : State K V A X} (h : Reachable cfg s) {B : List (Nat × X × Attrs K V)} (hB : B <+: s.returned)
    (ht : TakesDelta B s) (a : Action K V X) (hs : step cfg s a = some s') : (s'.done = s.done ∧ TakesDelta B s') ∨ (∃ r, s'.done = s.done ++ [r]) ∧ s'.coll = .idle ∧ TookDelta B s'.done := by
  have hl := logs_reachable h
  cases a with
  | call t x a =>
    simp only [step] at hs
    split at hs
    · injection hs with hs; subst hs; exact .inl ⟨rfl, ht⟩
    · cases hs
  | thread t =>
    simp only [step, threadStep] at hs
    split at hs
    · cases hs
    · injection hs with hs; subst hs; exact .inl ⟨rfl, ht⟩
    · injection hs with hs; subst hs; exact .inl ⟨rfl, ht⟩
    · split at hs <;> (injection hs with hs; subst hs; exact .inl ⟨rfl, ht⟩)
    · injection hs with hs; subst hs; exact .inl ⟨rfl, ht⟩
    · split at hs
      · injection hs with hs; subst hs; exact .inl ⟨rfl, ht⟩
      · cases hs
  | collect =>
    simp only [step] at hs
    split at hs
    · rename_i hc
      rw [TakesDelta, hc] at ht; exact ht.elim
    · cases hs
  | collector it =>
    simp only [step, collectorStep] at hs
    split at hs
    · cases hs
    · rename_i hc
      split at hs
      · injection hs with hs; subst hs; exact .inl ⟨rfl, trivial⟩
      · rename_i hf
        injection hs with hs; subst hs
        refine .inl ⟨rfl, ?_⟩
        show (bareOf B).Subperm _
        exact (bareOf_prefix hB).trans (bare_settled hd h (by simpa using hf) (by rw [hc]; simp))
    · rename_i hc
      injection hs with hs; subst hs
      refine .inl ⟨rfl, ?_⟩
      show (bareOf B).Subperm (_ ++ s.noHist)
      refine ((bareOf_prefix hB).trans (bare_returned h)).trans ?_
      rw [hl.no hd, (hl.before (.inr (.inr hc))).2.1]
      simp only [Option.getD_none, List.append_nil]
      exact List.Subperm.refl _
    · rename_i hc
      rw [TakesDelta, hc] at ht
      rw [if_pos hd] at hs
      split at hs
      · split at hs
        · injection hs with hs; subst hs
          refine .inl ⟨rfl, ht, ?_⟩
          show attrsPart B <+: _ ++ s.hist
          refine (attrsPart_prefix hB).trans ?_
          have := hl.attrs
          rw [(hl.lock hc).2, List.append_nil] at this
          rw [(cut_reachable h).attrs, ← this]
          exact List.prefix_refl _
        · cases hs
      · cases hs
    · rename_i hc
      rw [TakesDelta, hc] at ht
      injection hs with hs; subst hs
      refine .inr ⟨⟨_, rfl⟩, rfl, ?_⟩
      rw [TookDelta, List.flatMap_append, List.flatMap_append, List.flatMap_singleton, List.flatMap_singleton]
      exact ht
    · rename_i hc
      rw [TakesDelta, hc] at ht
      split at hs <;> (injection hs with hs; subst hs; exact .inl ⟨rfl, ht⟩)

/-! ## Cumulative -/

/-- A collection is running that began after the calls `B` had returned. -/
def TakesAll (B : List (Nat × X × Attrs K V)) (s : State K V A X) : Prop :=
  s.coll ≠ .idle ∧ attrsPart B <+: s.cur.startHist ∧ (s.coll ≠ .flag → s.coll ≠ .takeNo → bareOf B ≠ [] → ∃ vs, s.cur.noVals = some vs ∧ (bareOf B).Subperm vs)

/-- The measurements `B` are in a collection. -/
def TookAll (B : List (Nat × X × Attrs K V)) (r : Collection K V A X) : Prop :=
  attrsPart B <+: r.startHist ∧ (bareOf B ≠ [] → ∃ vs, r.noVals = some vs ∧ (bareOf B).Subperm vs)

theorem takesAll_begin {cfg : Cfg K V A X} (hd : cfg.delta = false) {s s' : State K V A X} (h : Reachable cfg s) {B : List (Nat × X × Attrs K V)} (hB : B <+: s.returned)
    (hs : step cfg s .collect = some s') : TakesAll B s' := by
  simp only [step] at hs
  split at hs
  · injection hs with hs; subst hs
    refine ⟨by simp, ?_, fun hf => absurd rfl hf⟩
    show attrsPart B <+: s.hist
    rw [← (logs_reachable h).attrsCum hd]
    have := attrsPart_prefix hB
    rw [(cut_reachable h).attrs] at this
    exact this
  · cases hs

/-- With cumulative temporality, the flag stays set once a measurement without attributes has returned. -/
theorem flag_set {cfg : Cfg K V A X} (hd : cfg.delta = false) {s : State K V A X} (h : Reachable cfg s) (hb : bareOf s.returned ≠ []) : s.flag = true := by
  by_contra hf
  obtain ⟨_, _, fl, h1, _, h2⟩ := cut_reachable h
  have hf' : s.flag = false := by simpa using hf
  have h3 := (h2 hf' fun hc => hf (takeNo_flag h hd hc)).length_le
  have h4 := h1.length_eq
  have h5 : (bareOf s.applied).length = s.noHist.length := congrArg List.length ((logs_reachable h).noCum hd)
  rw [List.length_append] at h4
  exact hb (List.length_eq_zero_iff.1 (by omega))

theorem takesAll_step {cfg : Cfg K V A X} (hd : cfg.delta = false) {s s' : State K V A X} (h : Reachable cfg s) {B : List (Nat × X × Attrs K V)} (hB : B <+: s.returned)
    (ht : TakesAll B s) (a : Action K V X) (hs : step cfg s a = some s') : (s'.done = s.done ∧ TakesAll B s') ∨ ∃ r, s'.done = s.done ++ [r] ∧ s'.coll = .idle ∧ TookAll B r := by
  obtain ⟨t1, t2, t3⟩ := ht
  cases a with
  | call t x a =>
    simp only [step] at hs
    split at hs
    · injection hs with hs; subst hs; exact .inl ⟨rfl, t1, t2, t3⟩
    · cases hs
  | thread t =>
    simp only [step, threadStep] at hs
    split at hs
    · cases hs
    · injection hs with hs; subst hs; exact .inl ⟨rfl, t1, t2, t3⟩
    · injection hs with hs; subst hs; exact .inl ⟨rfl, t1, t2, t3⟩
    · split at hs <;> (injection hs with hs; subst hs; exact .inl ⟨rfl, t1, t2, t3⟩)
    · injection hs with hs; subst hs; exact .inl ⟨rfl, t1, t2, t3⟩
    · split at hs
      · injection hs with hs; subst hs; exact .inl ⟨rfl, t1, t2, t3⟩
      · cases hs
  | collect =>
    simp only [step] at hs
    cases hs
  | collector it =>
    simp only [step, collectorStep] at hs
    split at hs
    · cases hs
    · rename_i hc
      split at hs
      · injection hs with hs; subst hs; exact .inl ⟨rfl, by simp, t2, fun _ h2 => absurd rfl h2⟩
      · rename_i hf
        injection hs with hs; subst hs
        refine .inl ⟨rfl, by simp, t2, fun _ _ hne => ?_⟩
        refine absurd (flag_set hd h fun he => hne ?_) hf
        have := (bareOf_prefix hB).length_le
        rw [he] at this
        exact List.length_eq_zero_iff.1 (Nat.le_zero.1 this)
    · rename_i hc
      injection hs with hs; subst hs
      refine .inl ⟨rfl, by simp, t2, fun _ _ _ => ⟨_, rfl, ?_⟩⟩
      have := (bareOf_prefix hB).trans (bare_returned h)
      rwa [(logs_reachable h).noCum hd] at this
    · rename_i hc
      have t3 := t3 (by rw [hc]; simp) (by rw [hc]; simp)
      split at hs
      · split at hs
        · rename_i hn; rw [hd] at hn; cases hn
        · injection hs with hs; subst hs
          exact .inl ⟨rfl, by simp, t2, fun _ _ => t3⟩
      · cases hs
    · rename_i hc
      have t3 := t3 (by rw [hc]; simp) (by rw [hc]; simp)
      injection hs with hs; subst hs
      exact .inr ⟨_, rfl, rfl, t2, t3⟩
    · rename_i hc
      have t3 := t3 (by rw [hc]; simp) (by rw [hc]; simp)
      split at hs <;> (injection hs with hs; subst hs; exact .inl ⟨rfl, by simp, t2, fun _ _ => t3⟩)

/-- Calls that have returned stay so. -/
theorem returned_grows {cfg : Cfg K V A X} {s s' : State K V A X} {a : Action K V X} (hs : step cfg s a = some s') : s.returned <+: s'.returned := by
  cases a <;> step_cases hs
  all_goals first
    | (cases hs; done)
    | (injection hs with hs; subst hs; first | exact List.prefix_refl _ | exact List.prefix_append _ _)

end Otel.Metrics.Conc
