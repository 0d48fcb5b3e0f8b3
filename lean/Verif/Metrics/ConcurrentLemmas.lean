import Verif.Metrics.Concurrent
import Verif.Metrics.ValueMapLemmas
/-! # Invariants of the concurrent store -/

set_option linter.unusedSectionVars false

namespace Otel.Metrics.Conc

variable {K V : Type} [LinearOrder K] [DecidableEq V] {A X : Type}

/-- Cases of a step: unfold everything. -/
macro "step_cases " h:ident : tactic =>
  `(tactic| (simp only [step, threadStep, collectorStep] at $h:ident; repeat' (first | split at $h:ident | dsimp only at $h:ident)))

theorem setPc_self (pc : Nat → MPc K V X) (t : Nat) (v : MPc K V X) : setPc pc t v t = v := by simp [setPc]

theorem setPc_ne (pc : Nat → MPc K V X) (t u : Nat) (v : MPc K V X) (h : u ≠ t) : setPc pc t v u = pc u := by simp [setPc, h]

/-- Who holds the read lock, and what the holders know. -/
structure Locks (cfg : Cfg K V A X) (s : State K V A X) : Prop where
  lookup : ∀ t x a, s.pc t = .lookup x a → a ≠ []
  write : ∀ t x a, s.pc t = .write x a → a ≠ []
  found : ∀ t x a p, s.pc t = .found x a p → some t ∈ s.readers ∧ a ≠ [] ∧ lookupTracker cfg.srt s.map a = some p
  reader : ∀ t, some t ∈ s.readers → ∃ x a p, s.pc t = .found x a p
  collector : none ∈ s.readers ↔ cfg.delta = false ∧ ∃ rest seen, s.coll = .walk rest seen
  nodup : s.readers.Nodup

theorem lookupTracker_congr (srt : Sorter K V) {m m' : ValueMap K V A} (h : m'.trackers = m.trackers) (a : Attrs K V) :
    lookupTracker srt m' a = lookupTracker srt m a := by
  simp only [lookupTracker, ValueMap.get, h]

theorem locks_init (cfg : Cfg K V A X) : Locks cfg (State.init cfg) := by
  constructor <;> simp [State.init]

theorem locks_step {cfg : Cfg K V A X} {s s' : State K V A X} (hi : Locks cfg s) (a : Action K V X) (hs : step cfg s a = some s') :
    Locks cfg s' := by
  obtain ⟨h1, h2, h3, h4, h5, h6⟩ := hi
  have pcs : ∀ (t : Nat) (v : MPc K V X) (u : Nat) (w : MPc K V X), setPc s.pc t v u = w → (u = t ∧ v = w) ∨ (u ≠ t ∧ s.pc u = w) := by
    intro t v u w h
    by_cases hu : u = t
    · subst hu; rw [setPc_self] at h; exact Or.inl ⟨rfl, h⟩
    · rw [setPc_ne _ _ _ _ hu] at h; exact Or.inr ⟨hu, h⟩
  cases a with
  | call t x a =>
    simp only [step] at hs
    split at hs
    · rename_i hidle
      injection hs with hs; subst hs
      refine ⟨?_, ?_, ?_, ?_, h5, h6⟩
      · intro u y b hb
        rcases pcs _ _ _ _ hb with ⟨_, hv⟩ | ⟨_, hv⟩
        · split at hv
          · cases hv
          · rename_i hne; injection hv with _ hv; exact hv ▸ hne
        · exact h1 _ _ _ hv
      · intro u y b hb
        rcases pcs _ _ _ _ hb with ⟨_, hv⟩ | ⟨_, hv⟩
        · split at hv <;> cases hv
        · exact h2 _ _ _ hv
      · intro u y b p hb
        rcases pcs _ _ _ _ hb with ⟨_, hv⟩ | ⟨_, hv⟩
        · split at hv <;> cases hv
        · exact h3 _ _ _ _ hv
      · intro u hu
        obtain ⟨y, b, p, hp⟩ := h4 u hu
        refine ⟨y, b, p, ?_⟩
        show setPc s.pc t _ u = _
        rw [setPc_ne _ _ _ _ (by rintro rfl; rw [hidle] at hp; cases hp)]
        exact hp
    · cases hs
  | thread t =>
    simp only [step, threadStep] at hs
    split at hs
    · cases hs
    · rename_i x hpc
      injection hs with hs; subst hs
      refine ⟨?_, ?_, ?_, ?_, h5, h6⟩
      · intro u y b hb; rcases pcs _ _ _ _ hb with ⟨_, hv⟩ | ⟨_, hv⟩
        · cases hv
        · exact h1 _ _ _ hv
      · intro u y b hb; rcases pcs _ _ _ _ hb with ⟨_, hv⟩ | ⟨_, hv⟩
        · cases hv
        · exact h2 _ _ _ hv
      · intro u y b p hb; rcases pcs _ _ _ _ hb with ⟨_, hv⟩ | ⟨_, hv⟩
        · cases hv
        · exact h3 _ _ _ _ hv
      · intro u hu
        obtain ⟨y, b, p, hp⟩ := h4 u hu
        exact ⟨y, b, p, (setPc_ne _ _ _ _ (by rintro rfl; rw [hpc] at hp; cases hp)).trans hp⟩
    · rename_i x hpc
      injection hs with hs; subst hs
      refine ⟨?_, ?_, ?_, ?_, h5, h6⟩
      · intro u y b hb; rcases pcs _ _ _ _ hb with ⟨_, hv⟩ | ⟨_, hv⟩
        · cases hv
        · exact h1 _ _ _ hv
      · intro u y b hb; rcases pcs _ _ _ _ hb with ⟨_, hv⟩ | ⟨_, hv⟩
        · cases hv
        · exact h2 _ _ _ hv
      · intro u y b p hb; rcases pcs _ _ _ _ hb with ⟨_, hv⟩ | ⟨_, hv⟩
        · cases hv
        · exact h3 _ _ _ _ hv
      · intro u hu
        obtain ⟨y, b, p, hp⟩ := h4 u hu
        exact ⟨y, b, p, (setPc_ne _ _ _ _ (by rintro rfl; rw [hpc] at hp; cases hp)).trans hp⟩
    · rename_i x a hpc
      have ha := h1 _ _ _ hpc
      split at hs
      · rename_i p hl
        injection hs with hs; subst hs
        refine ⟨?_, ?_, ?_, ?_, ?_, ?_⟩
        · intro u y b hb; rcases pcs _ _ _ _ hb with ⟨_, hv⟩ | ⟨_, hv⟩
          · cases hv
          · exact h1 _ _ _ hv
        · intro u y b hb; rcases pcs _ _ _ _ hb with ⟨_, hv⟩ | ⟨_, hv⟩
          · cases hv
          · exact h2 _ _ _ hv
        · intro u y b q hb; rcases pcs _ _ _ _ hb with ⟨hu, hv⟩ | ⟨_, hv⟩
          · injection hv with e1 e2 e3; subst e1 e2 e3 hu
            exact ⟨List.mem_cons_self, ha, hl⟩
          · obtain ⟨g1, g2, g3⟩ := h3 _ _ _ _ hv
            exact ⟨List.mem_cons_of_mem _ g1, g2, g3⟩
        · intro u hu
          by_cases hut : u = t
          · subst hut; exact ⟨x, a, p, setPc_self _ _ _⟩
          · rcases List.mem_cons.1 hu with hu | hu
            · injection hu with hu; exact absurd hu hut
            · obtain ⟨y, b, q, hp⟩ := h4 u hu
              exact ⟨y, b, q, (setPc_ne _ _ _ _ hut).trans hp⟩
        · show none ∈ some t :: s.readers ↔ _
          rw [List.mem_cons]; simp only [reduceCtorEq, false_or]; exact h5
        · refine List.nodup_cons.2 ⟨?_, h6⟩
          intro hmem
          obtain ⟨y, b, q, hp⟩ := h4 t hmem
          rw [hpc] at hp; cases hp
      · injection hs with hs; subst hs
        refine ⟨?_, ?_, ?_, ?_, h5, h6⟩
        · intro u y b hb; rcases pcs _ _ _ _ hb with ⟨_, hv⟩ | ⟨_, hv⟩
          · cases hv
          · exact h1 _ _ _ hv
        · intro u y b hb; rcases pcs _ _ _ _ hb with ⟨_, hv⟩ | ⟨_, hv⟩
          · injection hv with _ hv; exact hv ▸ ha
          · exact h2 _ _ _ hv
        · intro u y b p hb; rcases pcs _ _ _ _ hb with ⟨_, hv⟩ | ⟨_, hv⟩
          · cases hv
          · exact h3 _ _ _ _ hv
        · intro u hu
          obtain ⟨y, b, p, hp⟩ := h4 u hu
          exact ⟨y, b, p, (setPc_ne _ _ _ _ (by rintro rfl; rw [hpc] at hp; cases hp)).trans hp⟩
    · rename_i x a p hpc
      injection hs with hs; subst hs
      refine ⟨?_, ?_, ?_, ?_, ?_, h6.erase _⟩
      · intro u y b hb; rcases pcs _ _ _ _ hb with ⟨_, hv⟩ | ⟨_, hv⟩
        · cases hv
        · exact h1 _ _ _ hv
      · intro u y b hb; rcases pcs _ _ _ _ hb with ⟨_, hv⟩ | ⟨_, hv⟩
        · cases hv
        · exact h2 _ _ _ hv
      · intro u y b q hb; rcases pcs _ _ _ _ hb with ⟨_, hv⟩ | ⟨hne, hv⟩
        · cases hv
        · obtain ⟨g1, g2, g3⟩ := h3 _ _ _ _ hv
          refine ⟨?_, g2, by rw [← g3]; exact lookupTracker_congr _ rfl _⟩
          show some u ∈ s.readers.erase (some t)
          exact (List.mem_erase_of_ne (by simpa using hne)).2 g1
      · intro u hu
        have hmem : some u ∈ s.readers := List.mem_of_mem_erase hu
        have hut : u ≠ t := by
          rintro rfl
          exact (List.Nodup.not_mem_erase h6) hu
        obtain ⟨y, b, q, hp⟩ := h4 u hmem
        exact ⟨y, b, q, (setPc_ne _ _ _ _ hut).trans hp⟩
      · show none ∈ s.readers.erase (some t) ↔ _
        rw [List.mem_erase_of_ne (by simp)]; exact h5
    · rename_i x a hpc
      split at hs
      · rename_i hr
        injection hs with hs; subst hs
        refine ⟨?_, ?_, ?_, ?_, h5, h6⟩
        · intro u y b hb; rcases pcs _ _ _ _ hb with ⟨_, hv⟩ | ⟨_, hv⟩
          · cases hv
          · exact h1 _ _ _ hv
        · intro u y b hb; rcases pcs _ _ _ _ hb with ⟨_, hv⟩ | ⟨_, hv⟩
          · cases hv
          · exact h2 _ _ _ hv
        · intro u y b q hb; rcases pcs _ _ _ _ hb with ⟨_, hv⟩ | ⟨_, hv⟩
          · cases hv
          · have := (h3 _ _ _ _ hv).1; rw [hr] at this; cases this
        · intro u hu
          rw [show s.readers = [] from hr] at hu; cases hu
      · cases hs
  | collect =>
    simp only [step] at hs
    split at hs
    · rename_i hc
      injection hs with hs; subst hs
      refine ⟨h1, h2, h3, h4, ?_, h6⟩
      show none ∈ s.readers ↔ _
      rw [h5, hc]; simp
    · cases hs
  | collector it =>
    simp only [step, collectorStep] at hs
    split at hs
    · cases hs
    · rename_i hc
      split at hs
      · injection hs with hs; subst hs
        refine ⟨h1, h2, h3, h4, ?_, h6⟩
        show none ∈ s.readers ↔ _
        rw [h5, hc]; simp
      · injection hs with hs; subst hs
        refine ⟨h1, h2, h3, h4, ?_, h6⟩
        show none ∈ s.readers ↔ _
        rw [h5, hc]; simp
    · rename_i hc
      injection hs with hs; subst hs
      refine ⟨h1, h2, h3, h4, ?_, h6⟩
      show none ∈ s.readers ↔ _
      rw [h5, hc]; simp
    · rename_i hc
      split at hs
      · split at hs
        · rename_i hd
          split at hs
          · rename_i hr
            injection hs with hs; subst hs
            refine ⟨h1, h2, ?_, h4, ?_, h6⟩
            · intro u y b q hb
              have := (h3 _ _ _ _ hb).1; rw [hr] at this; cases this
            · show none ∈ s.readers ↔ _
              rw [hr, hd]; simp
          · cases hs
        · rename_i hd
          have hd : cfg.delta = false := by simpa using hd
          injection hs with hs; subst hs
          refine ⟨h1, h2, ?_, ?_, ?_, ?_⟩
          · intro u y b q hb
            obtain ⟨g1, g2, g3⟩ := h3 _ _ _ _ hb
            exact ⟨List.mem_cons_of_mem _ g1, g2, g3⟩
          · intro u hu
            rcases List.mem_cons.1 hu with hu | hu
            · cases hu
            · exact h4 u hu
          · show none ∈ none :: s.readers ↔ _
            simp [hd]
          · refine List.nodup_cons.2 ⟨?_, h6⟩
            rw [h5, hc]; simp
      · cases hs
    · rename_i hc
      injection hs with hs; subst hs
      by_cases hd : cfg.delta = true
      · refine ⟨h1, h2, ?_, ?_, ?_, ?_⟩
        · simpa only [hd, if_true] using h3
        · simpa only [hd, if_true] using h4
        · simp only [hd, if_true]
          rw [h5]; simp [hd]
        · simpa only [hd, if_true] using h6
      · have hd : cfg.delta = false := by simpa using hd
        simp only [hd, Bool.false_eq_true, if_false]
        refine ⟨h1, h2, ?_, ?_, ?_, ?_⟩
        · intro u y b q hb
          obtain ⟨g1, g2, g3⟩ := h3 _ _ _ _ hb
          exact ⟨(List.mem_erase_of_ne (by simp)).2 g1, g2, g3⟩
        · intro u hu; exact h4 u (List.mem_of_mem_erase hu)
        · simp only [hd, true_and]
          constructor
          · intro h; exact absurd h (List.Nodup.not_mem_erase h6)
          · rintro ⟨_, _, h⟩; cases h
        · exact h6.erase _
    · rename_i e rest seen hc
      split at hs
      all_goals
        injection hs with hs; subst hs
        refine ⟨h1, h2, h3, h4, ?_, h6⟩
        show none ∈ s.readers ↔ _
        rw [h5, hc]; simp

theorem locks_reachable {cfg : Cfg K V A X} {s : State K V A X} (h : Reachable cfg s) : Locks cfg s := by
  induction h with
  | init => exact locks_init cfg
  | step _ a hs ih => exact locks_step ih a hs

/-! ## The content of the store -/

/-- The store holds exactly the measurements of `hist` and `noHist`. -/
structure Content (cfg : Cfg K V A X) (s : State K V A X) : Prop where
  minv : MInv (sortAndDedup cfg.srt) cfg.agg cfg.limit [cfg.overflow] s.map s.hist
  no : s.noTracker = (s.noHist.map Prod.snd).foldl cfg.agg.update cfg.agg.create
  nonempty : ∀ e ∈ s.hist, e.2 ≠ []

theorem measureRead_of_lookup {cfg : Cfg K V A X} {m : ValueMap K V A} {a : Attrs K V} {p : Nat} (h : lookupTracker cfg.srt m a = some p) (x : X) :
    m.measureRead cfg.srt cfg.agg x a = some (m.updateAt cfg.agg p x) := by
  unfold lookupTracker at h
  unfold ValueMap.measureRead
  split at h
  · rename_i hg; injection h with h; subst h; rw [hg]
  · rename_i hg; rw [hg, h]

theorem valuesOf_nil_of_ne {c : Attrs K V → Attrs K V} {limit : Nat} {ov : Attrs K V} (hc : Canon c ov) (h : Hist K V X)
    (hne : ∀ e ∈ h, e.2 ≠ []) : valuesOf c limit ov h [] = [] := by
  by_contra hv
  obtain ⟨e, he, hr⟩ := (valuesOf_ne_nil h _).1 hv
  exact route_ne_nil hc h e.2 (hne e he) hr

theorem content_step {cfg : Cfg K V A X} {s s' : State K V A X} (hl : Locks cfg s) (hi : Content cfg s) (a : Action K V X)
    (hs : step cfg s a = some s') : Content cfg s' := by
  obtain ⟨h1, h2, h3⟩ := hi
  have hcan := canon_sortAndDedup cfg.srt cfg.overflow
  cases a with
  | call t x a =>
    simp only [step] at hs
    split at hs
    · injection hs with hs; subst hs; exact ⟨h1, h2, h3⟩
    · cases hs
  | thread t =>
    simp only [step, threadStep] at hs
    split at hs
    · cases hs
    · injection hs with hs; subst hs
      refine ⟨h1, ?_, h3⟩
      simp only [List.map_append, List.foldl_append, h2]; rfl
    · injection hs with hs; subst hs; exact ⟨h1, h2, h3⟩
    · split at hs
      · injection hs with hs; subst hs; exact ⟨h1, h2, h3⟩
      · injection hs with hs; subst hs; exact ⟨h1, h2, h3⟩
    · rename_i x a p hpc
      obtain ⟨_, hne, hlk⟩ := hl.found _ _ _ _ hpc
      injection hs with hs; subst hs
      refine ⟨minv_measureRead rfl hcan h1 x a hne (measureRead_of_lookup hlk x), h2, ?_⟩
      intro e he
      rcases List.mem_append.1 he with he | he
      · exact h3 e he
      · simp at he; subst he; exact hne
    · rename_i x a hpc
      have hne := hl.write _ _ _ hpc
      split at hs
      · injection hs with hs; subst hs
        refine ⟨minv_measureWrite rfl hcan h1 x a hne, h2, ?_⟩
        intro e he
        rcases List.mem_append.1 he with he | he
        · exact h3 e he
        · simp at he; subst he; exact hne
      · cases hs
  | collect =>
    simp only [step] at hs
    split at hs
    · injection hs with hs; subst hs; exact ⟨h1, h2, h3⟩
    · cases hs
  | collector it =>
    simp only [step, collectorStep] at hs
    split at hs
    · cases hs
    · split at hs <;> (injection hs with hs; subst hs; exact ⟨h1, h2, h3⟩)
    · injection hs with hs; subst hs
      refine ⟨h1, ?_, h3⟩
      cases hd : cfg.delta
      · simpa [hd] using h2
      · simp
    · split at hs
      · split at hs
        · split at hs
          · injection hs with hs; subst hs
            refine ⟨?_, h2, by simp⟩
            have hv := valuesOf_nil_of_ne (limit := cfg.limit) hcan s.hist h3
            have hno := h1.noAttr
            have hhas := h1.hasNoAttr
            rw [hv] at hno hhas
            refine ⟨by simp, by simp, by simp, by simp, by simp, by simp [admitted, setsOf], by simp [valuesOf], by simp, ?_, ?_⟩
            · simpa [valuesOf] using hno
            · simpa [valuesOf] using hhas
          · cases hs
        · injection hs with hs; subst hs; exact ⟨h1, h2, h3⟩
      · cases hs
    · injection hs with hs; subst hs; exact ⟨h1, h2, h3⟩
    · split at hs <;> (injection hs with hs; subst hs; exact ⟨h1, h2, h3⟩)

theorem content_reachable {cfg : Cfg K V A X} {s : State K V A X} (h : Reachable cfg s) : Content cfg s := by
  induction h with
  | init => exact ⟨minv_new, by simp [State.init], by simp [State.init]⟩
  | step hr a hs ih => exact content_step (locks_reachable hr) ih a hs

end Otel.Metrics.Conc
