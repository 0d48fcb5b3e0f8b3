import Verif.Metrics.ConcurrentLemmas
import Mathlib.Data.List.Infix
/-! # More invariants of the concurrent store: the logs, the flag, the collector's loop -/

set_option linter.unusedSectionVars false

namespace Otel.Metrics.Conc

variable {K V : Type} [LinearOrder K] [DecidableEq V] {A X : Type}

/-- All measurements with attributes that updated a tracker, in order. -/
def State.appliedAttrs (s : State K V A X) : Hist K V X := (s.applied.filter fun e => e.2.2 ≠ []).map fun e => e.2

/-- All measurements without attributes that updated their tracker, in order, with the thread. -/
def State.appliedNo (s : State K V A X) : List (Nat × X) := (s.applied.filter fun e => e.2.2 = []).map fun e => (e.1, e.2.1)

/-- The point without attributes of a collection. -/
def noPart (cfg : Cfg K V A X) (r : Collection K V A X) : List (Attrs K V × A) :=
  match r.noVals with
  | none => []
  | some vs => [([], (vs.map Prod.snd).foldl cfg.agg.update cfg.agg.create)]

/-- Where every measurement is. -/
structure Logs (cfg : Cfg K V A X) (s : State K V A X) : Prop where
  attrs : s.appliedAttrs = s.done.flatMap (·.period) ++ s.cur.period ++ s.hist
  no : cfg.delta = true → s.appliedNo = s.done.flatMap (fun r => r.noVals.getD []) ++ s.cur.noVals.getD [] ++ s.noHist
  noCum : cfg.delta = false → s.appliedNo = s.noHist
  attrsCum : cfg.delta = false → s.appliedAttrs = s.hist
  before : s.coll = .idle ∨ s.coll = .flag ∨ s.coll = .takeNo → s.dest = [] ∧ s.cur.noVals = none ∧ s.cur.period = []
  lock : s.coll = .lock → s.dest = noPart cfg s.cur ∧ s.cur.period = []
  flag : ∀ e ∈ s.noHist, s.flag = true ∨ s.coll = .takeNo ∨ ∃ y, s.pc e.1 = .noFlag y
  calls : ∀ t, s.applied.filter (fun e => e.1 = t)
    = s.returned.filter (fun e => e.1 = t) ++ (match s.pc t with | .noFlag x => [(t, x, [])] | _ => [])

/-- A cumulative collector leaves the flag set. -/
theorem takeNo_flag {cfg : Cfg K V A X} {s : State K V A X} (hr : Reachable cfg s) (hd : cfg.delta = false) (hc : s.coll = .takeNo) :
    s.flag = true := by
  induction hr with
  | init => cases hc
  | step _ a hs ih =>
    cases a <;> step_cases hs
    all_goals first
      | (cases hs; done)
      | (injection hs with hs; subst hs; first | rfl | exact ih hc | (simp at hc; done) | (simp [hd]; done))

theorem logs_init (cfg : Cfg K V A X) : Logs cfg (State.init cfg) := by
  constructor <;> simp [State.init, State.appliedAttrs, State.appliedNo, Collection.empty]

theorem logs_step {cfg : Cfg K V A X} {s s' : State K V A X} (hreach : Reachable cfg s) (hl : Locks cfg s) (hc : Content cfg s) (hi : Logs cfg s) (a : Action K V X)
    (hs : step cfg s a = some s') : Logs cfg s' := by
  obtain ⟨h1, h2, h3, h3', h4, h5, h6, h7⟩ := hi
  cases a with
  | call t x a =>
    simp only [step] at hs
    split at hs
    · rename_i hidle
      injection hs with hs; subst hs
      refine ⟨h1, h2, h3, h3', h4, h5, ?_, ?_⟩
      · intro e he
        rcases h6 e he with h | h | ⟨y, h⟩
        · exact Or.inl h
        · exact Or.inr (Or.inl h)
        · refine Or.inr (Or.inr ⟨y, (setPc_ne _ _ _ _ ?_).trans h⟩)
          intro h8; rw [h8, hidle] at h; cases h
      · intro u
        by_cases hu : u = t
        · subst hu
          have := h7 u
          rw [hidle] at this
          show _ = _ ++ (match setPc s.pc u _ u with | .noFlag x => _ | _ => _)
          rw [setPc_self]
          by_cases ha : a = []
          · rw [if_pos ha]; exact this
          · rw [if_neg ha]; exact this
        · have := h7 u
          show _ = _ ++ (match setPc s.pc t _ u with | .noFlag x => _ | _ => _)
          rw [setPc_ne _ _ _ _ hu]; exact this
    · cases hs
  | thread t =>
    simp only [step, threadStep] at hs
    split at hs
    · cases hs
    · rename_i x hpc
      injection hs with hs; subst hs
      refine ⟨?_, ?_, ?_, ?_, h4, h5, ?_, ?_⟩
      · simpa [State.appliedAttrs] using h1
      · intro hd
        have := h2 hd
        simp only [State.appliedNo] at this ⊢
        simp [this]
      · intro hd
        have := h3 hd
        simp only [State.appliedNo] at this ⊢
        simp [this]
      · intro hd; simpa [State.appliedAttrs] using h3' hd
      · intro e he
        rcases List.mem_append.1 he with he | he
        · rcases h6 e he with h | h | ⟨y, h⟩
          · exact Or.inl h
          · exact Or.inr (Or.inl h)
          · refine Or.inr (Or.inr ⟨y, (setPc_ne _ _ _ _ ?_).trans h⟩)
            intro h8; rw [h8, hpc] at h; cases h
        · simp at he; subst he
          exact Or.inr (Or.inr ⟨x, setPc_self _ _ _⟩)
      · intro u
        show _ = _ ++ (match setPc s.pc t _ u with | .noFlag x => _ | _ => _)
        by_cases hu : u = t
        · subst hu
          have := h7 u
          rw [hpc] at this
          rw [setPc_self]
          simp only [List.append_nil] at this
          simp [this]
        · have := h7 u
          rw [setPc_ne _ _ _ _ hu]
          simp [Ne.symm hu, this]
    · rename_i x hpc
      injection hs with hs; subst hs
      refine ⟨h1, h2, h3, h3', h4, h5, fun e he => Or.inl rfl, ?_⟩
      intro u
      show _ = _ ++ (match setPc s.pc t _ u with | .noFlag x => _ | _ => _)
      by_cases hu : u = t
      · subst hu
        have := h7 u
        rw [hpc] at this
        rw [setPc_self]
        simp only at this
        simp [this]
      · have := h7 u
        rw [setPc_ne _ _ _ _ hu]
        simp [Ne.symm hu, this]
    · rename_i x a hpc
      have fl : ∀ v, ∀ e ∈ s.noHist, s.flag = true ∨ s.coll = .takeNo ∨ ∃ y, setPc s.pc t v e.1 = .noFlag y := by
        intro v e he
        rcases h6 e he with h | h | ⟨y, h⟩
        · exact Or.inl h
        · exact Or.inr (Or.inl h)
        · refine Or.inr (Or.inr ⟨y, (setPc_ne _ _ _ _ ?_).trans h⟩)
          intro h8; rw [h8, hpc] at h; cases h
      split at hs
      all_goals
        injection hs with hs; subst hs
        refine ⟨h1, h2, h3, h3', h4, h5, fl _, ?_⟩
        intro u
        show _ = _ ++ (match setPc s.pc t _ u with | .noFlag x => _ | _ => _)
        by_cases hu : u = t
        · subst hu
          have := h7 u
          rw [hpc] at this
          rw [setPc_self]; exact this
        · have := h7 u
          rw [setPc_ne _ _ _ _ hu]; exact this
    · rename_i x a p hpc
      have hne := (hl.found _ _ _ _ hpc).2.1
      injection hs with hs; subst hs
      refine ⟨?_, ?_, ?_, ?_, h4, h5, ?_, ?_⟩
      · simp only [State.appliedAttrs] at h1 ⊢
        rw [List.filter_append, List.map_append, h1]; simp [hne]
      · intro hd; simpa [State.appliedNo, hne] using h2 hd
      · intro hd; simpa [State.appliedNo, hne] using h3 hd
      · intro hd
        have := h3' hd
        simp only [State.appliedAttrs] at this ⊢
        rw [List.filter_append, List.map_append, this]; simp [hne]
      · intro e he
        rcases h6 e he with h | h | ⟨y, h⟩
        · exact Or.inl h
        · exact Or.inr (Or.inl h)
        · refine Or.inr (Or.inr ⟨y, (setPc_ne _ _ _ _ ?_).trans h⟩)
          intro h8; rw [h8, hpc] at h; cases h
      · intro u
        show _ = _ ++ (match setPc s.pc t _ u with | .noFlag x => _ | _ => _)
        by_cases hu : u = t
        · subst hu
          have := h7 u
          rw [hpc] at this
          rw [setPc_self]
          simp only [List.append_nil] at this
          simp [this]
        · have := h7 u
          rw [setPc_ne _ _ _ _ hu]
          simp [Ne.symm hu, this]
    · rename_i x a hpc
      have hne := hl.write _ _ _ hpc
      split at hs
      · injection hs with hs; subst hs
        refine ⟨?_, ?_, ?_, ?_, h4, h5, ?_, ?_⟩
        · simp only [State.appliedAttrs] at h1 ⊢
          rw [List.filter_append, List.map_append, h1]; simp [hne]
        · intro hd; simpa [State.appliedNo, hne] using h2 hd
        · intro hd; simpa [State.appliedNo, hne] using h3 hd
        · intro hd
          have := h3' hd
          simp only [State.appliedAttrs] at this ⊢
          rw [List.filter_append, List.map_append, this]; simp [hne]
        · intro e he
          rcases h6 e he with h | h | ⟨y, h⟩
          · exact Or.inl h
          · exact Or.inr (Or.inl h)
          · refine Or.inr (Or.inr ⟨y, (setPc_ne _ _ _ _ ?_).trans h⟩)
            intro h8; rw [h8, hpc] at h; cases h
        · intro u
          show _ = _ ++ (match setPc s.pc t _ u with | .noFlag x => _ | _ => _)
          by_cases hu : u = t
          · subst hu
            have := h7 u
            rw [hpc] at this
            rw [setPc_self]
            simp only [List.append_nil] at this
            simp [this]
          · have := h7 u
            rw [setPc_ne _ _ _ _ hu]
            simp [Ne.symm hu, this]
      · cases hs
  | collect =>
    simp only [step] at hs
    split at hs
    · rename_i hidle
      obtain ⟨g1, g2, g3⟩ := h4 (Or.inl hidle)
      injection hs with hs; subst hs
      refine ⟨?_, ?_, h3, h3', fun _ => ⟨g1, rfl, rfl⟩, (by intro h; cases h), ?_, h7⟩
      · show s.appliedAttrs = _ ++ [] ++ _; rw [h1, g3]
      · intro hd; show s.appliedNo = _ ++ [] ++ _; rw [h2 hd, g2]; rfl
      · intro e he
        rcases h6 e he with h | h | h
        · exact Or.inl h
        · rw [hidle] at h; cases h
        · exact Or.inr (Or.inr h)
    · cases hs
  | collector it =>
    simp only [step, collectorStep] at hs
    split at hs
    · cases hs
    · rename_i hcoll
      obtain ⟨g1, g2, g3⟩ := h4 (Or.inr (Or.inl hcoll))
      split at hs
      · injection hs with hs; subst hs
        refine ⟨h1, h2, h3, h3', fun _ => ⟨g1, g2, g3⟩, (by intro h; cases h), fun e he => Or.inr (Or.inl rfl), h7⟩
      · injection hs with hs; subst hs
        refine ⟨h1, h2, h3, h3', (by rintro (h | h | h) <;> cases h), fun _ => ⟨?_, g3⟩, ?_, h7⟩
        · show s.dest = noPart cfg s.cur; simp [noPart, g1, g2]
        · intro e he
          rcases h6 e he with h | h | h
          · exact Or.inl h
          · rw [hcoll] at h; cases h
          · exact Or.inr (Or.inr h)
    · rename_i hcoll
      obtain ⟨g1, g2, g3⟩ := h4 (Or.inr (Or.inr hcoll))
      injection hs with hs; subst hs
      refine ⟨h1, ?_, ?_, h3', (by rintro (h | h | h) <;> cases h), fun _ => ⟨?_, g3⟩, ?_, h7⟩
      · intro hd
        have := h2 hd
        rw [g2] at this
        show s.appliedNo = _
        rw [this]; simp [hd]
      · intro hd; show s.appliedNo = _; rw [h3 hd]; simp [hd]
      · simp only [noPart, g1, List.nil_append]; rw [hc.no]
      · intro e he
        cases hd : cfg.delta
        · rw [hd] at he
          have he : e ∈ s.noHist := by simpa using he
          -- the flag stays set for a cumulative collector
          rcases h6 e he with h | h | h
          · exact Or.inl h
          · exact Or.inl (show s.flag = true from takeNo_flag hreach hd hcoll)
          · exact Or.inr (Or.inr h)
        · rw [hd] at he; simp at he
    · rename_i hcoll
      obtain ⟨g1, g2⟩ := h5 hcoll
      split at hs
      · split at hs
        · split at hs
          · rename_i hd _
            injection hs with hs; subst hs
            refine ⟨?_, h2, h3, ?_, (by rintro (h | h | h) <;> cases h), (by intro h; cases h), ?_, h7⟩
            · show s.appliedAttrs = _ ++ s.hist ++ []
              rw [h1, g2]; simp
            · intro h; rw [hd] at h; cases h
            · intro e he
              rcases h6 e he with h | h | h
              · exact Or.inl h
              · rw [hcoll] at h; cases h
              · exact Or.inr (Or.inr h)
          · cases hs
        · injection hs with hs; subst hs
          refine ⟨h1, h2, h3, h3', (by rintro (h | h | h) <;> cases h), (by intro h; cases h), ?_, h7⟩
          intro e he
          rcases h6 e he with h | h | h
          · exact Or.inl h
          · rw [hcoll] at h; cases h
          · exact Or.inr (Or.inr h)
      · cases hs
    · rename_i hcoll
      injection hs with hs; subst hs
      refine ⟨?_, ?_, h3, h3', fun _ => ⟨rfl, rfl, rfl⟩, (by intro h; cases h), ?_, h7⟩
      · show s.appliedAttrs = _
        rw [h1]; simp [Collection.empty]
      · intro hd
        show s.appliedNo = _
        rw [h2 hd]; simp [Collection.empty]
      · intro e he
        rcases h6 e he with h | h | h
        · exact Or.inl h
        · rw [hcoll] at h; cases h
        · exact Or.inr (Or.inr h)
    · rename_i hcoll
      split at hs
      all_goals
        injection hs with hs; subst hs
        refine ⟨h1, h2, h3, h3', (by rintro (h | h | h) <;> cases h), (by intro h; cases h), ?_, h7⟩
        intro e he
        rcases h6 e he with h | h | h
        · exact Or.inl h
        · rw [hcoll] at h; cases h
        · exact Or.inr (Or.inr h)

theorem logs_reachable {cfg : Cfg K V A X} {s : State K V A X} (h : Reachable cfg s) : Logs cfg s := by
  induction h with
  | init => exact logs_init cfg
  | step hr a hs ih => exact logs_step hr (locks_reachable hr) (content_reachable hr) ih a hs

end Otel.Metrics.Conc
