import Verif.Sdk.Provider

/-! # C29, C35, C49: provider shutdown -/

namespace Otel.Sdk.Prov

variable {X : Type}

/-- The processors that were told to shut down, in order. -/
def shutsOf (log : List (Nat × Ev X)) : List Nat :=
  log.filterMap fun p => match p.2 with
    | .shutdown => some p.1
    | _ => none

/-- The items that processor `i` received. -/
def itemsOf (i : Nat) (log : List (Nat × Ev X)) : List X :=
  log.filterMap fun p => match p.2 with
    | .item x => if p.1 = i then some x else none
    | _ => none

/-- The results of `shutdown` calls that did something. -/
def effective (rs : List Ret) : List Ret := rs.filter (· != .alreadyShutdown)

/-- In a shutdown loop, with the number of processors done. -/
def Pc.loop : Pc X → Option Nat
  | .shut i _ => some i
  | .dropLoop i => some i
  | _ => none

/-- In the destructor. -/
def Pc.inDrop : Pc X → Bool
  | .drop0 => true
  | .dropLoop _ => true
  | _ => false

/-- The invariant. -/
structure Inv (n : Nat) (s : State X) : Prop where
  idle : ∀ t, t ∉ s.active → s.threads t = .idle
  shuts : shutsOf s.log = List.range s.progress
  bound : s.progress ≤ n
  loop : ∀ t i, (s.threads t).loop = some i → s.runner = some t ∧ s.progress = i
  run : ∀ t, s.runner = some t → s.finished = false ∧ (s.threads t).loop.isSome = true
  rest : s.runner = none → (s.finished = true ∧ s.progress = n) ∨ (s.finished = false ∧ s.progress = 0 ∧ s.isShutdown = false)
  flag : ∀ t i acc, s.threads t = .shut i acc → s.isShutdown = true
  drop : ∀ t, (s.threads t).inDrop = true → s.handles = 0 ∧ ∀ t', t' ≠ t → s.threads t' = .idle
  fin : s.finished = true → s.isShutdown = true ∨ (s.handles = 0 ∧ ∀ t, s.threads t = .idle)
  results : (effective s.returned).length ≤ 1 ∧ (s.finished = false → effective s.returned = [])
  dropped : s.dropped = true → s.finished = true

theorem inv_init (n : Nat) : Inv n (State.init : State X) := by
  constructor <;> simp [State.init, shutsOf, effective, Pc.loop, Pc.inDrop]

theorem shutsOf_append (l : List (Nat × Ev X)) (i : Nat) : shutsOf (l ++ [(i, Ev.shutdown)]) = shutsOf l ++ [i] := by
  simp [shutsOf]

theorem shutsOf_flush (l : List (Nat × Ev X)) (i : Nat) : shutsOf (l ++ [(i, Ev.flush)]) = shutsOf l := by
  simp [shutsOf]

theorem shutsOf_item (l : List (Nat × Ev X)) (i : Nat) (x : X) : shutsOf (l ++ [(i, Ev.item x)]) = shutsOf l := by
  simp [shutsOf]

/-- A thread enters, moves or leaves without touching the shutdown machinery. -/
theorem inv_quiet {n : Nat} {s s' : State X} (h : Inv n s) (t : Nat) (pc : Pc X) (hl : pc.loop = none) (hd : pc.inDrop = false)
    (hl0 : (s.threads t).loop = none) (hd0 : (s.threads t).inDrop = false)
    (ht : s'.threads = upd s.threads t pc) (ha : ∀ t', t' ∉ s'.active → t' = t ∧ pc = .idle ∨ t' ≠ t ∧ t' ∉ s.active)
    (hlog : shutsOf s'.log = shutsOf s.log) (hp : s'.progress = s.progress) (hr : s'.runner = s.runner)
    (hf : s'.finished = s.finished) (hi : s'.isShutdown = s.isShutdown) (hh : s'.handles = s.handles)
    (hret : effective s'.returned = effective s.returned) (hdr : s'.dropped = s.dropped)
    (hok : s.threads t ≠ .idle ∨ s.handles ≠ 0) : Inv n s' := by
  have hnd : ∀ t', (s.threads t').inDrop = true → t' ≠ t → False := by
    intro t' h1 h2
    have := h.drop t' h1
    rcases hok with hk | hk
    · exact hk (this.2 t (fun e => h2 e.symm))
    · exact hk this.1
  refine ⟨?_, ?_, ?_, ?_, ?_, ?_, ?_, ?_, ?_, ?_, ?_⟩
  · intro t' hn
    rw [ht]; simp only [upd]
    rcases ha t' hn with ⟨rfl, rfl⟩ | ⟨h1, h2⟩
    · simp
    · simp [h1, h.idle t' h2]
  · rw [hlog, hp]; exact h.shuts
  · rw [hp]; exact h.bound
  · intro t' i hk
    rw [hr, hp]
    rw [ht] at hk; simp only [upd] at hk
    split at hk
    · rw [hl] at hk; cases hk
    · exact h.loop t' i hk
  · intro t' hk
    rw [hr] at hk
    have := h.run t' hk
    rw [hf, ht]; simp only [upd]
    split
    · rename_i heq; rw [heq, hl0] at this; simp at this
    · exact this
  · rw [hr, hf, hp, hi]; exact h.rest
  · intro t' i acc hk
    rw [hi]
    rw [ht] at hk; simp only [upd] at hk
    split at hk
    · rw [hk] at hl; simp [Pc.loop] at hl
    · exact h.flag t' i acc hk
  · intro t' hk
    rw [ht] at hk; simp only [upd] at hk
    split at hk
    · rw [hd] at hk; cases hk
    · rename_i hne; exact (hnd t' hk hne).elim
  · intro hk
    rw [hf] at hk
    rw [hi, hh, ht]
    rcases h.fin hk with h1 | ⟨h1, h2⟩
    · exact Or.inl h1
    · rcases hok with h3 | h3
      · exact absurd (h2 t) h3
      · exact absurd h1 h3
  · rw [hret, hf]; exact h.results
  · rw [hdr, hf]; exact h.dropped

theorem inv_begin {n : Nat} {s s' : State X} (h : Inv n s) {t : Nat} {pc : Pc X} (hl : pc.loop = none) (hd : pc.inDrop = false)
    (hs : begin_ s t pc = some s') : Inv n s' := by
  simp only [begin_] at hs
  split at hs
  · rename_i hidle
    split at hs
    · rename_i hh
      injection hs with hs; subst hs
      refine inv_quiet h t pc hl hd (by rw [hidle]; rfl) (by rw [hidle]; rfl) rfl ?_ rfl rfl rfl rfl rfl rfl rfl rfl (Or.inr (by omega))
      intro t' hn
      simp only [State.enter, List.mem_cons, not_or] at hn
      exact Or.inr hn
    · cases hs
  · cases hs

theorem active_leave {s : State X} {t : Nat} : ∀ t', t' ∉ (s.leave t).active → t' = t ∧ (Pc.idle : Pc X) = .idle ∨ t' ≠ t ∧ t' ∉ s.active := by
  intro t' hn
  simp only [State.leave, List.mem_filter, not_and] at hn
  by_cases he : t' = t
  · exact Or.inl ⟨he, rfl⟩
  · exact Or.inr ⟨he, fun hm => hn hm (by simpa using he)⟩

theorem inv_thread {n : Nat} {s s' : State X} {t : Nat} {ok : Bool} (h : Inv n s) (hs : threadStep n s t ok = some s') :
    Inv n s' := by
  unfold threadStep at hs
  have hact : s.threads t ≠ .idle → t ∈ s.active := by
    intro hne; exact Decidable.byContradiction fun hc => hne (h.idle t hc)
  split at hs
  case h_1 => cases hs
  case h_2 x hpc =>
    split at hs
    · injection hs with hs; subst hs
      exact inv_quiet h t .idle rfl rfl (by rw [hpc]; rfl) (by rw [hpc]; rfl) rfl active_leave rfl rfl rfl rfl rfl rfl rfl rfl (Or.inl (by simp [hpc]))
    · injection hs with hs; subst hs
      refine inv_quiet h t (.deliver x 0) rfl rfl (by rw [hpc]; rfl) (by rw [hpc]; rfl) rfl ?_ rfl rfl rfl rfl rfl rfl rfl rfl (Or.inl (by simp [hpc]))
      intro t' hn
      refine Or.inr ⟨?_, hn⟩
      rintro rfl; exact hn (hact (by simp [hpc]))
  case h_3 x i hpc =>
    split at hs
    · injection hs with hs; subst hs
      refine inv_quiet h t (.deliver x (i + 1)) rfl rfl (by rw [hpc]; rfl) (by rw [hpc]; rfl) rfl ?_ (shutsOf_item _ _ _) rfl rfl rfl rfl rfl rfl rfl
        (Or.inl (by simp [hpc]))
      intro t' hn
      refine Or.inr ⟨?_, hn⟩
      rintro rfl; exact hn (hact (by simp [hpc]))
    · injection hs with hs; subst hs
      exact inv_quiet h t .idle rfl rfl (by rw [hpc]; rfl) (by rw [hpc]; rfl) rfl active_leave rfl rfl rfl rfl rfl rfl rfl rfl (Or.inl (by simp [hpc]))
  case h_4 hpc =>
    split at hs
    · injection hs with hs; subst hs
      exact inv_quiet h t .idle rfl rfl (by rw [hpc]; rfl) (by rw [hpc]; rfl) rfl active_leave rfl rfl rfl rfl rfl rfl rfl rfl (Or.inl (by simp [hpc]))
    · injection hs with hs; subst hs
      refine inv_quiet h t (.flush 0 true) rfl rfl (by rw [hpc]; rfl) (by rw [hpc]; rfl) rfl ?_ rfl rfl rfl rfl rfl rfl rfl rfl (Or.inl (by simp [hpc]))
      intro t' hn
      refine Or.inr ⟨?_, hn⟩
      rintro rfl; exact hn (hact (by simp [hpc]))
  case h_5 i acc hpc =>
    split at hs
    · injection hs with hs; subst hs
      refine inv_quiet h t (.flush (i + 1) (acc && ok)) rfl rfl (by rw [hpc]; rfl) (by rw [hpc]; rfl) rfl ?_ (shutsOf_flush _ _) rfl rfl rfl rfl rfl rfl
        rfl (Or.inl (by simp [hpc]))
      intro t' hn
      refine Or.inr ⟨?_, hn⟩
      rintro rfl; exact hn (hact (by simp [hpc]))
    · injection hs with hs; subst hs
      exact inv_quiet h t .idle rfl rfl (by rw [hpc]; rfl) (by rw [hpc]; rfl) rfl active_leave rfl rfl rfl rfl rfl rfl rfl rfl (Or.inl (by simp [hpc]))
  case h_6 hpc =>
    split at hs
    · injection hs with hs; subst hs
      exact inv_quiet h t .idle rfl rfl (by rw [hpc]; rfl) (by rw [hpc]; rfl) rfl active_leave rfl rfl rfl rfl rfl rfl
        (by simp [effective]) rfl (Or.inl (by simp [hpc]))
    · rename_i hns
      injection hs with hs; subst hs
      have hns' : s.isShutdown = false := by simpa using hns
      have hrun : s.runner = none := by
        cases hr : s.runner with
        | none => rfl
        | some t' =>
          have h1 := (h.run t' hr).2
          cases hp : s.threads t' with
          | shut i acc => exact absurd (h.flag t' i acc hp) hns
          | dropLoop i =>
            have h2 := (h.drop t' (by rw [hp]; rfl)).2 t
            by_cases he : t = t'
            · rw [he, hp] at hpc; cases hpc
            · rw [h2 he] at hpc; cases hpc
          | _ => rw [hp] at h1; simp [Pc.loop] at h1
      have hrest := h.rest hrun
      have hfin : s.finished = false := by
        cases hf : s.finished with
        | false => rfl
        | true =>
          rcases h.fin hf with h1 | ⟨_, h1⟩
          · exact absurd h1 hns
          · rw [h1 t] at hpc; cases hpc
      rw [hfin] at hrest
      have hp0 : s.progress = 0 := by simpa [hns'] using hrest
      have hnl : ∀ t', (s.threads t').loop = none := by
        intro t'
        cases hl : (s.threads t').loop with
        | none => rfl
        | some i => have := (h.loop t' i hl).1; rw [hrun] at this; cases this
      have hnd : ∀ t', (s.threads t').inDrop = true → False := by
        intro t' hk
        have h2 := (h.drop t' hk).2 t
        by_cases he : t = t'
        · rw [← he, hpc] at hk; cases hk
        · rw [h2 he] at hpc; cases hpc
      refine ⟨?_, h.shuts, h.bound, ?_, ?_, ?_, ?_, ?_, ?_, h.results, h.dropped⟩
      · intro t' hn
        simp only [State.goto, upd]
        split
        · rename_i he; rw [he] at hn; exact absurd (hact (by simp [hpc])) hn
        · exact h.idle t' hn
      · intro t' i hk
        simp only [State.goto, upd] at hk ⊢
        split at hk
        · rename_i he; simp [Pc.loop] at hk; exact ⟨by rw [he], by omega⟩
        · rw [hnl t'] at hk; cases hk
      · intro t' hk
        simp only [Option.some.injEq] at hk
        subst hk
        exact ⟨hfin, by simp [State.goto, upd, Pc.loop]⟩
      · intro hk; cases hk
      · intro t' i acc hk; rfl
      · intro t' hk
        simp only [State.goto, upd] at hk
        split at hk
        · simp [Pc.inDrop] at hk
        · exact (hnd t' hk).elim
      · intro hk; exact Or.inl rfl
  case h_7 i acc hpc =>
    obtain ⟨hr, hp⟩ := h.loop t i (by rw [hpc]; rfl)
    have hsd := h.flag t i acc hpc
    have hfin := (h.run t hr).1
    have hothers : ∀ t', t' ≠ t → (s.threads t').loop = none := by
      intro t' hne
      cases hl : (s.threads t').loop with
      | none => rfl
      | some j => have := (h.loop t' j hl).1; rw [hr] at this; injection this with this; exact absurd this.symm hne
    have hnd : ∀ t', (s.threads t').inDrop = true → False := by
      intro t' hk
      have h2 := (h.drop t' hk).2 t
      by_cases he : t = t'
      · rw [← he, hpc] at hk; cases hk
      · rw [h2 he] at hpc; cases hpc
    split at hs
    · rename_i hlt
      injection hs with hs; subst hs
      refine ⟨?_, ?_, ?_, ?_, ?_, ?_, ?_, ?_, ?_, h.results, h.dropped⟩
      · intro t' hn
        simp only [State.goto, upd]
        split
        · rename_i he; rw [he] at hn; exact absurd (hact (by simp [hpc])) hn
        · exact h.idle t' hn
      · show shutsOf (s.log ++ [(i, Ev.shutdown)]) = List.range (s.progress + 1)
        rw [shutsOf_append, h.shuts, List.range_succ, hp]
      · show s.progress + 1 ≤ n
        omega
      · intro t' j hk
        simp only [State.goto, upd] at hk ⊢
        split at hk
        · rename_i he; simp [Pc.loop] at hk; exact ⟨by rw [he, hr], by omega⟩
        · rename_i hne; rw [hothers t' hne] at hk; cases hk
      · intro t' hk
        have hk' : s.runner = some t' := hk
        rw [hr] at hk'; injection hk' with hk'; subst hk'
        exact ⟨hfin, by simp [State.goto, upd, Pc.loop]⟩
      · intro hk
        have hk' : s.runner = none := hk
        rw [hr] at hk'; cases hk'
      · intro t' j b hk; exact hsd
      · intro t' hk
        simp only [State.goto, upd] at hk
        split at hk
        · simp [Pc.inDrop] at hk
        · exact (hnd t' hk).elim
      · intro hk; exact Or.inl hsd
    · rename_i hge
      injection hs with hs; subst hs
      have hb := h.bound
      refine ⟨?_, h.shuts, h.bound, ?_, ?_, ?_, ?_, ?_, ?_, ?_, ?_⟩
      · intro t' hn
        simp only [State.answer, State.leave, upd]
        rcases active_leave (s := s) t' hn with ⟨h1, _⟩ | ⟨h1, h2⟩
        · simp [h1]
        · simp [h1, h.idle t' h2]
      · intro t' j hk
        simp only [State.answer, State.leave, upd] at hk
        split at hk
        · simp [Pc.loop] at hk
        · rename_i hne; rw [hothers t' hne] at hk; cases hk
      · intro t' hk; cases hk
      · intro _; exact Or.inl ⟨rfl, by simp only [State.answer, State.leave]; omega⟩
      · intro t' j b hk
        exact hsd
      · intro t' hk
        simp only [State.answer, State.leave, upd] at hk
        split at hk
        · simp [Pc.inDrop] at hk
        · exact (hnd t' hk).elim
      · intro _; exact Or.inl hsd
      · refine ⟨?_, by intro hk; cases hk⟩
        have := h.results.2 hfin
        simp only [effective] at this ⊢
        rw [List.filter_append, this]
        exact List.length_filter_le _ _
      · intro _; rfl
  case h_8 hpc =>
    obtain ⟨hh, hoth⟩ := h.drop t (by rw [hpc]; rfl)
    have hnl : ∀ t', (s.threads t').loop = none := by
      intro t'
      by_cases he : t' = t
      · rw [he, hpc]; rfl
      · rw [hoth t' he]; rfl
    have hrun : s.runner = none := by
      cases hr : s.runner with
      | none => rfl
      | some t' => have := (h.run t' hr).2; rw [hnl t'] at this; cases this
    have hidle_after : ∀ t', (s.leave t).threads t' = .idle := by
      intro t'
      simp only [State.leave, upd]
      split
      · rfl
      · rename_i hne; exact hoth t' hne
    split at hs
    · rename_i hsd
      injection hs with hs; subst hs
      have hrest : s.finished = true ∧ s.progress = n := by
        rcases h.rest hrun with h1 | ⟨_, _, h1⟩
        · exact h1
        · rw [hsd] at h1; cases h1
      refine ⟨?_, h.shuts, h.bound, ?_, ?_, ?_, ?_, ?_, ?_, h.results, ?_⟩
      · intro t' _; exact hidle_after t'
      · intro t' i hk
        have hk' : ((s.leave t).threads t').loop = some i := hk
        rw [hidle_after t'] at hk'; cases hk'
      · intro t' hk
        have hk' : s.runner = some t' := hk
        rw [hrun] at hk'; cases hk'
      · intro _; exact Or.inl hrest
      · intro t' i acc hk; exact hsd
      · intro t' hk
        have hk' : ((s.leave t).threads t').inDrop = true := hk
        rw [hidle_after t'] at hk'; cases hk'
      · intro _; exact Or.inl hsd
      · intro _; exact hrest.1
    · rename_i hns
      have hns' : s.isShutdown = false := by simpa using hns
      injection hs with hs; subst hs
      have hfin : s.finished = false := by
        cases hf : s.finished with
        | false => rfl
        | true =>
          rcases h.fin hf with h1 | ⟨_, h1⟩
          · exact absurd h1 hns
          · rw [h1 t] at hpc; cases hpc
      have hrest := h.rest hrun
      rw [hfin] at hrest
      have hp0 : s.progress = 0 := by simpa [hns'] using hrest
      refine ⟨?_, h.shuts, h.bound, ?_, ?_, ?_, ?_, ?_, ?_, h.results, h.dropped⟩
      · intro t' hn
        simp only [State.goto, upd]
        split
        · rename_i he; rw [he] at hn; exact absurd (hact (by simp [hpc])) hn
        · exact h.idle t' hn
      · intro t' i hk
        simp only [State.goto, upd] at hk ⊢
        split at hk
        · rename_i he; simp [Pc.loop] at hk; exact ⟨by rw [he], by omega⟩
        · rw [hnl t'] at hk; cases hk
      · intro t' hk
        simp only [Option.some.injEq] at hk
        subst hk
        exact ⟨hfin, by simp [State.goto, upd, Pc.loop]⟩
      · intro hk; cases hk
      · intro t' i acc hk
        simp only [State.goto, upd] at hk
        split at hk
        · cases hk
        · rename_i hne; rw [hoth t' hne] at hk; cases hk
      · intro t' hk
        simp only [State.goto, upd] at hk ⊢
        split at hk
        · rename_i he
          refine ⟨hh, ?_⟩
          intro t'' hne
          rw [he] at hne
          simp [hne, hoth t'' hne]
        · rename_i hne; rw [hoth t' hne] at hk; cases hk
      · intro hk
        have hk' : s.finished = true := hk
        rw [hfin] at hk'; cases hk'
  case h_9 i hpc =>
    obtain ⟨hh, hoth⟩ := h.drop t (by rw [hpc]; rfl)
    obtain ⟨hr, hp⟩ := h.loop t i (by rw [hpc]; rfl)
    have hfin := (h.run t hr).1
    split at hs
    · rename_i hlt
      injection hs with hs; subst hs
      refine ⟨?_, ?_, ?_, ?_, ?_, ?_, ?_, ?_, ?_, h.results, h.dropped⟩
      · intro t' hn
        simp only [State.goto, upd]
        split
        · rename_i he; rw [he] at hn; exact absurd (hact (by simp [hpc])) hn
        · exact h.idle t' hn
      · show shutsOf (s.log ++ [(i, Ev.shutdown)]) = List.range (s.progress + 1)
        rw [shutsOf_append, h.shuts, List.range_succ, hp]
      · show s.progress + 1 ≤ n
        omega
      · intro t' j hk
        simp only [State.goto, upd] at hk ⊢
        split at hk
        · rename_i he; simp [Pc.loop] at hk; exact ⟨by rw [he, hr], by omega⟩
        · rename_i hne; rw [hoth t' hne] at hk; cases hk
      · intro t' hk
        have hk' : s.runner = some t' := hk
        rw [hr] at hk'; injection hk' with hk'; subst hk'
        exact ⟨hfin, by simp [State.goto, upd, Pc.loop]⟩
      · intro hk
        have hk' : s.runner = none := hk
        rw [hr] at hk'; cases hk'
      · intro t' j b hk
        simp only [State.goto, upd] at hk
        split at hk
        · cases hk
        · rename_i hne; rw [hoth t' hne] at hk; cases hk
      · intro t' hk
        simp only [State.goto, upd] at hk ⊢
        split at hk
        · rename_i he
          refine ⟨hh, ?_⟩
          intro t'' hne
          rw [he] at hne
          simp [hne, hoth t'' hne]
        · rename_i hne; rw [hoth t' hne] at hk; cases hk
      · intro hk
        have hk' : s.finished = true := hk
        rw [hfin] at hk'; cases hk'
    · rename_i hge
      injection hs with hs; subst hs
      have hb := h.bound
      have hidle_after : ∀ t', (s.leave t).threads t' = .idle := by
        intro t'
        simp only [State.leave, upd]
        split
        · rfl
        · rename_i hne; exact hoth t' hne
      refine ⟨?_, h.shuts, h.bound, ?_, ?_, ?_, ?_, ?_, ?_, ?_, ?_⟩
      · intro t' _; exact hidle_after t'
      · intro t' j hk
        have hk' : ((s.leave t).threads t').loop = some j := hk
        rw [hidle_after t'] at hk'; cases hk'
      · intro t' hk; cases hk
      · intro _; exact Or.inl ⟨rfl, by simp only [State.leave]; omega⟩
      · intro t' j b hk
        have hk' : (s.leave t).threads t' = .shut j b := hk
        rw [hidle_after t'] at hk'; cases hk'
      · intro t' hk
        have hk' : ((s.leave t).threads t').inDrop = true := hk
        rw [hidle_after t'] at hk'; cases hk'
      · intro _; exact Or.inr ⟨hh, hidle_after⟩
      · exact ⟨h.results.1, by intro hk; cases hk⟩
      · intro _; rfl

theorem inv_step {k : Kind} {n : Nat} {s s' : State X} {a : Action X} (h : Inv n s) (hs : step k n s a = some s') : Inv n s' := by
  cases a with
  | clone =>
    simp only [step] at hs
    split at hs
    · rename_i hh
      injection hs with hs; subst hs
      refine ⟨h.idle, h.shuts, h.bound, h.loop, h.run, h.rest, h.flag, ?_, ?_, h.results, h.dropped⟩
      · intro t hk; have := (h.drop t hk).1; omega
      · intro hk
        rcases h.fin hk with h1 | ⟨h1, _⟩
        · exact Or.inl h1
        · omega
    · cases hs
  | dropHandle t =>
    simp only [step] at hs
    split at hs
    · rename_i hh
      injection hs with hs; subst hs
      refine ⟨h.idle, h.shuts, h.bound, h.loop, h.run, h.rest, h.flag, ?_, ?_, h.results, h.dropped⟩
      · intro t' hk; have := (h.drop t' hk).1; omega
      · intro hk
        rcases h.fin hk with h1 | ⟨h1, _⟩
        · exact Or.inl h1
        · omega
    · split at hs
      · rename_i hh
        obtain ⟨hh1, hact⟩ := hh
        have hall : ∀ t', s.threads t' = .idle := fun t' => h.idle t' (by simp [hact])
        rw [hall t] at hs
        injection hs with hs; subst hs
        refine ⟨?_, h.shuts, h.bound, ?_, ?_, h.rest, ?_, ?_, ?_, h.results, h.dropped⟩
        · intro t' hn
          simp only [State.enter, List.mem_cons, not_or] at hn
          simp only [State.enter, upd]
          simp [hn.1, hall t']
        · intro t' i hk
          simp only [State.enter, upd] at hk
          split at hk
          · simp [Pc.loop] at hk
          · rw [hall t'] at hk; simp [Pc.loop] at hk
        · intro t' hk
          have h1 := (h.run t' hk).2
          rw [hall t'] at h1; simp [Pc.loop] at h1
        · intro t' i acc hk
          simp only [State.enter, upd] at hk
          split at hk
          · cases hk
          · rw [hall t'] at hk; cases hk
        · intro t' hk
          refine ⟨rfl, ?_⟩
          intro t'' hne
          simp only [State.enter, upd] at hk ⊢
          split at hk
          · rename_i he; rw [he] at hne; simp [hne, hall t'']
          · rw [hall t'] at hk; simp [Pc.inDrop] at hk
        · intro hk
          have hk' : s.finished = true := hk
          rcases h.fin hk' with h1 | ⟨h1, _⟩
          · exact Or.inl h1
          · omega
      · cases hs
  | obtain_ =>
    simp only [step] at hs
    split at hs
    · injection hs with hs; subst hs
      exact ⟨h.idle, h.shuts, h.bound, h.loop, h.run, h.rest, h.flag, h.drop, h.fin, h.results, h.dropped⟩
    · cases hs
  | item t x =>
    simp only [step] at hs
    split at hs
    · exact inv_begin h rfl rfl hs
    · exact inv_begin h rfl rfl hs
    · cases hs
  | flush t =>
    simp only [step] at hs
    split at hs
    · exact inv_begin h rfl rfl hs
    · exact inv_begin h rfl rfl hs
  | shutdown t => exact inv_begin h rfl rfl hs
  | thread t ok => exact inv_thread h hs

theorem inv_reachable {k : Kind} {n : Nat} {s : State X} (h : Reachable k n s) : Inv n s := by
  induction h with
  | init => exact inv_init n
  | step _ hs ih => exact inv_step ih hs

/-! ## C29, C35, C49: once -/

/-- **C29 / C35 / C49 (once)** In every schedule the processors are told to shut down one after the other in registration order,
none twice, whether by `shutdown` calls, by the destructor, or both. -/
theorem shutdown_once (k : Kind) (n : Nat) (s : State X) (h : Reachable k n s) :
    ∃ m ≤ n, shutsOf s.log = List.range m :=
  ⟨s.progress, (inv_reachable h).bound, (inv_reachable h).shuts⟩

/-- **C29 / C35 / C49 (one winner)** At most one `shutdown` call in the whole history returns something other than
`AlreadyShutdown`, and when one has, every processor has been shut down. -/
theorem one_effective_shutdown (k : Kind) (n : Nat) (s : State X) (h : Reachable k n s) :
    (effective s.returned).length ≤ 1 ∧ (effective s.returned ≠ [] → shutsOf s.log = List.range n) := by
  have hi := inv_reachable h
  refine ⟨hi.results.1, ?_⟩
  intro hne
  have hf : s.finished = true := by
    cases hf : s.finished with
    | true => rfl
    | false => exact absurd (hi.results.2 hf) hne
  have hr : s.runner = none := by
    cases hr : s.runner with
    | none => rfl
    | some t => have := (hi.run t hr).1; rw [hf] at this; cases this
  rcases hi.rest hr with ⟨_, h1⟩ | ⟨h1, _⟩
  · rw [hi.shuts, h1]
  · rw [hf] at h1; cases h1

/-- **C29 / C35 / C49 (drop)** When the last handle has been dropped and its destructor has run, every processor has been shut
down exactly once. -/
theorem dropped_all_shut (k : Kind) (n : Nat) (s : State X) (h : Reachable k n s) (hd : s.dropped = true) :
    shutsOf s.log = List.range n := by
  have hi := inv_reachable h
  have hf := hi.dropped hd
  have hr : s.runner = none := by
    cases hr : s.runner with
    | none => rfl
    | some t => have := (hi.run t hr).1; rw [hf] at this; cases this
  rcases hi.rest hr with ⟨_, h1⟩ | ⟨h1, _⟩
  · rw [hi.shuts, h1]
  · rw [hf] at h1; cases h1

theorem isShutdown_stays {k : Kind} {n : Nat} {s s' : State X} (h : Later k n s s') (hs : s.isShutdown = true) :
    s'.isShutdown = true := by
  induction h with
  | refl => exact hs
  | @step s1 s2 a _ hst ih =>
    cases a with
    | clone => simp only [step] at hst; split at hst <;> first | (cases hst; done) | (injection hst with hst; subst hst; exact ih)
    | dropHandle t =>
      simp only [step] at hst
      repeat' split at hst
      all_goals first | (cases hst; done) | (injection hst with hst; subst hst; exact ih)
    | obtain_ => simp only [step] at hst; split at hst <;> first | (cases hst; done) | (injection hst with hst; subst hst; exact ih)
    | item t x =>
      simp only [step, begin_] at hst
      repeat' split at hst
      all_goals first | (cases hst; done) | (injection hst with hst; subst hst; exact ih)
    | flush t =>
      simp only [step, begin_] at hst
      repeat' split at hst
      all_goals first | (cases hst; done) | (injection hst with hst; subst hst; exact ih)
    | shutdown t =>
      simp only [step, begin_] at hst
      repeat' split at hst
      all_goals first | (cases hst; done) | (injection hst with hst; subst hst; exact ih)
    | thread t ok =>
      simp only [step, threadStep] at hst
      repeat' split at hst
      all_goals first | (cases hst; done) | (injection hst with hst; subst hst; first | exact ih | rfl)

/-- **C29 / C35 / C49 (silent afterwards)** A tracer, logger or meter obtained at any moment after `shutdown` was called is a no-op
one. -/
theorem obtained_after_shutdown (k : Kind) (n : Nat) (s s1 s2 : State X) (hs : s.isShutdown = true) (hl : Later k n s s1)
    (ho : step k n s1 .obtain_ = some s2) : s2.obtained = s1.obtained ++ [true] := by
  have := isShutdown_stays hl hs
  simp only [step] at ho
  split at ho
  · injection ho with ho; subst ho; simp [this]
  · cases ho

/-- A later `shutdown` call is answered `AlreadyShutdown` and tells the processors nothing. -/
theorem later_shutdown (k : Kind) (n : Nat) (s : State X) (t : Nat) (ok : Bool) (hs : s.isShutdown = true) (hpc : s.threads t = .shut0) :
    ∃ s', step k n s (.thread t ok) = some s' ∧ s'.returned = s.returned ++ [.alreadyShutdown] ∧ s'.log = s.log := by
  refine ⟨{ s.answer t .alreadyShutdown with returned := s.returned ++ [.alreadyShutdown] }, ?_, rfl, rfl⟩
  simp [step, threadStep, hpc, hs]

/-! ## Items after shutdown -/

/-- For tracers: a thread whose call began after the flag was set delivers nothing. -/
def LateInv (s : State X) : Prop := ∀ t, s.late t = true → s.isShutdown = true ∧ ∀ x i, s.threads t ≠ .deliver x i

theorem late_begin {s s' : State X} {t : Nat} {pc : Pc X} (h : LateInv s) (hpc : ∀ x i, pc ≠ .deliver x i)
    (hs : begin_ s t pc = some s') : LateInv s' := by
  simp only [begin_] at hs
  repeat' split at hs
  · injection hs with hs; subst hs
    intro t' ht'
    simp only [State.enter, upd] at ht' ⊢
    split at ht'
    · rename_i he; simp only [he, if_true]; exact ⟨ht', hpc⟩
    · rename_i he; simp only [he, if_false]; exact h t' ht'
  · cases hs
  · cases hs

theorem late_reachable {n : Nat} {s : State X} (h : Reachable .tracer n s) : LateInv s := by
  induction h with
  | init => intro t ht; simp [State.init] at ht
  | @step s s' a _ hs ih =>
    cases a with
    | clone => simp only [step] at hs; split at hs <;> first | (cases hs; done) | (injection hs with hs; subst hs; exact ih)
    | dropHandle t =>
      simp only [step] at hs
      repeat' split at hs
      · injection hs with hs; subst hs; exact ih
      · injection hs with hs; subst hs
        intro t' ht'
        simp only [State.enter, upd] at ht' ⊢
        split at ht'
        · rename_i he; simp only [he, if_true]; exact ⟨ht', by simp⟩
        · rename_i he; simp only [he, if_false]; exact ih t' ht'
      · cases hs
      · cases hs
    | obtain_ => simp only [step] at hs; split at hs <;> first | (cases hs; done) | (injection hs with hs; subst hs; exact ih)
    | item t x => exact late_begin ih (by simp) hs
    | flush t => exact late_begin ih (by simp) hs
    | shutdown t => exact late_begin ih (by simp) hs
    | thread t ok =>
      have keep : ∀ (pc : Pc X) (b : Bool), (∀ x i, pc ≠ .deliver x i) → (b = s.isShutdown ∨ b = true) → ∀ t', s.late t' = true →
          b = true ∧ ∀ x i, upd s.threads t pc t' ≠ .deliver x i := by
        intro pc b hpc hb t' ht'
        have := ih t' ht'
        refine ⟨by rcases hb with rfl | rfl; exact this.1; rfl, ?_⟩
        intro x i
        simp only [upd]
        split
        · exact hpc x i
        · exact this.2 x i
      simp only [step, threadStep] at hs
      split at hs
      case h_1 => cases hs
      case h_2 x hpc =>
        split at hs
        · injection hs with hs; subst hs; exact keep .idle _ (by simp) (Or.inl rfl)
        · rename_i hns
          injection hs with hs; subst hs
          intro t' ht'
          exact absurd (ih t' ht').1 hns
      case h_3 x i hpc =>
        split at hs
        · injection hs with hs; subst hs
          intro t' ht'
          have := ih t' ht'
          refine ⟨this.1, ?_⟩
          intro y j
          simp only [State.goto, upd]
          split
          · rename_i he; rw [he] at this; exact absurd hpc (this.2 x i)
          · exact this.2 y j
        · injection hs with hs; subst hs; exact keep .idle _ (by simp) (Or.inl rfl)
      case h_6 hpc =>
        split at hs
        · injection hs with hs; subst hs; exact keep .idle _ (by simp) (Or.inl rfl)
        · injection hs with hs; subst hs; exact keep (.shut 0 true) true (by simp) (Or.inr rfl)
      all_goals
        repeat' split at hs
        all_goals first
          | (injection hs with hs; subst hs; exact keep .idle _ (by simp) (Or.inl rfl))
          | (injection hs with hs; subst hs; exact keep (.flush 0 true) _ (by simp) (Or.inl rfl))
          | (injection hs with hs; subst hs; exact keep (.flush _ _) _ (by simp) (Or.inl rfl))
          | (injection hs with hs; subst hs; exact keep (.shut _ _) _ (by simp) (Or.inl rfl))
          | (injection hs with hs; subst hs; exact keep (.dropLoop _) _ (by simp) (Or.inl rfl))

/-- **C29 (late spans)** A span ended by a call that began after `shutdown` set the flag reaches no processor. -/
theorem late_end_not_delivered (n : Nat) (s s' : State X) (h : Reachable .tracer n s) (t : Nat) (ok : Bool) (hl : s.late t = true)
    (hs : step .tracer n s (.thread t ok) = some s') (i : Nat) : itemsOf i s'.log = itemsOf i s.log := by
  have hn := (late_reachable h t hl).2
  simp only [step, threadStep] at hs
  split at hs
  case h_3 x j hpc => exact absurd hpc (hn x j)
  all_goals
    repeat' split at hs
    all_goals first
      | (cases hs; done)
      | (injection hs with hs; subst hs; rfl)
      | (injection hs with hs; subst hs; simp [itemsOf])

theorem reachable_runAll {k : Kind} {n : Nat} {s s' : State X} (h : Reachable k n s) (as : List (Action X))
    (hr : runAll k n s as = some s') : Reachable k n s' := by
  induction as generalizing s with
  | nil => simp [runAll] at hr; subst hr; exact h
  | cons a as ih =>
    simp only [runAll] at hr
    split at hr
    · rename_i s1 hs1; exact ih (.step h hs1) hr
    · cases hr

/-- **C29 (race, violated)** A span that passes the flag check just before `shutdown` reaches the processor after the processor
has been shut down. -/
theorem end_after_shutdown_violated : ∃ s : State Nat, Reachable .tracer 1 s ∧ s.log = [(0, .shutdown), (0, .item 7)] := by
  have h : (runAll .tracer 1 State.init ([.item 1 7, .thread 1 true, .shutdown 0, .thread 0 true, .thread 0 true, .thread 1 true] :
      List (Action Nat))).map (fun s => s.log) = some [(0, .shutdown), (0, .item 7)] := by rfl
  obtain ⟨s, hs, he⟩ := Option.map_eq_some_iff.1 h
  exact ⟨s, reachable_runAll .init _ hs, he⟩

/-- **C35 (existing loggers, violated)** `emit` does not look at the flag: a logger obtained before `shutdown` hands a record
emitted after `shutdown` has returned to the processors, which have been shut down. -/
theorem emit_after_shutdown_violated : ∃ s1 s2 : State Nat, Reachable .logger 1 s1 ∧ s1.returned = [.ok] ∧ s1.log = [(0, .shutdown)]
    ∧ Later .logger 1 s1 s2 ∧ s2.log = [(0, .shutdown), (0, .item 7)] := by
  have h : (runAll .logger 1 State.init ([.shutdown 0, .thread 0 true, .thread 0 true, .thread 0 true] :
      List (Action Nat))).map (fun s => (s.returned, s.log)) = some ([.ok], [(0, .shutdown)]) := by rfl
  obtain ⟨s1, hs1, he1⟩ := Option.map_eq_some_iff.1 h
  have h2 : (runAll .logger 1 State.init ([.shutdown 0, .thread 0 true, .thread 0 true, .thread 0 true] : List (Action Nat))).map
      (fun s => ((step .logger 1 s (.item 1 7)).map (fun s => (step .logger 1 s (.thread 1 true)).map (fun s => s.log))))
        = some (some (some [(0, .shutdown), (0, .item 7)])) := by rfl
  rw [hs1] at h2
  simp only [Option.map_some, Option.some.injEq] at h2
  obtain ⟨sa, hsa, hb⟩ := Option.map_eq_some_iff.1 h2
  obtain ⟨sb, hsb, hc⟩ := Option.map_eq_some_iff.1 hb
  simp only [Prod.mk.injEq] at he1
  exact ⟨s1, sb, reachable_runAll .init _ hs1, he1.1, he1.2, .step (.step .refl hsa) hsb, hc⟩

/-- Non-vacuity: two concurrent `shutdown` calls and a drop of the last handle, two processors. -/
example : ∃ s : State Nat, Reachable .meter 2 s ∧ s.returned = [.alreadyShutdown, .failed] ∧ s.dropped = true
    ∧ s.log = [(0, .shutdown), (1, .shutdown)] ∧ s.obtained = [false, true] := by
  have h : (runAll .meter 2 State.init ([.obtain_, .clone, .shutdown 0, .thread 0 true, .shutdown 1, .thread 0 false, .thread 1 true,
      .thread 0 true, .thread 0 true, .obtain_, .dropHandle 0, .dropHandle 0, .thread 0 true] :
      List (Action Nat))).map (fun s => (s.returned, s.dropped, s.log, s.obtained))
        = some ([.alreadyShutdown, .failed], true, [(0, .shutdown), (1, .shutdown)], [false, true]) := by rfl
  obtain ⟨s, hs, he⟩ := Option.map_eq_some_iff.1 h
  simp only [Prod.mk.injEq] at he
  exact ⟨s, reachable_runAll .init _ hs, he.1, he.2.1, he.2.2.1, he.2.2.2⟩

/-- Non-vacuity: the last handle is dropped without `shutdown`. -/
example : ∃ s : State Nat, Reachable .logger 1 s ∧ s.dropped = true ∧ s.log = [(0, .item 3), (0, .shutdown)] := by
  have h : (runAll .logger 1 State.init ([.item 4 3, .thread 4 true, .thread 4 true, .dropHandle 0, .thread 0 true, .thread 0 true,
      .thread 0 true] : List (Action Nat))).map (fun s => (s.dropped, s.log)) = some (true, [(0, .item 3), (0, .shutdown)]) := by rfl
  obtain ⟨s, hs, he⟩ := Option.map_eq_some_iff.1 h
  simp only [Prod.mk.injEq] at he
  exact ⟨s, reachable_runAll .init _ hs, he.1, he.2⟩

end Otel.Sdk.Prov
