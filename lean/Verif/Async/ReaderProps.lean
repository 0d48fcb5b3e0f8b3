import Verif.Async.Reader
/-!
# The periodic metric reader on an async runtime: deliveries, answers, shutdown (C79)
-/

namespace Otel.AsyncReader
open Otel.Async (Res)

/-! ### Specification -/

/-- Export `e` carries measurement `i`. -/
def Ev.covers (i : Nat) : Ev → Bool
  | .exported lo hi _ => decide (lo ≤ i) && decide (i < hi)
  | .shutdown _ => false

/-- The numbers of the calls that have returned. -/
def State.answered (s : State) : List Nat := s.returned.map Prod.fst

/-- The exporter took everything recorded before the call `tok`: for a cumulative exporter in one successful export, for a delta exporter in exports that
were at least attempted. -/
def Delivered (cfg : Cfg) (s : State) (tok : Nat) : Prop :=
  if cfg.delta then ∀ i < s.atCall tok, ∃ e ∈ s.log, e.covers i = true
  else s.atCall tok = 0 ∨ ∃ hi, s.atCall tok ≤ hi ∧ Ev.exported 0 hi .ok ∈ s.log

/-! ### The calls -/

/-- Every call, wherever it is. -/
def State.calls (s : State) : List Nat :=
  s.queue.map Msg.tok ++ s.worker.serving ++ s.settling.map Prod.fst ++ s.answered

def CallsOk (s : State) : Prop := s.calls.Perm (List.range s.nextTok)

theorem count_calls (s : State) (t : Nat) : s.calls.count t =
    (s.queue.map Msg.tok).count t + s.worker.serving.count t + (s.settling.map Prod.fst).count t + s.answered.count t := by
  simp only [State.calls, List.count_append]

theorem callsOk_of_count {s s' : State} (h : CallsOk s) (hn : s'.nextTok = s.nextTok) (hc : ∀ t, s'.calls.count t = s.calls.count t) : CallsOk s' := by
  unfold CallsOk
  rw [hn]
  exact (List.perm_iff_count.2 hc).trans h

theorem count_after (s : State) (k : Cont) (r : Res) (t : Nat) :
    (s.after k r).calls.count t = (s.queue.map Msg.tok).count t + k.toks.count t + (s.settling.map Prod.fst).count t + s.answered.count t := by
  cases k <;> simp [State.after, count_calls, State.answered, Worker.serving, Cont.toks, List.count_append] <;> omega

theorem after_nextTok (s : State) (k : Cont) (r : Res) : (s.after k r).nextTok = s.nextTok := by cases k <;> rfl

theorem count_drop (s : State) (t : Nat) :
    s.drop.calls.count t = (s.queue.map Msg.tok).count t + (s.settling.map Prod.fst).count t + s.answered.count t := by
  have : (s.queue.map (fun m => (m.tok, Ret.canceled))).map Prod.fst = s.queue.map Msg.tok := by simp [Function.comp_def]
  simp only [State.drop, count_calls, State.answered, Worker.serving, List.map_append, List.count_append, List.map_nil, List.count_nil, this]
  omega

theorem callsOk_call {cfg : Cfg} {s : State} (h : CallsOk s) (b : Bool) : CallsOk (s.call cfg b) := by
  have key : ∀ s' : State, s'.nextTok = s.nextTok + 1 → (∀ t, s'.calls.count t = s.calls.count t + [s.nextTok].count t) → CallsOk s' := by
    intro s' hn hc
    unfold CallsOk
    rw [hn, List.range_succ]
    refine List.Perm.trans (l₂ := s.calls ++ [s.nextTok]) (List.perm_iff_count.2 fun t => ?_) (List.Perm.append_right _ h)
    rw [hc, List.count_append]
  unfold State.call
  simp only
  split
  · exact key _ rfl (fun t => by simp [count_calls, State.answered, List.count_append]; omega)
  · split
    · exact key _ rfl (fun t => by simp [count_calls, State.answered, List.count_append]; omega)
    · split
      · refine key _ rfl (fun t => ?_)
        cases b <;> simp [count_calls, State.answered, List.count_append, Msg.tok] <;> omega
      · exact key _ rfl (fun t => by simp [count_calls, State.answered, List.count_append]; omega)

theorem callsOk_step {cfg : Cfg} {s s' : State} {a : Action} (h : CallsOk s) (hs : step cfg s a = some s') : CallsOk s' := by
  cases a with
  | record => simp only [step, Option.some.injEq] at hs; subst hs; exact h
  | register =>
    simp only [step] at hs
    split at hs
    · rename_i hw
      injection hs with hs; subst hs
      exact callsOk_of_count h rfl (fun t => by simp [count_calls, hw, Worker.serving, State.answered])
    · injection hs with hs; subst hs; exact h
  | dropPipeline => simp only [step, Option.some.injEq] at hs; subst hs; exact h
  | forceFlush => simp only [step, Option.some.injEq] at hs; subst hs; exact callsOk_call h _
  | shutdown => simp only [step, Option.some.injEq] at hs; subst hs; exact callsOk_call h _
  | settle =>
    simp only [step] at hs
    split at hs
    · rename_i t r l hl
      injection hs with hs; subst hs
      exact callsOk_of_count h rfl (fun u => by simp [count_calls, State.answered, hl, List.count_append, List.count_cons]; omega)
    · cases hs
  | recv =>
    simp only [step] at hs
    split at hs
    · rename_i t q hw hq
      injection hs with hs; subst hs
      exact callsOk_of_count h rfl (fun u => by simp [count_calls, State.answered, hw, hq, Worker.serving, Cont.toks, Msg.tok, List.count_cons])
    · rename_i t q hw hq
      injection hs with hs; subst hs
      exact callsOk_of_count h rfl (fun u => by simp [count_calls, State.answered, hw, hq, Worker.serving, Cont.toks, Msg.tok, List.count_cons])
    · cases hs
  | tick =>
    simp only [step] at hs
    split at hs
    · rename_i hw
      injection hs with hs; subst hs
      exact callsOk_of_count h rfl (fun u => by simp [count_calls, State.answered, hw, Worker.serving, Cont.toks])
    · cases hs
  | collect =>
    simp only [step] at hs
    split at hs
    · rename_i k hw
      injection hs with hs; subst hs
      unfold State.collect
      split
      · exact callsOk_of_count h (after_nextTok ..) (fun u => by rw [count_after, count_calls, hw]; rfl)
      · split
        · exact callsOk_of_count h (after_nextTok ..) (fun u => by rw [count_after, count_calls, hw]; rfl)
        · exact callsOk_of_count h rfl (fun u => by simp [count_calls, State.answered, hw, Worker.serving])
    · cases hs
  | finish r =>
    simp only [step] at hs
    split at hs
    · rename_i lo hi k hw
      injection hs with hs; subst hs
      exact callsOk_of_count h (after_nextTok ..) (fun u => by rw [count_after, count_calls s, hw]; rfl)
    · cases hs
  | stop ok =>
    simp only [step] at hs
    split at hs
    · rename_i t r hw
      injection hs with hs; subst hs
      exact callsOk_of_count h rfl (fun u => by simp [count_calls, State.answered, hw, Worker.serving, List.count_append]; omega)
    · cases hs
  | close =>
    simp only [step] at hs
    split at hs
    · rename_i hw
      injection hs with hs; subst hs
      exact callsOk_of_count h rfl (fun u => by rw [count_drop, count_calls, hw]; simp [Worker.serving])
    · cases hs
  | die =>
    simp only [step] at hs
    split at hs
    · cases hs
    · cases hs
    · injection hs with hs; subst hs
      have hm : (s.worker.serving.map (fun t => (t, Ret.canceled))).map Prod.fst = s.worker.serving := by simp [Function.comp_def]
      exact callsOk_of_count h rfl (fun u => by
        rw [count_drop, count_calls]
        simp only [State.answered, List.map_append, List.count_append, hm]; omega)

theorem callsOk_reachable {cfg : Cfg} {s : State} (h : Reachable cfg s) : CallsOk s := by
  induction h with
  | init => exact .nil
  | step _ hs ih => exact callsOk_step ih hs

/-! ### The measurements -/

/-- The exports tile `[a, b)`. -/
inductive Tiles : Nat → List Ev → Nat → Prop
  | nil {a} : Tiles a [] a
  | exported {a m b r l} : a < m → Tiles m l b → Tiles a (.exported a m r :: l) b
  | shutdown {a b ok l} : Tiles a l b → Tiles a (.shutdown ok :: l) b

theorem Tiles.snoc_exported {a b m : Nat} {l : List Ev} (h : Tiles a l b) (hm : b < m) (r : Res) : Tiles a (l ++ [.exported b m r]) m := by
  induction h with
  | nil => exact .exported hm .nil
  | exported hlt _ ih => exact .exported hlt (ih hm)
  | shutdown _ ih => exact .shutdown (ih hm)

theorem Tiles.snoc_shutdown {a b : Nat} {l : List Ev} (h : Tiles a l b) (ok : Bool) : Tiles a (l ++ [.shutdown ok]) b := by
  induction h with
  | nil => exact .shutdown .nil
  | exported hlt _ ih => exact .exported hlt ih
  | shutdown _ ih => exact .shutdown ih

theorem Tiles.le {a b : Nat} {l : List Ev} (h : Tiles a l b) : a ≤ b := by
  induction h with
  | nil => exact Nat.le_refl _
  | exported hlt _ ih => omega
  | shutdown _ ih => exact ih

theorem Tiles.count {a b : Nat} {l : List Ev} (h : Tiles a l b) (i : Nat) : l.countP (Ev.covers i) = if a ≤ i ∧ i < b then 1 else 0 := by
  induction h with
  | @nil a => simp; try omega
  | @exported a m b r l hlt ht ih =>
    rw [List.countP_cons, ih]
    have := ht.le
    by_cases h1 : a ≤ i <;> by_cases h2 : i < m <;> by_cases h3 : i < b <;> simp [Ev.covers, h1, h2, h3] <;> omega
  | @shutdown a b ok l _ ih => rw [List.countP_cons, ih]; simp [Ev.covers]

theorem Tiles.covered {a b : Nat} {l : List Ev} (h : Tiles a l b) (i : Nat) (h1 : a ≤ i) (h2 : i < b) : ∃ e ∈ l, e.covers i = true := by
  have := h.count i
  rw [if_pos ⟨h1, h2⟩] at this
  obtain ⟨e, he, hc⟩ := List.countP_pos_iff.1 (show 0 < l.countP (Ev.covers i) by omega)
  exact ⟨e, he, hc⟩

theorem Delivered.mono {cfg : Cfg} {s s' : State} {t : Nat} (h : Delivered cfg s t) (ha : s'.atCall t = s.atCall t) (hl : ∃ l, s'.log = s.log ++ l) :
    Delivered cfg s' t := by
  obtain ⟨l, hl⟩ := hl
  unfold Delivered at h ⊢
  rw [ha, hl]
  split at h
  · rename_i hd
    rw [if_pos hd]
    intro i hi
    obtain ⟨e, he, hc⟩ := h i hi
    exact ⟨e, List.mem_append_left _ he, hc⟩
  · rename_i hd
    rw [if_neg hd]
    rcases h with h | ⟨hi, h1, h2⟩
    · exact .inl h
    · exact .inr ⟨hi, h1, List.mem_append_left _ h2⟩

/-- The history. -/
structure Core (cfg : Cfg) (s : State) : Prop where
  atCall : ∀ t, s.atCall t ≤ s.recorded
  collected : s.collected ≤ s.recorded
  cumul : cfg.delta = false → ∀ lo hi r, Ev.exported lo hi r ∈ s.log → lo = 0
  settling : ∀ t, (t, Res.ok) ∈ s.settling → Delivered cfg s t
  returned : ∀ t, (t, Ret.result .ok) ∈ s.returned → Delivered cfg s t

/-- What the task has in hand. -/
def Work (cfg : Cfg) (s : State) : Prop :=
  match s.worker with
  | .exporting lo hi k => (cfg.delta = true → lo < hi ∧ hi = s.collected ∧ Tiles 0 s.log lo) ∧ (cfg.delta = false → lo = 0) ∧ ∀ t ∈ k.toks, s.atCall t ≤ hi
  | .stopping t r => (cfg.delta = true → Tiles 0 s.log s.collected) ∧ (r = .ok → Delivered cfg s t)
  | .done => cfg.delta = true → ∃ b ≤ s.collected, Tiles 0 s.log b
  | _ => cfg.delta = true → Tiles 0 s.log s.collected

theorem after_data {cfg : Cfg} {s : State} (h : Core cfg s) (ht : cfg.delta = true → Tiles 0 s.log s.collected) (k : Cont) (r : Res)
    (hk : r = .ok → ∀ t ∈ k.toks, Delivered cfg s t) : Core cfg (s.after k r) ∧ Work cfg (s.after k r) := by
  cases k with
  | tick => exact ⟨⟨h.atCall, h.collected, h.cumul, h.settling, h.returned⟩, ht⟩
  | flush t =>
    refine ⟨⟨h.atCall, h.collected, h.cumul, h.settling, fun u hu => ?_⟩, ht⟩
    rcases List.mem_append.1 hu with hu | hu
    · exact h.returned u hu
    · have := List.mem_singleton.1 hu
      simp only [Prod.mk.injEq, Ret.result.injEq] at this
      rw [this.1]
      exact hk this.2.symm t List.mem_cons_self
  | shut t => exact ⟨⟨h.atCall, h.collected, h.cumul, h.settling, h.returned⟩, ht, fun hr => hk hr t List.mem_cons_self⟩

theorem drop_core {cfg : Cfg} {s : State} (h : Core cfg s) : Core cfg s.drop := by
  refine ⟨h.atCall, h.collected, h.cumul, h.settling, fun u hu => ?_⟩
  rcases List.mem_append.1 hu with hu | hu
  · exact h.returned u hu
  · obtain ⟨m, _, hm⟩ := List.mem_map.1 hu
    cases hm

theorem call_data {cfg : Cfg} {s : State} (hc : CallsOk s) (h : Core cfg s) (hw : Work cfg s) (b : Bool) :
    Core cfg (s.call cfg b) ∧ Work cfg (s.call cfg b) := by
  have hlt : ∀ t, t ∈ s.calls → t < s.nextTok := fun t ht => List.mem_range.1 (hc.mem_iff.1 ht)
  have key : ∀ s' : State, s'.recorded = s.recorded → s'.collected = s.collected → s'.log = s.log → s'.settling = s.settling → s'.worker = s.worker →
      s'.atCall = (fun u => if u = s.nextTok then s.recorded else s.atCall u) →
      (∀ t, (t, Ret.result .ok) ∈ s'.returned → (t, Ret.result .ok) ∈ s.returned) → Core cfg s' ∧ Work cfg s' := by
    intro s' e1 e2 e3 e4 e5 e6 e7
    have hsame : ∀ t, t ∈ s.calls → s'.atCall t = s.atCall t := by
      intro t ht
      have := hlt t ht
      rw [e6]
      exact if_neg (by omega)
    have hmono : ∀ t, t ∈ s.calls → Delivered cfg s t → Delivered cfg s' t := fun t ht hd => hd.mono (hsame t ht) ⟨[], by rw [e3, List.append_nil]⟩
    constructor
    · refine ⟨fun t => ?_, by rw [e1, e2]; exact h.collected, by rw [e3]; exact h.cumul, fun t ht => ?_, fun t ht => ?_⟩
      · rw [e1, e6]
        simp only
        split
        · exact Nat.le_refl _
        · exact h.atCall t
      · rw [e4] at ht
        refine hmono t ?_ (h.settling t ht)
        simp only [State.calls, List.mem_append]
        exact .inl (.inr (List.mem_map.2 ⟨_, ht, rfl⟩))
      · refine hmono t ?_ (h.returned t (e7 t ht))
        simp only [State.calls, List.mem_append]
        exact .inr (List.mem_map.2 ⟨_, e7 t ht, rfl⟩)
    · have hserve : ∀ t ∈ s.worker.serving, t ∈ s.calls := by
        intro t ht
        simp only [State.calls, List.mem_append]
        exact .inl (.inl (.inr ht))
      unfold Work at hw ⊢
      rw [e5]
      rw [e2, e3]
      cases hwk : s.worker with
      | exporting lo hi k =>
        rw [hwk] at hw hserve
        exact ⟨hw.1, hw.2.1, fun t ht => by rw [hsame t (hserve t ht)]; exact hw.2.2 t ht⟩
      | stopping t r =>
        rw [hwk] at hw hserve
        exact ⟨hw.1, fun hr => hmono t (hserve t List.mem_cons_self) (hw.2 hr)⟩
      | unspawned => rw [hwk] at hw; exact hw
      | idle => rw [hwk] at hw; exact hw
      | collecting k => rw [hwk] at hw; exact hw
      | ending => rw [hwk] at hw; exact hw
      | done => rw [hwk] at hw; exact hw
  have snoc : ∀ (t u : Nat) (r : Ret), r ≠ .result .ok → (t, Ret.result .ok) ∈ s.returned ++ [(u, r)] → (t, Ret.result .ok) ∈ s.returned := by
    intro t u r hr hm
    rcases List.mem_append.1 hm with hm | hm
    · exact hm
    · have := List.mem_singleton.1 hm
      simp only [Prod.mk.injEq] at this
      exact absurd this.2.symm hr
  unfold State.call
  simp only
  split
  · exact key _ rfl rfl rfl rfl rfl rfl (fun t => snoc t _ _ (by simp))
  · split
    · exact key _ rfl rfl rfl rfl rfl rfl (fun t => snoc t _ _ (by simp))
    · split
      · exact key _ rfl rfl rfl rfl rfl rfl (fun t h => h)
      · exact key _ rfl rfl rfl rfl rfl rfl (fun t => snoc t _ _ (by simp))

theorem data_step {cfg : Cfg} {s s' : State} {a : Action} (hc : CallsOk s) (h : Core cfg s) (hw : Work cfg s) (hs : step cfg s a = some s') :
    Core cfg s' ∧ Work cfg s' := by
  cases a with
  | record =>
    simp only [step, Option.some.injEq] at hs; subst hs
    refine ⟨⟨fun t => Nat.le_succ_of_le (h.atCall t), Nat.le_succ_of_le h.collected, h.cumul, h.settling, h.returned⟩, ?_⟩
    unfold Work at hw ⊢
    exact hw
  | register =>
    simp only [step] at hs
    split at hs
    · rename_i hwk
      injection hs with hs; subst hs
      unfold Work at hw
      rw [hwk] at hw
      exact ⟨⟨h.atCall, h.collected, h.cumul, h.settling, h.returned⟩, hw⟩
    · injection hs with hs; subst hs; exact ⟨h, hw⟩
  | dropPipeline =>
    simp only [step, Option.some.injEq] at hs; subst hs
    exact ⟨⟨h.atCall, h.collected, h.cumul, h.settling, h.returned⟩, hw⟩
  | forceFlush => simp only [step, Option.some.injEq] at hs; subst hs; exact call_data hc h hw _
  | shutdown => simp only [step, Option.some.injEq] at hs; subst hs; exact call_data hc h hw _
  | settle =>
    simp only [step] at hs
    split at hs
    · rename_i t r l hl
      injection hs with hs; subst hs
      refine ⟨⟨h.atCall, h.collected, h.cumul, fun u hu => h.settling u (by rw [hl]; exact List.mem_cons_of_mem _ hu), fun u hu => ?_⟩, hw⟩
      rcases List.mem_append.1 hu with hu | hu
      · exact h.returned u hu
      · have := List.mem_singleton.1 hu
        simp only [Prod.mk.injEq, Ret.result.injEq] at this
        exact h.settling u (by rw [hl, this.1, this.2]; exact List.mem_cons_self)
    · cases hs
  | recv =>
    simp only [step] at hs
    split at hs
    · rename_i t q hwk hq
      injection hs with hs; subst hs
      unfold Work at hw
      rw [hwk] at hw
      exact ⟨⟨h.atCall, h.collected, h.cumul, h.settling, h.returned⟩, hw⟩
    · rename_i t q hwk hq
      injection hs with hs; subst hs
      unfold Work at hw
      rw [hwk] at hw
      exact ⟨⟨h.atCall, h.collected, h.cumul, h.settling, h.returned⟩, hw⟩
    · cases hs
  | tick =>
    simp only [step] at hs
    split at hs
    · rename_i hwk
      injection hs with hs; subst hs
      unfold Work at hw
      rw [hwk] at hw
      exact ⟨⟨h.atCall, h.collected, h.cumul, h.settling, h.returned⟩, hw⟩
    · cases hs
  | collect =>
    simp only [step] at hs
    split at hs
    · rename_i k hwk
      injection hs with hs; subst hs
      unfold Work at hw
      rw [hwk] at hw
      unfold State.collect
      split
      · exact after_data h hw k _ (fun hr => by cases hr)
      · split
        · rename_i hl
          refine after_data h hw k _ (fun _ t _ => ?_)
          unfold Delivered
          unfold State.lower at hl
          split
          · rename_i hd
            rw [if_pos hd] at hl
            intro i hi
            have := h.atCall t
            exact (hw hd).covered i (Nat.zero_le _) (by omega)
          · rename_i hd
            rw [if_neg hd] at hl
            have := h.atCall t
            exact .inl (by omega)
        · rename_i hl
          refine ⟨⟨h.atCall, Nat.le_refl _, h.cumul, h.settling, h.returned⟩, ?_, ?_, ?_⟩
          · intro hd
            have := h.collected
            simp only [State.lower, if_pos hd] at hl ⊢
            exact ⟨by omega, trivial, hw hd⟩
          · intro hd
            simp [State.lower, hd]
          · exact fun t _ => h.atCall t
    · cases hs
  | finish r =>
    simp only [step] at hs
    split at hs
    · rename_i lo hi k hwk
      injection hs with hs; subst hs
      unfold Work at hw
      rw [hwk] at hw
      obtain ⟨w1, w2, w3⟩ := hw
      have hmono : ∀ t, Delivered cfg s t → Delivered cfg ({ s with log := s.log ++ [.exported lo hi r] } : State) t :=
        fun t hd => hd.mono rfl ⟨_, rfl⟩
      refine after_data (s := { s with log := s.log ++ [.exported lo hi r] }) ⟨h.atCall, h.collected, ?_, fun t ht => hmono t (h.settling t ht), fun t ht => hmono t (h.returned t ht)⟩ ?_ k r ?_
      · intro hd a b r' hm
        rcases List.mem_append.1 hm with hm | hm
        · exact h.cumul hd a b r' hm
        · have := List.mem_singleton.1 hm
          simp only [Ev.exported.injEq] at this
          rw [this.1]; exact w2 hd
      · intro hd
        obtain ⟨w4, w5, w6⟩ := w1 hd
        rw [← w5]
        exact w6.snoc_exported w4 r
      · intro hr t ht
        subst hr
        unfold Delivered
        split
        · rename_i hd
          obtain ⟨w4, w5, w6⟩ := w1 hd
          intro i hi'
          have := w3 t ht
          exact (w6.snoc_exported w4 .ok).covered i (Nat.zero_le _) (by simp only at hi'; omega)
        · rename_i hd
          have hlo := w2 (by simpa using hd)
          subst hlo
          exact .inr ⟨hi, w3 t ht, List.mem_append_right _ List.mem_cons_self⟩
    · cases hs
  | stop ok =>
    simp only [step] at hs
    split at hs
    · rename_i t r hwk
      injection hs with hs; subst hs
      unfold Work at hw
      rw [hwk] at hw
      have hmono : ∀ u, Delivered cfg s u → Delivered cfg ({ s with worker := .ending, log := s.log ++ [.shutdown ok], settling := s.settling ++ [(t, r)] } : State) u :=
        fun t hd => hd.mono rfl ⟨_, rfl⟩
      refine ⟨⟨h.atCall, h.collected, ?_, fun u hu => ?_, fun u hu => hmono u (h.returned u hu)⟩, fun hd => (hw.1 hd).snoc_shutdown ok⟩
      · intro hd a b r' hm
        rcases List.mem_append.1 hm with hm | hm
        · exact h.cumul hd a b r' hm
        · cases List.mem_singleton.1 hm
      · rcases List.mem_append.1 hu with hu | hu
        · exact hmono u (h.settling u hu)
        · have := List.mem_singleton.1 hu
          simp only [Prod.mk.injEq] at this
          rw [this.1]
          exact hmono t (hw.2 this.2.symm)
    · cases hs
  | close =>
    simp only [step] at hs
    split at hs
    · rename_i hwk
      injection hs with hs; subst hs
      unfold Work at hw
      rw [hwk] at hw
      exact ⟨drop_core h, fun hd => ⟨_, Nat.le_refl _, hw hd⟩⟩
    · cases hs
  | die =>
    have hcore : Core cfg ({ s with returned := s.returned ++ s.worker.serving.map (fun t => (t, Ret.canceled)) } : State) := by
      refine ⟨h.atCall, h.collected, h.cumul, h.settling, fun u hu => ?_⟩
      rcases List.mem_append.1 hu with hu | hu
      · exact h.returned u hu
      · obtain ⟨m, _, hm⟩ := List.mem_map.1 hu
        cases hm
    have htiles : cfg.delta = true → ∃ b ≤ s.collected, Tiles 0 s.log b := by
      intro hd
      unfold Work at hw
      cases hwk : s.worker with
      | exporting lo hi k =>
        rw [hwk] at hw
        obtain ⟨w4, w5, w6⟩ := hw.1 hd
        exact ⟨lo, by omega, w6⟩
      | stopping t r => rw [hwk] at hw; exact ⟨_, Nat.le_refl _, hw.1 hd⟩
      | unspawned => rw [hwk] at hw; exact ⟨_, Nat.le_refl _, hw hd⟩
      | idle => rw [hwk] at hw; exact ⟨_, Nat.le_refl _, hw hd⟩
      | collecting k => rw [hwk] at hw; exact ⟨_, Nat.le_refl _, hw hd⟩
      | ending => rw [hwk] at hw; exact ⟨_, Nat.le_refl _, hw hd⟩
      | done => rw [hwk] at hw; exact hw hd
    simp only [step] at hs
    split at hs
    · cases hs
    · cases hs
    · injection hs with hs; subst hs
      exact ⟨drop_core hcore, htiles⟩

theorem data_reachable {cfg : Cfg} {s : State} (h : Reachable cfg s) : Core cfg s ∧ Work cfg s := by
  induction h with
  | init => exact ⟨⟨fun _ => Nat.le_refl _, Nat.le_refl _, by simp [State.init], by simp [State.init], by simp [State.init]⟩, fun _ => .nil⟩
  | step hr hs ih => exact data_step (callsOk_reachable hr) ih.1 ih.2 hs

/-! ### The end -/

/-- The exporter has not been shut down. -/
def Running (l : List Ev) : Prop := ∀ ok, Ev.shutdown ok ∉ l

/-- The exporter was shut down once, last. -/
def Closed (l : List Ev) : Prop := ∃ l' ok, l = l' ++ [.shutdown ok] ∧ Running l'

/-- The shutdown calls the task knows of. -/
def Worker.shutting : Worker → List Nat
  | .collecting (.shut t) => [t]
  | .exporting _ _ (.shut t) => [t]
  | .stopping t _ => [t]
  | _ => []

structure EndOk (s : State) : Prop where
  live : s.worker ≠ .ending → s.worker ≠ .done → Running s.log ∧ s.settling = [] ∧ s.isShutdown = false
  ended : Running s.log ∨ Closed s.log
  closed : s.worker = .ending ∨ s.settling ≠ [] ∨ s.isShutdown = true → Closed s.log
  queued : ∀ t, Msg.shutdown t ∈ s.queue → s.isShut t = true
  shutting : ∀ t ∈ s.worker.shutting, s.isShut t = true
  settling : ∀ p ∈ s.settling, s.isShut p.1 = true
  flag : s.isShutdown = true → ∃ t r, (t, Ret.result r) ∈ s.returned ∧ s.isShut t = true
  already : ∀ t, (t, Ret.already) ∈ s.returned → s.isShutdown = true

theorem shutting_serving (w : Worker) : ∀ t ∈ w.shutting, t ∈ w.serving := by
  intro t ht
  cases w with
  | collecting k => cases k <;> first | (cases ht; done) | exact ht
  | exporting lo hi k => cases k <;> first | (cases ht; done) | exact ht
  | stopping u r => exact ht
  | _ => cases ht

theorem live_end {s : State} (hw : s.worker ≠ .ending) (hl : Running s.log) (hse : s.settling = []) (hf : s.isShutdown = false)
    (hq : ∀ t, Msg.shutdown t ∈ s.queue → s.isShut t = true) (hsh : ∀ t ∈ s.worker.shutting, s.isShut t = true)
    (ha : ∀ t, (t, Ret.already) ∉ s.returned) : EndOk s where
  live := fun _ _ => ⟨hl, hse, hf⟩
  ended := .inl hl
  closed := by
    intro h
    rcases h with h | h | h
    · exact absurd h hw
    · exact absurd hse h
    · rw [hf] at h; cases h
  queued := hq
  shutting := hsh
  settling := by rw [hse]; intro p hp; cases hp
  flag := by intro h; rw [hf] at h; cases h
  already := fun t ht => absurd ht (ha t)

theorem after_end {s : State} (hl : Running s.log) (hse : s.settling = []) (hf : s.isShutdown = false) (hq : ∀ t, Msg.shutdown t ∈ s.queue → s.isShut t = true)
    (ha : ∀ t, (t, Ret.already) ∈ s.returned → s.isShutdown = true) (k : Cont) (r : Res) (hk : ∀ t, k = .shut t → s.isShut t = true) : EndOk (s.after k r) := by
  have hno : ∀ t, (t, Ret.already) ∉ s.returned := fun t ht => by have := ha t ht; rw [hf] at this; cases this
  cases k with
  | tick => exact live_end (by simp [State.after]) hl hse hf hq (fun t ht => by cases ht) hno
  | flush t =>
    refine live_end (by simp [State.after]) hl hse hf hq (fun t ht => by cases ht) (fun u hu => ?_)
    rcases List.mem_append.1 hu with hu | hu
    · exact hno u hu
    · cases List.mem_singleton.1 hu
  | shut t => exact live_end (by simp [State.after]) hl hse hf hq (fun u hu => by rw [List.mem_singleton.1 hu]; exact hk t rfl) hno

theorem call_end {cfg : Cfg} {s : State} (hc : CallsOk s) (h : EndOk s) (b : Bool) : EndOk (s.call cfg b) := by
  have hlt : ∀ t, t ∈ s.calls → t < s.nextTok := fun t ht => List.mem_range.1 (hc.mem_iff.1 ht)
  have key : ∀ s' : State, s'.log = s.log → s'.settling = s.settling → s'.worker = s.worker → s'.isShutdown = s.isShutdown →
      s'.isShut = (fun u => if u = s.nextTok then b else s.isShut u) → (∀ e ∈ s.returned, e ∈ s'.returned) →
      (∀ t, Msg.shutdown t ∈ s'.queue → Msg.shutdown t ∈ s.queue ∨ s'.isShut t = true) →
      (∀ t, (t, Ret.already) ∈ s'.returned → (t, Ret.already) ∈ s.returned ∨ s.isShutdown = true) → EndOk s' := by
    intro s' e1 e2 e3 e4 e5 e6 e7 e8
    have hsame : ∀ t, t ∈ s.calls → s.isShut t = true → s'.isShut t = true := by
      intro t ht h
      have := hlt t ht
      rw [e5]
      simp only
      rw [if_neg (by omega)]; exact h
    refine ⟨by rw [e1, e2, e3, e4]; exact h.live, by rw [e1]; exact h.ended, by rw [e1, e2, e3, e4]; exact h.closed, fun t ht => ?_, fun t ht => ?_, fun p hp => ?_,
      fun hf => ?_, fun t ht => ?_⟩
    · rcases e7 t ht with h1 | h1
      · refine hsame t ?_ (h.queued t h1)
        simp only [State.calls, List.mem_append]
        exact .inl (.inl (.inl (List.mem_map.2 ⟨_, h1, rfl⟩)))
      · exact h1
    · rw [e3] at ht
      refine hsame t ?_ (h.shutting t ht)
      simp only [State.calls, List.mem_append]
      exact .inl (.inl (.inr (shutting_serving _ t ht)))
    · rw [e2] at hp
      refine hsame p.1 ?_ (h.settling p hp)
      simp only [State.calls, List.mem_append]
      exact .inl (.inr (List.mem_map.2 ⟨_, hp, rfl⟩))
    · rw [e4] at hf
      obtain ⟨t, r, h1, h2⟩ := h.flag hf
      refine ⟨t, r, e6 _ h1, hsame t ?_ h2⟩
      simp only [State.calls, List.mem_append]
      exact .inr (List.mem_map.2 ⟨_, h1, rfl⟩)
    · rw [e4]
      rcases e8 t ht with h1 | h1
      · exact h.already t h1
      · exact h1
  have snoc : ∀ (t u : Nat) (r : Ret), r ≠ .already → (t, Ret.already) ∈ s.returned ++ [(u, r)] → (t, Ret.already) ∈ s.returned ∨ s.isShutdown = true := by
    intro t u r hr hm
    rcases List.mem_append.1 hm with hm | hm
    · exact .inl hm
    · have := List.mem_singleton.1 hm
      simp only [Prod.mk.injEq] at this
      exact absurd this.2.symm hr
  unfold State.call
  simp only
  split
  · rename_i hf
    exact key _ rfl rfl rfl rfl rfl (fun e he => List.mem_append_left _ he) (fun t ht => .inl ht) (fun t _ => .inr hf)
  · split
    · exact key _ rfl rfl rfl rfl rfl (fun e he => List.mem_append_left _ he) (fun t ht => .inl ht) (fun t => snoc t _ _ (by simp))
    · split
      · refine key _ rfl rfl rfl rfl rfl (fun e he => he) (fun t ht => ?_) (fun t h => .inl h)
        rcases List.mem_append.1 ht with ht | ht
        · exact .inl ht
        · right
          cases b with
          | true =>
            have := List.mem_singleton.1 ht
            simp only [if_true, Msg.shutdown.injEq] at this
            simp [this]
          | false => cases List.mem_singleton.1 ht
      · exact key _ rfl rfl rfl rfl rfl (fun e he => List.mem_append_left _ he) (fun t ht => .inl ht) (fun t => snoc t _ _ (by simp))

theorem drop_end {s : State} (h : EndOk s) : EndOk s.drop := by
  refine ⟨fun _ h => absurd rfl h, h.ended, fun hh => ?_, fun t ht => (by cases ht), fun t ht => (by cases ht), h.settling, fun hf => ?_, fun t ht => ?_⟩
  · rcases hh with hh | hh
    · cases hh
    · exact h.closed (.inr hh)
  · obtain ⟨t, r, h1, h2⟩ := h.flag hf
    exact ⟨t, r, List.mem_append_left _ h1, h2⟩
  · rcases List.mem_append.1 ht with ht | ht
    · exact h.already t ht
    · obtain ⟨m, _, hm⟩ := List.mem_map.1 ht
      cases hm

theorem end_step {cfg : Cfg} {s s' : State} {a : Action} (hc : CallsOk s) (h : EndOk s) (hs : step cfg s a = some s') : EndOk s' := by
  cases a with
  | record => simp only [step, Option.some.injEq] at hs; subst hs; exact ⟨h.live, h.ended, h.closed, h.queued, h.shutting, h.settling, h.flag, h.already⟩
  | register =>
    simp only [step] at hs
    split at hs
    · rename_i hwk
      injection hs with hs; subst hs
      obtain ⟨h1, h2, h3⟩ := h.live (by rw [hwk]; simp) (by rw [hwk]; simp)
      exact ⟨fun _ _ => ⟨h1, h2, h3⟩, h.ended, fun hh => h.closed (hh.imp (by simp) id), h.queued, fun t ht => (by cases ht), h.settling, h.flag, h.already⟩
    · injection hs with hs; subst hs; exact h
  | dropPipeline => simp only [step, Option.some.injEq] at hs; subst hs; exact ⟨h.live, h.ended, h.closed, h.queued, h.shutting, h.settling, h.flag, h.already⟩
  | forceFlush => simp only [step, Option.some.injEq] at hs; subst hs; exact call_end hc h _
  | shutdown => simp only [step, Option.some.injEq] at hs; subst hs; exact call_end hc h _
  | settle =>
    simp only [step] at hs
    split at hs
    · rename_i t r l hl
      injection hs with hs; subst hs
      have hcl := h.closed (.inr (.inl (by rw [hl]; simp)))
      refine ⟨fun h1 h2 => ?_, h.ended, fun _ => hcl, h.queued, h.shutting, fun p hp => h.settling p (by rw [hl]; exact List.mem_cons_of_mem _ hp), fun _ => ?_, fun _ _ => rfl⟩
      · have := (h.live h1 h2).2.1
        rw [hl] at this; cases this
      · exact ⟨t, r, List.mem_append_right _ List.mem_cons_self, h.settling (t, r) (by rw [hl]; exact List.mem_cons_self)⟩
    · cases hs
  | recv =>
    simp only [step] at hs
    split at hs
    · rename_i t q hwk hq
      injection hs with hs; subst hs
      obtain ⟨h1, h2, h3⟩ := h.live (by rw [hwk]; simp) (by rw [hwk]; simp)
      exact ⟨fun _ _ => ⟨h1, h2, h3⟩, h.ended, fun hh => h.closed (hh.imp (by simp) id), fun t ht => h.queued t (by rw [hq]; exact List.mem_cons_of_mem _ ht),
        fun t ht => (by cases ht), h.settling, h.flag, h.already⟩
    · rename_i t q hwk hq
      injection hs with hs; subst hs
      obtain ⟨h1, h2, h3⟩ := h.live (by rw [hwk]; simp) (by rw [hwk]; simp)
      exact ⟨fun _ _ => ⟨h1, h2, h3⟩, h.ended, fun hh => h.closed (hh.imp (by simp) id), fun t ht => h.queued t (by rw [hq]; exact List.mem_cons_of_mem _ ht),
        fun u hu => by rw [List.mem_singleton.1 hu]; exact h.queued t (by rw [hq]; exact List.mem_cons_self), h.settling, h.flag, h.already⟩
    · cases hs
  | tick =>
    simp only [step] at hs
    split at hs
    · rename_i hwk
      injection hs with hs; subst hs
      obtain ⟨h1, h2, h3⟩ := h.live (by rw [hwk]; simp) (by rw [hwk]; simp)
      exact ⟨fun _ _ => ⟨h1, h2, h3⟩, h.ended, fun hh => h.closed (hh.imp (by simp) id), h.queued, fun t ht => (by cases ht), h.settling, h.flag, h.already⟩
    · cases hs
  | collect =>
    simp only [step] at hs
    split at hs
    · rename_i k hwk
      injection hs with hs; subst hs
      obtain ⟨h1, h2, h3⟩ := h.live (by rw [hwk]; simp) (by rw [hwk]; simp)
      have hsh := h.shutting
      rw [hwk] at hsh
      have hk : ∀ t, k = .shut t → s.isShut t = true := fun t ht => hsh t (by rw [ht]; exact List.mem_cons_self)
      unfold State.collect
      split
      · exact after_end h1 h2 h3 h.queued h.already k _ hk
      · split
        · exact after_end h1 h2 h3 h.queued h.already k _ hk
        · refine ⟨fun _ _ => ⟨h1, h2, h3⟩, h.ended, fun hh => h.closed (hh.imp (by simp) id), h.queued, fun t ht => ?_, h.settling, h.flag, h.already⟩
          cases k with
          | shut u => exact hsh t ht
          | _ => cases ht
    · cases hs
  | finish r =>
    simp only [step] at hs
    split at hs
    · rename_i lo hi k hwk
      injection hs with hs; subst hs
      obtain ⟨h1, h2, h3⟩ := h.live (by rw [hwk]; simp) (by rw [hwk]; simp)
      have hsh := h.shutting
      rw [hwk] at hsh
      refine after_end (s := { s with log := s.log ++ [.exported lo hi r] }) ?_ h2 h3 h.queued h.already k _
        (fun t ht => hsh t (by rw [ht]; exact List.mem_cons_self))
      intro ok hm
      rcases List.mem_append.1 hm with hm | hm
      · exact h1 ok hm
      · cases List.mem_singleton.1 hm
    · cases hs
  | stop ok =>
    simp only [step] at hs
    split at hs
    · rename_i t r hwk
      injection hs with hs; subst hs
      obtain ⟨h1, h2, h3⟩ := h.live (by rw [hwk]; simp) (by rw [hwk]; simp)
      have hcl : Closed (s.log ++ [.shutdown ok]) := ⟨_, _, rfl, h1⟩
      refine ⟨fun h => absurd rfl h, .inr hcl, fun _ => hcl, h.queued, fun u hu => (by cases hu), fun p hp => ?_, h.flag, h.already⟩
      rcases List.mem_append.1 hp with hp | hp
      · exact h.settling p hp
      · rw [List.mem_singleton.1 hp]
        exact h.shutting t (by rw [hwk]; exact List.mem_cons_self)
    · cases hs
  | close =>
    simp only [step] at hs
    split at hs
    · injection hs with hs; subst hs; exact drop_end h
    · cases hs
  | die =>
    simp only [step] at hs
    split at hs
    · cases hs
    · cases hs
    · injection hs with hs; subst hs
      refine drop_end ⟨h.live, h.ended, h.closed, h.queued, h.shutting, h.settling, fun hf => ?_, fun t ht => ?_⟩
      · obtain ⟨t, r, h1, h2⟩ := h.flag hf
        exact ⟨t, r, List.mem_append_left _ h1, h2⟩
      · rcases List.mem_append.1 ht with ht | ht
        · exact h.already t ht
        · obtain ⟨m, _, hm⟩ := List.mem_map.1 ht
          cases hm

theorem end_reachable {cfg : Cfg} {s : State} (h : Reachable cfg s) : EndOk s := by
  induction h with
  | init =>
    have hr : Running State.init.log := fun ok h => by cases h
    exact ⟨fun _ _ => ⟨hr, rfl, rfl⟩, .inl hr, fun h => by rcases h with h | h | h; (cases h); (exact absurd rfl h); (cases h), fun t ht => (by cases ht), fun t ht => (by cases ht),
      fun p hp => (by cases hp), fun h => (by cases h), fun t ht => (by cases ht)⟩
  | step hr hs ih => exact end_step (callsOk_reachable hr) ih hs

end Otel.AsyncReader
