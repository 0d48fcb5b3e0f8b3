import Verif.Metrics.PeriodicProps
/-! # C48: what the answers of the periodic reader mean -/

namespace Otel.Metrics.Periodic

/-! ## Specification -/

/-- Measurement `i` was handed to the exporter. -/
def Attempted (log : List Ev) (i : Nat) : Prop := ∃ lo hi ok, Ev.export lo hi ok ∈ log ∧ lo ≤ i ∧ i < hi

/-- Measurement `i` was exported successfully. -/
def Delivered (log : List Ev) (i : Nat) : Prop := ∃ lo hi, Ev.export lo hi true ∈ log ∧ lo ≤ i ∧ i < hi

/-! ## Tokens are fresh -/

/-- The token of the call the worker works for. -/
def Cont.tok? : Cont → Option Nat
  | .timer => none
  | .flush tok => some tok
  | .shut tok => some tok

/-- Why the worker is busy. -/
def Worker.cont? : Worker → Option Cont
  | .idle => none
  | .collecting k => some k
  | .selfWait _ k => some k
  | .exporting _ _ k => some k
  | .closing tok _ => some (.shut tok)
  | .reply k _ => some k
  | .exiting => none
  | .done => none

/-- The call the worker works for. -/
def Worker.serves (w : Worker) (tok : Nat) : Prop := ∃ k, w.cont? = some k ∧ k.tok? = some tok

def Pc.tok? : Pc → Option Nat
  | .idle => none
  | .flush0 tok => some tok
  | .flushWait tok => some tok
  | .shut0 tok => some tok
  | .shutWait tok => some tok

structure Fresh (s : State) : Prop where
  pcs : ∀ t tok, (s.threads t).tok? = some tok → tok < s.nextTok
  msgs : ∀ m ∈ s.msgs, m.tok < s.nextTok
  worker : ∀ tok, s.worker.serves tok → tok < s.nextTok
  self : ∀ tok k, s.worker = .selfWait tok k → tok < s.nextTok
  replies : ∀ p ∈ s.replies, p.1 < s.nextTok
  lost : ∀ tok ∈ s.lost, tok < s.nextTok
  returned : ∀ p ∈ s.returned, p.1 < s.nextTok

theorem set_eq {Y : Type} (f : Nat → Y) (i : Nat) (y : Y) : set f i y i = y := by simp [set]
theorem set_ne {Y : Type} (f : Nat → Y) {i j : Nat} (y : Y) (h : j ≠ i) : set f i y j = f j := by simp [set, h]

theorem serves_none {w : Worker} (h : w.cont? = none) (tok : Nat) : ¬ w.serves tok := by
  rintro ⟨k, hk, _⟩; rw [h] at hk; cases hk

theorem afterExport_serves {k : Cont} {ok : Bool} {tok : Nat} (h : (afterExport k ok).serves tok) : k.tok? = some tok := by
  obtain ⟨k', hk, ht⟩ := h
  cases k <;> simp only [afterExport, Worker.cont?, Option.some.injEq, reduceCtorEq] at hk
  all_goals subst hk; exact ht

theorem fresh_ret {s : State} (hf : Fresh s) {t tok : Nat} (h : (s.threads t).tok? = some tok) (r : Ret) : Fresh (s.ret t tok r) where
  pcs := by
    intro t' tok' h'
    by_cases he : t' = t
    · subst he; simp [State.ret, State.goto, set_eq, Pc.tok?] at h'
    · exact hf.pcs t' tok' (by simpa [State.ret, State.goto, set_ne _ _ he] using h')
  msgs := hf.msgs
  worker := hf.worker
  self := hf.self
  replies := hf.replies
  lost := hf.lost
  returned := by
    intro p hp
    rcases List.mem_append.1 hp with hp | hp
    · exact hf.returned p hp
    · simp only [List.mem_singleton] at hp; subst hp; exact hf.pcs t tok h

theorem fresh_send {s : State} (hf : Fresh s) {t : Nat} {m : Msg} {pc : Pc} (h : (s.threads t).tok? = some m.tok)
    (hp : pc.tok? = some m.tok) : Fresh { s.goto t pc with msgs := s.msgs ++ [m] } where
  pcs := by
    intro t' tok' h'
    by_cases he : t' = t
    · subst he; simp only [State.goto, set_eq, hp, Option.some.injEq] at h'; subst h'; exact hf.pcs _ _ h
    · exact hf.pcs t' tok' (by simpa [State.goto, set_ne _ _ he] using h')
  msgs := by
    intro p hp
    rcases List.mem_append.1 hp with hp | hp
    · exact hf.msgs p hp
    · simp only [List.mem_singleton] at hp; subst hp; exact hf.pcs t _ h
  worker := hf.worker
  self := hf.self
  replies := hf.replies
  lost := hf.lost
  returned := hf.returned

theorem fresh_thread {s s' : State} (hf : Fresh s) {t : Nat} (hs : threadStep s t = some s') : Fresh s' := by
  simp only [threadStep] at hs
  split at hs
  · cases hs
  · rename_i tok hpc
    split at hs
    · injection hs with hs; subst hs; exact fresh_send hf (m := .flush tok) (by rw [hpc]; rfl) rfl
    · injection hs with hs; subst hs; exact fresh_ret hf (by rw [hpc]; rfl) _
  · rename_i tok hpc
    rw [Option.map_eq_some_iff] at hs; obtain ⟨r, _, rfl⟩ := hs; exact fresh_ret hf (by rw [hpc]; rfl) _
  · rename_i tok hpc
    split at hs
    · injection hs with hs; subst hs; exact fresh_send hf (m := .shutdown tok) (by rw [hpc]; rfl) rfl
    · injection hs with hs; subst hs; exact fresh_ret hf (by rw [hpc]; rfl) _
  · rename_i tok hpc
    rw [Option.map_eq_some_iff] at hs; obtain ⟨r, _, rfl⟩ := hs; exact fresh_ret hf (by rw [hpc]; rfl) _

theorem fresh_call {s s' : State} (hf : Fresh s) {t : Nat} {b : Bool} {pc : Nat → Pc} (hpc : ∀ n, (pc n).tok? = some n)
    (hs : callStep s t b pc = some s') : Fresh s' := by
  simp only [callStep] at hs
  split at hs
  · injection hs with hs; subst hs
    exact {
      pcs := by
        intro t' tok' h'
        by_cases he : t' = t
        · subst he; simp only [State.goto, set_eq, hpc, Option.some.injEq] at h'; subst h'; exact Nat.lt_succ_self _
        · exact Nat.lt_succ_of_lt (hf.pcs t' tok' (by simpa [State.goto, set_ne _ _ he] using h'))
      msgs := fun m hm => Nat.lt_succ_of_lt (hf.msgs m hm)
      worker := fun m hm => Nat.lt_succ_of_lt (hf.worker m hm)
      self := fun m k hm => Nat.lt_succ_of_lt (hf.self m k hm)
      replies := fun m hm => Nat.lt_succ_of_lt (hf.replies m hm)
      lost := fun m hm => Nat.lt_succ_of_lt (hf.lost m hm)
      returned := fun m hm => Nat.lt_succ_of_lt (hf.returned m hm) }
  · cases hs

/-- Freshness when only the worker moves. -/
theorem fresh_worker {s : State} (hf : Fresh s) {w : Worker} {ms : List Msg} {log : List Ev} {c : Nat}
    (hw : ∀ tok, w.serves tok → tok < s.nextTok) (hself : ∀ tok k, w ≠ .selfWait tok k) (hms : ∀ m ∈ ms, m.tok < s.nextTok) :
    Fresh { s with worker := w, msgs := ms, log := log, collected := c } where
  pcs := hf.pcs
  msgs := hms
  worker := hw
  self := fun tok k h => absurd h (hself tok k)
  replies := hf.replies
  lost := hf.lost
  returned := hf.returned

theorem afterExport_ne_self (k : Cont) (ok : Bool) (tok : Nat) (k' : Cont) : afterExport k ok ≠ .selfWait tok k' := by
  cases k <;> simp [afterExport]

theorem fresh_work {temp : Temp} {s s' : State} (hf : Fresh s) {ok : Bool} (hs : workStep temp s ok = some s') : Fresh s' := by
  have hafter : ∀ (k : Cont) (b : Bool), s.worker.cont? = some k → ∀ tok, (afterExport k b).serves tok → tok < s.nextTok :=
    fun k b hk tok ht => hf.worker tok ⟨k, hk, afterExport_serves ht⟩
  have hsame : ∀ (k : Cont) (w : Worker), s.worker.cont? = some k → w.cont? = some k → ∀ tok, w.serves tok → tok < s.nextTok := by
    intro k w hk hw tok ⟨k', hk', ht⟩
    rw [hw] at hk'; injection hk' with hk'; subst hk'
    exact hf.worker tok ⟨_, hk, ht⟩
  simp only [workStep] at hs
  split at hs
  · cases hs
  · rename_i k hw
    have hk : s.worker.cont? = some k := by rw [hw]; rfl
    split at hs
    · split at hs
      · injection hs with hs; subst hs
        exact fresh_worker hf (hafter k _ hk) (afterExport_ne_self _ _) hf.msgs
      · injection hs with hs; subst hs
        exact fresh_worker hf (hsame k _ hk rfl) (by intros; simp) hf.msgs
    · injection hs with hs; subst hs
      exact fresh_worker hf (hafter k _ hk) (afterExport_ne_self _ _) hf.msgs
  · rename_i tok k hw
    have hk : s.worker.cont? = some k := by rw [hw]; rfl
    split at hs
    · injection hs with hs; subst hs
      exact fresh_worker hf (hsame k _ hk rfl) (by intros; simp) hf.msgs
    · cases hs
  · rename_i lo hi k hw
    have hk : s.worker.cont? = some k := by rw [hw]; rfl
    injection hs with hs; subst hs
    exact fresh_worker hf (hafter k _ hk) (afterExport_ne_self _ _) hf.msgs
  · rename_i tok r hw
    have hk : s.worker.cont? = some (.shut tok) := by rw [hw]; rfl
    injection hs with hs; subst hs
    exact fresh_worker hf (hsame _ _ hk rfl) (by intros; simp) hf.msgs
  · rename_i k r hw
    have hrep : ∀ tok, k.tok? = some tok → ∀ p ∈ s.replies ++ [(tok, r)], p.1 < s.nextTok := by
      intro tok hk p hp
      rcases List.mem_append.1 hp with hp | hp
      · exact hf.replies p hp
      · simp only [List.mem_singleton] at hp; subst hp
        exact hf.worker tok ⟨k, by rw [hw]; rfl, hk⟩
    split at hs
    · cases hs
    · injection hs with hs; subst hs
      exact { pcs := hf.pcs, msgs := hf.msgs, worker := fun tok h => absurd h (serves_none rfl tok), self := by simp,
              replies := hrep _ rfl, lost := hf.lost, returned := hf.returned }
    · injection hs with hs; subst hs
      exact { pcs := hf.pcs, msgs := hf.msgs, worker := fun tok h => absurd h (serves_none rfl tok), self := by simp,
              replies := hrep _ rfl, lost := hf.lost, returned := hf.returned }
  · injection hs with hs; subst hs
    exact { pcs := hf.pcs, msgs := by simp, worker := fun tok h => absurd h (serves_none rfl tok), self := by simp,
            replies := hf.replies
            lost := by
              intro tok h
              rcases List.mem_append.1 h with h | h
              · exact hf.lost tok h
              · obtain ⟨m, hm, rfl⟩ := List.mem_map.1 h; exact hf.msgs m hm
            returned := hf.returned }
  · cases hs

theorem fresh {temp : Temp} {s : State} (h : Reachable temp s) : Fresh s := by
  induction h with
  | init =>
    exact { pcs := by simp [State.init, Pc.tok?], msgs := by simp [State.init], worker := fun tok h => absurd h (serves_none rfl tok)
            self := by simp [State.init], replies := by simp [State.init], lost := by simp [State.init], returned := by simp [State.init] }
  | @step s s' a _ hs ih =>
    cases a with
    | record =>
      simp only [step, Option.some.injEq] at hs; subst hs
      exact ⟨ih.pcs, ih.msgs, ih.worker, ih.self, ih.replies, ih.lost, ih.returned⟩
    | flush t => exact fresh_call ih (fun _ => rfl) hs
    | shutdown t => exact fresh_call ih (fun _ => rfl) hs
    | thread t => exact fresh_thread ih hs
    | timeout t =>
      simp only [step, timeoutStep] at hs
      split at hs
      · rename_i tok hpc; injection hs with hs; subst hs; exact fresh_ret ih (by rw [hpc]; rfl) _
      · cases hs
    | take =>
      simp only [step, takeStep] at hs
      split at hs
      · rename_i tok ms hw hm
        injection hs with hs; subst hs
        refine fresh_worker ih ?_ (by intros; simp) (fun m h => ih.msgs m (by rw [hm]; exact List.mem_cons_of_mem _ h))
        rintro tok' ⟨k, hk, ht⟩
        simp only [Worker.cont?, Option.some.injEq] at hk; subst hk
        simp only [Cont.tok?, Option.some.injEq] at ht; subst ht
        exact ih.msgs (.flush tok) (by rw [hm]; exact List.mem_cons_self)
      · rename_i tok ms hw hm
        injection hs with hs; subst hs
        refine fresh_worker ih ?_ (by intros; simp) (fun m h => ih.msgs m (by rw [hm]; exact List.mem_cons_of_mem _ h))
        rintro tok' ⟨k, hk, ht⟩
        simp only [Worker.cont?, Option.some.injEq] at hk; subst hk
        simp only [Cont.tok?, Option.some.injEq] at ht; subst ht
        exact ih.msgs (.shutdown tok) (by rw [hm]; exact List.mem_cons_self)
      · cases hs
    | timer =>
      simp only [step, timerStep] at hs
      split at hs
      · injection hs with hs; subst hs
        refine fresh_worker ih ?_ (by intros; simp) ih.msgs
        rintro tok' ⟨k, hk, ht⟩
        simp only [Worker.cont?, Option.some.injEq] at hk; subst hk; cases ht
      · cases hs
    | work ok => exact fresh_work ih hs
    | callbackFlush =>
      simp only [step, callbackFlushStep] at hs
      split at hs
      · rename_i k hw
        injection hs with hs; subst hs
        exact {
          pcs := fun t tok h => Nat.lt_succ_of_lt (ih.pcs t tok h)
          msgs := by
            intro m hm
            rcases List.mem_append.1 hm with hm | hm
            · exact Nat.lt_succ_of_lt (ih.msgs m hm)
            · simp only [List.mem_singleton] at hm; subst hm; exact Nat.lt_succ_self _
          worker := by
            rintro tok' ⟨k', hk, ht⟩
            exact Nat.lt_succ_of_lt (ih.worker tok' ⟨k', by rw [hw]; exact hk, ht⟩)
          self := by
            intro tok k' h
            injection h with h1 h2; subst h1; exact Nat.lt_succ_self _
          replies := fun p h => Nat.lt_succ_of_lt (ih.replies p h)
          lost := fun p h => Nat.lt_succ_of_lt (ih.lost p h)
          returned := fun p h => Nat.lt_succ_of_lt (ih.returned p h) }
      · cases hs

/-! ## What has been exported -/

/-- Consecutive exports from `a` to `b`: every measurement in exactly one. -/
inductive Tiles : Nat → List Ev → Nat → Prop
  | nil {a} : Tiles a [] a
  | batch {a m b ok l} : a < m → Tiles m l b → Tiles a (Ev.export a m ok :: l) b
  | shutdown {a b l} : Tiles a l b → Tiles a (Ev.shutdown :: l) b

theorem Tiles.snoc_export {a b m : Nat} {l : List Ev} (h : Tiles a l b) (hm : b < m) (ok : Bool) :
    Tiles a (l ++ [.export b m ok]) m := by
  induction h with
  | nil => exact .batch hm .nil
  | batch hlt _ ih => exact .batch hlt (ih hm)
  | shutdown _ ih => exact .shutdown (ih hm)

theorem Tiles.snoc_shutdown {a b : Nat} {l : List Ev} (h : Tiles a l b) : Tiles a (l ++ [.shutdown]) b := by
  induction h with
  | nil => exact .shutdown .nil
  | batch hlt _ ih => exact .batch hlt ih
  | shutdown _ ih => exact .shutdown ih

theorem Tiles.attempted {a b : Nat} {l : List Ev} (h : Tiles a l b) : ∀ i, a ≤ i → i < b → Attempted l i := by
  induction h with
  | nil => intro i h1 h2; omega
  | @batch a m b ok l hlt _ ih =>
    intro i h1 h2
    by_cases hi : i < m
    · exact ⟨a, m, ok, List.mem_cons_self, h1, hi⟩
    · obtain ⟨lo, hi', ok', hm, hh⟩ := ih i (by omega) h2
      exact ⟨lo, hi', ok', List.mem_cons_of_mem _ hm, hh⟩
  | shutdown _ ih =>
    intro i h1 h2
    obtain ⟨lo, hi', ok', hm, hh⟩ := ih i h1 h2
    exact ⟨lo, hi', ok', List.mem_cons_of_mem _ hm, hh⟩

/-- The event is an export that covers measurement `i`. -/
def Ev.covers (i : Nat) : Ev → Bool
  | .export lo hi _ => decide (lo ≤ i) && decide (i < hi)
  | .shutdown => false

theorem Tiles.none_below {a b : Nat} {l : List Ev} (h : Tiles a l b) : ∀ i, i < a → l.countP (Ev.covers i) = 0 := by
  induction h with
  | nil => intro i _; rfl
  | @batch a m b ok l hlt _ ih =>
    intro i hi
    rw [List.countP_cons, ih i (by omega)]
    simp [Ev.covers]; omega
  | shutdown _ ih => intro i hi; rw [List.countP_cons, ih i hi]; simp [Ev.covers]

theorem Tiles.once {a b : Nat} {l : List Ev} (h : Tiles a l b) :
    ∀ i, a ≤ i → l.countP (Ev.covers i) = if i < b then 1 else 0 := by
  induction h with
  | @nil a => intro i hi; simp; omega
  | @batch a m b ok l hlt ht ih =>
    intro i hi
    rw [List.countP_cons]
    by_cases him : i < m
    · rw [ht.none_below i him]
      have hmb : m ≤ b := by
        clear ih hi him hlt
        induction ht with
        | nil => exact Nat.le_refl _
        | batch h _ ih => omega
        | shutdown _ ih => exact ih
      rw [if_pos (show i < b by omega)]
      simp [Ev.covers, hi, him]
    · rw [ih i (by omega)]
      simp [Ev.covers, him]
  | shutdown _ ih => intro i hi; rw [List.countP_cons, ih i hi]; simp [Ev.covers]

/-- What an answer `Ok` given to a call made after `n` measurements stands for. -/
def Good (temp : Temp) (log : List Ev) (n : Nat) : Prop :=
  match temp with
  | .cumulative => n = 0 ∨ ∃ hi, n ≤ hi ∧ Ev.export 0 hi true ∈ log
  | .delta => ∀ i, i < n → Attempted log i

theorem Good.mono {temp : Temp} {log : List Ev} {n : Nat} (h : Good temp log n) (l : List Ev) : Good temp (log ++ l) n := by
  cases temp with
  | cumulative =>
    rcases h with h | ⟨hi, h1, h2⟩
    · exact .inl h
    · exact .inr ⟨hi, h1, List.mem_append_left _ h2⟩
  | delta =>
    intro i hi
    obtain ⟨a, b, c, hm, hh⟩ := h i hi
    exact ⟨a, b, c, List.mem_append_left _ hm, hh⟩

/-- The worker holds a positive result. -/
def Worker.positive : Worker → Bool
  | .closing _ ok => ok
  | .reply _ ok => ok
  | _ => false

structure Inv (temp : Temp) (s : State) : Prop where
  atCall : ∀ tok, s.atCall tok ≤ s.recorded
  collected : s.collected ≤ s.recorded
  exporting : ∀ lo hi k, s.worker = .exporting lo hi k →
    (∀ tok, k.tok? = some tok → s.atCall tok ≤ hi) ∧ (temp = .cumulative → lo = 0) ∧ lo < hi ∧
      (temp = .delta → s.collected = hi ∧ Tiles 0 s.log lo)
  tiles : temp = .delta → (∀ lo hi k, s.worker ≠ .exporting lo hi k) → Tiles 0 s.log s.collected
  positive : s.worker.positive = true → ∀ tok, s.worker.serves tok → Good temp s.log (s.atCall tok)
  replies : ∀ tok, (tok, true) ∈ s.replies → Good temp s.log (s.atCall tok)
  returned : ∀ tok, (tok, Ret.ok) ∈ s.returned → (tok, true) ∈ s.replies

theorem answerFor_ok {s : State} {tok : Nat} (h : answerFor s tok = some .ok) : (tok, true) ∈ s.replies := by
  simp only [answerFor] at h
  split at h
  · rename_i p hp
    have hm := List.mem_of_find?_eq_some hp
    have he := List.find?_some hp
    simp only [beq_iff_eq] at he
    cases hb : p.2 with
    | true => rw [← he, ← hb]; exact hm
    | false => rw [hb] at h; simp at h
  · split at h <;> simp at h

theorem inv_ret {temp : Temp} {s : State} (hi : Inv temp s) {t tok : Nat} {r : Ret} (h : r = .ok → (tok, true) ∈ s.replies) :
    Inv temp (s.ret t tok r) where
  atCall := hi.atCall
  collected := hi.collected
  exporting := hi.exporting
  tiles := hi.tiles
  positive := hi.positive
  replies := hi.replies
  returned := by
    intro tok' hm
    rcases List.mem_append.1 hm with hm | hm
    · exact hi.returned tok' hm
    · simp only [List.mem_singleton, Prod.mk.injEq] at hm
      obtain ⟨rfl, rfl⟩ := hm
      exact h rfl

theorem inv_thread {temp : Temp} {s s' : State} (hi : Inv temp s) {t : Nat} (hs : threadStep s t = some s') : Inv temp s' := by
  simp only [threadStep] at hs
  split at hs
  · cases hs
  · split at hs
    · injection hs with hs; subst hs; exact ⟨hi.atCall, hi.collected, hi.exporting, hi.tiles, hi.positive, hi.replies, hi.returned⟩
    · injection hs with hs; subst hs; exact inv_ret hi (by simp)
  · rw [Option.map_eq_some_iff] at hs; obtain ⟨r, hr, rfl⟩ := hs; exact inv_ret hi (fun h => answerFor_ok (by rw [hr, h]))
  · split at hs
    · injection hs with hs; subst hs; exact ⟨hi.atCall, hi.collected, hi.exporting, hi.tiles, hi.positive, hi.replies, hi.returned⟩
    · injection hs with hs; subst hs; exact inv_ret hi (by simp)
  · rw [Option.map_eq_some_iff] at hs; obtain ⟨r, hr, rfl⟩ := hs; exact inv_ret hi (fun h => answerFor_ok (by rw [hr, h]))

/-- A new call disturbs no old token. -/
theorem inv_call {temp : Temp} {s s' : State} (hf : Fresh s) (hi : Inv temp s) (hrec : s'.recorded = s.recorded) (hcol : s'.collected = s.collected)
    (hw : ∀ lo hi k, s'.worker = .exporting lo hi k → s.worker = .exporting lo hi k)
    (hw2 : ∀ lo hi k, s.worker = .exporting lo hi k → s'.worker = .exporting lo hi k)
    (hpos : s'.worker.positive = true → s'.worker = s.worker) (hlog : s'.log = s.log) (hrep : s'.replies = s.replies)
    (hret : s'.returned = s.returned) (hat : s'.atCall = set s.atCall s.nextTok s.recorded) : Inv temp s' where
  atCall := by
    intro tok
    rw [hat, hrec]
    by_cases h : tok = s.nextTok
    · rw [h, set_eq]; exact Nat.le_refl _
    · rw [set_ne _ _ h]; exact hi.atCall tok
  collected := by rw [hrec, hcol]; exact hi.collected
  exporting := by
    intro lo hi' k h
    have h' := hw _ _ _ h
    obtain ⟨h1, h2, h3, h4⟩ := hi.exporting lo hi' k h'
    refine ⟨fun tok ht => ?_, h2, h3, by rw [hcol, hlog]; exact h4⟩
    have hlt := hf.worker tok ⟨k, by rw [h']; rfl, ht⟩
    rw [hat, set_ne _ _ (by omega)]; exact h1 tok ht
  tiles := by
    intro ht hne
    rw [hlog, hcol]; exact hi.tiles ht (fun lo hi' k h => hne lo hi' k (hw2 _ _ _ h))
  positive := by
    intro hp tok ht
    have he := hpos hp
    rw [he] at hp ht
    have hlt := hf.worker tok ht
    rw [hlog, hat, set_ne _ _ (by omega)]; exact hi.positive hp tok ht
  replies := by
    intro tok hm
    rw [hrep] at hm
    have hlt := hf.replies _ hm
    rw [hlog, hat, set_ne _ _ (by simp only at hlt; omega)]; exact hi.replies tok hm
  returned := by rw [hret, hrep]; exact hi.returned

/-- Only the worker moves, nothing is exported. -/
theorem inv_worker {temp : Temp} {s s' : State} (hi : Inv temp s) (hw : ∀ lo hi k, s.worker ≠ .exporting lo hi k)
    (hw' : ∀ lo hi k, s'.worker ≠ .exporting lo hi k) (hrec : s'.recorded = s.recorded) (hcol : s'.collected = s.collected) (hlog : s'.log = s.log)
    (hret : s'.returned = s.returned) (hat : s'.atCall = s.atCall)
    (hpos : s'.worker.positive = true → ∀ tok, s'.worker.serves tok → Good temp s.log (s.atCall tok))
    (hrep : ∀ tok, (tok, true) ∈ s'.replies → (tok, true) ∈ s.replies ∨ Good temp s.log (s.atCall tok))
    (hrep' : ∀ tok, (tok, true) ∈ s.replies → (tok, true) ∈ s'.replies) : Inv temp s' where
  atCall := by rw [hat, hrec]; exact hi.atCall
  collected := by rw [hcol, hrec]; exact hi.collected
  exporting := fun lo hi' k h => absurd h (hw' lo hi' k)
  tiles := fun ht _ => by rw [hlog, hcol]; exact hi.tiles ht hw
  positive := by rw [hlog, hat]; exact hpos
  replies := by
    intro tok hm
    rw [hlog, hat]
    rcases hrep tok hm with h | h
    · exact hi.replies tok h
    · exact h
  returned := by
    intro tok hm
    rw [hret] at hm
    exact hrep' tok (hi.returned tok hm)

theorem afterExport_ne_exporting (k : Cont) (ok : Bool) (lo hi : Nat) (k' : Cont) : afterExport k ok ≠ .exporting lo hi k' := by
  cases k <;> simp [afterExport]

theorem afterExport_positive {k : Cont} {ok : Bool} (h : (afterExport k ok).positive = true) : ok = true := by
  cases k <;> simp_all [afterExport, Worker.positive]

theorem inv_work {temp : Temp} {s s' : State} (hi : Inv temp s) {ok : Bool} (hs : workStep temp s ok = some s') : Inv temp s' := by
  simp only [workStep] at hs
  split at hs
  · cases hs
  · rename_i k hw
    have hne : ∀ lo hi k, s.worker ≠ .exporting lo hi k := by intros; rw [hw]; simp
    split at hs
    · split at hs
      · rename_i hlow
        injection hs with hs; subst hs
        refine inv_worker hi hne (afterExport_ne_exporting _ _) rfl rfl rfl rfl rfl (fun _ tok _ => ?_) (fun _ h => .inl h) (fun _ h => h)
        have hat := hi.atCall tok
        cases temp with
        | cumulative => simp only [lower] at hlow; exact .inl (by omega)
        | delta =>
          simp only [lower] at hlow
          intro i hlt
          exact (hi.tiles rfl hne).attempted i (Nat.zero_le _) (by omega)
      · rename_i hlow
        injection hs with hs; subst hs
        exact {
          atCall := hi.atCall
          collected := Nat.le_refl _
          exporting := by
            intro lo hi' k' h
            injection h with h1 h2 h3
            subst h1; subst h2; subst h3
            refine ⟨fun tok _ => hi.atCall tok, fun h => by rw [h]; rfl, ?_, fun h => ⟨rfl, ?_⟩⟩
            · have := hi.collected
              cases temp <;> simp only [lower] at hlow ⊢ <;> omega
            · subst h; exact hi.tiles rfl hne
          tiles := fun _ h => absurd rfl (h _ _ _)
          positive := fun h => by simp [Worker.positive] at h
          replies := hi.replies
          returned := hi.returned }
    · injection hs with hs; subst hs
      refine inv_worker hi hne (afterExport_ne_exporting _ _) rfl rfl rfl rfl rfl (fun h => ?_) (fun _ h => .inl h) (fun _ h => h)
      cases afterExport_positive h
  · rename_i tok k hw
    have hne : ∀ lo hi k, s.worker ≠ .exporting lo hi k := by intros; rw [hw]; simp
    split at hs
    · injection hs with hs; subst hs
      exact inv_worker hi hne (by simp) rfl rfl rfl rfl rfl (fun h => by simp [Worker.positive] at h) (fun _ h => .inl h) (fun _ h => h)
    · cases hs
  · rename_i lo hi' k hw
    obtain ⟨h1, h2, h3, h4⟩ := hi.exporting lo hi' k hw
    injection hs with hs; subst hs
    exact {
      atCall := hi.atCall
      collected := hi.collected
      exporting := fun a b c h => absurd h (afterExport_ne_exporting _ _ _ _ _)
      tiles := fun ht _ => by
        obtain ⟨h5, h6⟩ := h4 ht
        show Tiles 0 (s.log ++ _) s.collected
        rw [h5]; exact h6.snoc_export h3 ok
      positive := by
        intro hp tok ht
        have hok := afterExport_positive hp; subst hok
        have hle := h1 tok (afterExport_serves ht)
        show Good temp (s.log ++ _) _
        cases temp with
        | cumulative => rw [h2 rfl]; exact .inr ⟨hi', hle, by simp⟩
        | delta => exact fun i hlt => ((h4 rfl).2.snoc_export h3 true).attempted i (Nat.zero_le _) (Nat.lt_of_lt_of_le hlt hle)
      replies := fun tok hm => (hi.replies tok hm).mono _
      returned := hi.returned }
  · rename_i tok r hw
    have hne : ∀ lo hi k, s.worker ≠ .exporting lo hi k := by intros; rw [hw]; simp
    injection hs with hs; subst hs
    exact {
      atCall := hi.atCall
      collected := hi.collected
      exporting := by simp
      tiles := fun ht _ => (hi.tiles ht hne).snoc_shutdown
      positive := by
        intro hp tok' ht
        simp only [Worker.positive, Bool.and_eq_true] at hp
        obtain ⟨k, hk, hk'⟩ := ht
        exact (hi.positive (by rw [hw]; exact hp.1) tok' ⟨k, by rw [hw]; exact hk, hk'⟩).mono _
      replies := fun tok hm => (hi.replies tok hm).mono _
      returned := hi.returned }
  · rename_i k r hw
    have hne : ∀ lo hi k, s.worker ≠ .exporting lo hi k := by intros; rw [hw]; simp
    have key : ∀ tok, k.tok? = some tok → ∀ tok', (tok', true) ∈ s.replies ++ [(tok, r)] →
        (tok', true) ∈ s.replies ∨ Good temp s.log (s.atCall tok') := by
      intro tok hk tok' hm
      rcases List.mem_append.1 hm with hm | hm
      · exact .inl hm
      · simp only [List.mem_singleton, Prod.mk.injEq] at hm
        obtain ⟨rfl, rfl⟩ := hm
        exact .inr (hi.positive (by rw [hw]; rfl) tok' ⟨k, by rw [hw]; rfl, hk⟩)
    split at hs
    · cases hs
    · injection hs with hs; subst hs
      exact inv_worker hi hne (by simp) rfl rfl rfl rfl rfl (fun h => by simp [Worker.positive] at h) (key _ rfl)
        (fun _ h => List.mem_append_left _ h)
    · injection hs with hs; subst hs
      exact inv_worker hi hne (by simp) rfl rfl rfl rfl rfl (fun h => by simp [Worker.positive] at h) (key _ rfl)
        (fun _ h => List.mem_append_left _ h)
  · rename_i hw
    have hne : ∀ lo hi k, s.worker ≠ .exporting lo hi k := by intros; rw [hw]; simp
    injection hs with hs; subst hs
    exact inv_worker hi hne (by simp) rfl rfl rfl rfl rfl (fun h => by simp [Worker.positive] at h) (fun _ h => .inl h) (fun _ h => h)
  · cases hs

theorem inv {temp : Temp} {s : State} (h : Reachable temp s) : Inv temp s := by
  induction h with
  | init =>
    exact { atCall := by simp [State.init], collected := by simp [State.init], exporting := by simp [State.init]
            tiles := fun _ _ => .nil, positive := by simp [State.init, Worker.positive], replies := by simp [State.init]
            returned := by simp [State.init] }
  | @step s s' a hr hs ih =>
    have hf := fresh hr
    cases a with
    | record =>
      simp only [step, Option.some.injEq] at hs; subst hs
      exact ⟨fun tok => Nat.le_succ_of_le (ih.atCall tok), Nat.le_succ_of_le ih.collected, ih.exporting, ih.tiles, ih.positive,
        ih.replies, ih.returned⟩
    | flush t =>
      simp only [step, callStep] at hs
      split at hs
      · injection hs with hs; subst hs
        exact inv_call hf ih rfl rfl (fun _ _ _ h => h) (fun _ _ _ h => h) (fun _ => rfl) rfl rfl rfl rfl
      · cases hs
    | shutdown t =>
      simp only [step, callStep] at hs
      split at hs
      · injection hs with hs; subst hs
        exact inv_call hf ih rfl rfl (fun _ _ _ h => h) (fun _ _ _ h => h) (fun _ => rfl) rfl rfl rfl rfl
      · cases hs
    | thread t => exact inv_thread ih hs
    | timeout t =>
      simp only [step, timeoutStep] at hs
      split at hs
      · injection hs with hs; subst hs; exact inv_ret ih (by simp)
      · cases hs
    | take =>
      simp only [step, takeStep] at hs
      split at hs
      all_goals first
        | (cases hs; done)
        | (rename_i hw hm
           injection hs with hs; subst hs
           exact inv_worker ih (by simp [hw]) (by simp) rfl rfl rfl rfl rfl (fun h => by simp [Worker.positive] at h)
             (fun _ h => .inl h) (fun _ h => h))
    | timer =>
      simp only [step, timerStep] at hs
      split at hs
      · rename_i hw hm
        injection hs with hs; subst hs
        exact inv_worker ih (by simp [hw]) (by simp) rfl rfl rfl rfl rfl (fun h => by simp [Worker.positive] at h)
          (fun _ h => .inl h) (fun _ h => h)
      · cases hs
    | work ok => exact inv_work ih hs
    | callbackFlush =>
      simp only [step, callbackFlushStep] at hs
      split at hs
      · rename_i k hw
        injection hs with hs; subst hs
        exact inv_call hf ih rfl rfl (by simp) (by simp [hw]) (fun h => by simp [Worker.positive] at h) rfl rfl rfl rfl
      · cases hs

end Otel.Metrics.Periodic
