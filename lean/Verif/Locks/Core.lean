/-!
# Threads and locks

Threads take and give back locks; a lock is taken by one thread, or shared between readers. Programs are finite: every way to run them ends, and what matters is whether
it can end too early, with threads that wait for each other. A reader may have to wait for a writer that waits itself (the standard library does not say), so there are
two relations: what can happen, and what is sure to be possible.
-/

namespace Otel.Locks

/-- How a lock is taken. `Mutex::lock` and `RwLock::write` are exclusive, `RwLock::read` is shared. -/
inductive Mode where
  | shared
  | exclusive
deriving DecidableEq

variable {L : Type}

/-- A step of a program as far as locks go. -/
inductive Instr (L : Type) where
  | work
  | acquire (l : L) (m : Mode)
  | release (l : L) (m : Mode)

/-- A program. -/
abbrev Prog (L : Type) := List (Instr L)

/-- Code run while a lock is held; the guard gives it back at the end of the scope. -/
def withLock (l : L) (m : Mode) (body : Prog L) : Prog L := .acquire l m :: (body ++ [.release l m])

/-- A thread: the locks it holds, the last taken first, and what it still has to do. -/
structure Thread (L : Type) where
  held : List (L × Mode)
  rest : Prog L

/-- The threads. -/
abbrev Threads (L : Type) := List (Thread L)

/-- Thread `t` holds lock `l`. -/
def holds (t : Thread L) (l : L) : Prop := ∃ m, (l, m) ∈ t.held

/-- The next thing thread `t` does is to take `l` exclusively. -/
def wantsWrite (t : Thread L) (l : L) : Prop := ∃ rest, t.rest = .acquire l .exclusive :: rest

/-- Lock `l` can be taken: exclusively when no thread holds it, shared when no thread holds it exclusively. -/
def grantable (ts : Threads L) (l : L) : Mode → Prop
  | .exclusive => ∀ t ∈ ts, ¬ holds t l
  | .shared => ∀ t ∈ ts, (l, Mode.exclusive) ∉ t.held

/-- Lock `l` is sure to be granted: shared only if no writer waits for it either. -/
def sure (ts : Threads L) (l : L) : Mode → Prop
  | .exclusive => ∀ t ∈ ts, ¬ holds t l
  | .shared => (∀ t ∈ ts, (l, Mode.exclusive) ∉ t.held) ∧ ∀ t ∈ ts, ¬ wantsWrite t l

/-- A thread moves on, with a condition on the locks it takes. -/
inductive Move [DecidableEq L] (ok : L → Mode → Prop) : Thread L → Thread L → Prop
  | work {h r} : Move ok ⟨h, .work :: r⟩ ⟨h, r⟩
  | acquire {h l m r} : ok l m → Move ok ⟨h, .acquire l m :: r⟩ ⟨(l, m) :: h, r⟩
  | release {h l m r} : Move ok ⟨h, .release l m :: r⟩ ⟨h.erase (l, m), r⟩

/-- What can happen. -/
def Step [DecidableEq L] (ts ts' : Threads L) : Prop := ∃ a t t' b, ts = a ++ t :: b ∧ ts' = a ++ t' :: b ∧ Move (grantable ts) t t'

/-- What is sure to be possible. -/
def SureStep [DecidableEq L] (ts ts' : Threads L) : Prop := ∃ a t t' b, ts = a ++ t :: b ∧ ts' = a ++ t' :: b ∧ Move (sure ts) t t'

/-- Threads that begin with their programs and hold nothing. -/
def start (ps : List (Prog L)) : Threads L := ps.map fun p => ⟨[], p⟩

/-- The states that can come about. -/
inductive Reach [DecidableEq L] (ps : List (Prog L)) : Threads L → Prop
  | start : Reach ps (start ps)
  | step {ts ts'} : Reach ps ts → Step ts ts' → Reach ps ts'

/-- All threads are done. -/
def Done (ts : Threads L) : Prop := ∀ t ∈ ts, t.rest = []

/-- Some thread is not done and nothing can happen any more. -/
def Stuck [DecidableEq L] (ts : Threads L) : Prop := ¬ Done ts ∧ ∀ ts', ¬ Step ts ts'

theorem sure_grantable (ts : Threads L) (l : L) (m : Mode) (h : sure ts l m) : grantable ts l m := by
  cases m
  · exact h.1
  · exact h

theorem sure_step [DecidableEq L] {ts ts' : Threads L} (h : SureStep ts ts') : Step ts ts' := by
  obtain ⟨a, t, t', b, h1, h2, h3⟩ := h
  refine ⟨a, t, t', b, h1, h2, ?_⟩
  cases h3 with
  | work => exact .work
  | acquire hok => exact .acquire (sure_grantable ts _ _ hok)
  | release => exact .release

/-! ## Locks taken in order -/

/-- The program of a thread that holds `held` takes locks only above those it holds, gives them back in the opposite order, and ends holding none. -/
def Ordered [DecidableEq L] (rank : L → Nat) : List (L × Mode) → Prog L → Prop
  | held, [] => held = []
  | held, .work :: r => Ordered rank held r
  | held, .acquire l m :: r => (∀ p ∈ held, rank p.1 < rank l) ∧ Ordered rank ((l, m) :: held) r
  | held, .release l m :: r => ∃ h, held = (l, m) :: h ∧ Ordered rank h r

/-- A program that takes only locks above `n`, in order, and gives all back. -/
def Above [DecidableEq L] (rank : L → Nat) (n : Nat) (p : Prog L) : Prop :=
  ∀ held q, (∀ x ∈ held, rank x.1 ≤ n) → Ordered rank held q → Ordered rank held (p ++ q)

section
variable [DecidableEq L] {rank : L → Nat}

theorem above_nil (n : Nat) : Above rank n ([] : Prog L) := fun _ _ _ h => h

theorem above_append {n : Nat} {p q : Prog L} (hp : Above rank n p) (hq : Above rank n q) : Above rank n (p ++ q) := by
  intro held r hh hr
  rw [List.append_assoc]
  exact hp held _ hh (hq held r hh hr)

theorem above_work {n : Nat} : Above rank n ([.work] : Prog L) := fun _ _ _ h => h

theorem above_flatten {n : Nat} {ps : List (Prog L)} (h : ∀ p ∈ ps, Above rank n p) : Above rank n ps.flatten := by
  induction ps with
  | nil => exact above_nil n
  | cons p ps ih => exact above_append (h p (List.mem_cons_self ..)) (ih fun q hq => h q (List.mem_cons_of_mem _ hq))

theorem above_mono {n k : Nat} {p : Prog L} (h : Above rank k p) (hn : n ≤ k) : Above rank n p :=
  fun held q hh hq => h held q (fun x hx => Nat.le_trans (hh x hx) hn) hq

theorem above_withLock {n : Nat} {l : L} {m : Mode} {p : Prog L} (hl : n < rank l) (hp : Above rank (rank l) p) : Above rank n (withLock l m p) := by
  intro held q hh hq
  refine ⟨fun x hx => Nat.lt_of_le_of_lt (hh x hx) hl, ?_⟩
  show Ordered rank ((l, m) :: held) ((p ++ [.release l m]) ++ q)
  rw [List.append_assoc]
  refine hp _ _ ?_ ⟨held, rfl, hq⟩
  intro x hx
  rcases List.mem_cons.1 hx with rfl | hx
  · exact Nat.le_refl _
  · exact Nat.le_of_lt (Nat.lt_of_le_of_lt (hh x hx) hl)

theorem ordered_of_above {n : Nat} {p : Prog L} (h : Above rank n p) : Ordered rank [] p := by
  have := h [] [] (fun _ hx => by cases hx) rfl
  rwa [List.append_nil] at this

/-! ## No thread waits for ever -/

/-- Every thread is in order. -/
def AllOrdered (rank : L → Nat) (ts : Threads L) : Prop := ∀ t ∈ ts, Ordered rank t.held t.rest

theorem ordered_move {ok : L → Mode → Prop} {t t' : Thread L} (h : Ordered rank t.held t.rest) (hm : Move ok t t') : Ordered rank t'.held t'.rest := by
  cases hm with
  | work => exact h
  | acquire _ => exact h.2
  | release =>
    obtain ⟨h0, he, ho⟩ := h
    dsimp only at he
    subst he
    simpa using ho

theorem allOrdered_step {ts ts' : Threads L} (h : AllOrdered rank ts) (hs : Step ts ts') : AllOrdered rank ts' := by
  obtain ⟨a, t, t', b, rfl, rfl, hm⟩ := hs
  intro x hx
  simp only [List.mem_append, List.mem_cons] at hx
  rcases hx with hx | rfl | hx
  · exact h x (by simp [hx])
  · exact ordered_move (h t (by simp)) hm
  · exact h x (by simp [hx])

theorem allOrdered_reach {ps : List (Prog L)} (hp : ∀ p ∈ ps, Ordered rank [] p) {ts : Threads L} (h : Reach ps ts) : AllOrdered rank ts := by
  induction h with
  | start =>
    intro t ht
    obtain ⟨p, hpm, rfl⟩ := List.mem_map.1 ht
    exact hp p hpm
  | step _ hs ih => exact allOrdered_step ih hs

/-- A thread that waits for a lock, in terms of the rank of the lock. -/
def WaitsFor (t : Thread L) (l : L) : Prop := ∃ m rest, t.rest = .acquire l m :: rest

/-- A thread that holds something is not done. -/
theorem holder_not_done {t : Thread L} (h : Ordered rank t.held t.rest) {l : L} (hl : holds t l) : t.rest ≠ [] := by
  intro he
  rw [he] at h
  obtain ⟨m, hm⟩ := hl
  rw [show t.held = [] from h] at hm
  cases hm

/-- Of the locks waited for there is a highest one. -/
theorem highest (ts : Threads L) : (∃ t ∈ ts, ∃ l, WaitsFor t l) → ∃ t ∈ ts, ∃ l, WaitsFor t l ∧ ∀ t' ∈ ts, ∀ l', WaitsFor t' l' → rank l' ≤ rank l := by
  intro h
  have uniq : ∀ (t : Thread L) l l', WaitsFor t l → WaitsFor t l' → l = l' := by
    rintro t l l' ⟨m, r, h1⟩ ⟨m', r', h2⟩
    rw [h1] at h2
    injection h2 with h2 _
    injection h2
  induction ts with
  | nil => obtain ⟨t, ht, _⟩ := h; cases ht
  | cons t0 ts ih =>
    by_cases h0 : ∃ l, WaitsFor t0 l
    · obtain ⟨l0, hl0⟩ := h0
      by_cases h1 : ∃ t ∈ ts, ∃ l, WaitsFor t l
      · obtain ⟨t, ht, l, hl, hmax⟩ := ih h1
        by_cases hc : rank l0 ≤ rank l
        · refine ⟨t, List.mem_cons_of_mem _ ht, l, hl, fun t' ht' l' hl' => ?_⟩
          rcases List.mem_cons.1 ht' with rfl | ht'
          · rw [uniq _ _ _ hl' hl0]; exact hc
          · exact hmax t' ht' l' hl'
        · refine ⟨t0, List.mem_cons_self .., l0, hl0, fun t' ht' l' hl' => ?_⟩
          rcases List.mem_cons.1 ht' with rfl | ht'
          · rw [uniq _ _ _ hl' hl0]; exact Nat.le_refl _
          · exact Nat.le_trans (hmax t' ht' l' hl') (Nat.le_of_lt (Nat.lt_of_not_le hc))
      · refine ⟨t0, List.mem_cons_self .., l0, hl0, fun t' ht' l' hl' => ?_⟩
        rcases List.mem_cons.1 ht' with rfl | ht'
        · rw [uniq _ _ _ hl' hl0]; exact Nat.le_refl _
        · exact absurd ⟨t', ht', l', hl'⟩ h1
    · have h1 : ∃ t ∈ ts, ∃ l, WaitsFor t l := by
        obtain ⟨t, ht, l, hl⟩ := h
        rcases List.mem_cons.1 ht with rfl | ht
        · exact absurd ⟨l, hl⟩ h0
        · exact ⟨t, ht, l, hl⟩
      obtain ⟨t, ht, l, hl, hmax⟩ := ih h1
      refine ⟨t, List.mem_cons_of_mem _ ht, l, hl, fun t' ht' l' hl' => ?_⟩
      rcases List.mem_cons.1 ht' with rfl | ht'
      · exact absurd ⟨l', hl'⟩ h0
      · exact hmax t' ht' l' hl'

theorem step_of_move {ts : Threads L} {t t' : Thread L} (ht : t ∈ ts) (hm : Move (sure ts) t t') : ∃ ts', SureStep ts ts' := by
  obtain ⟨a, b, rfl⟩ := List.append_of_mem ht
  exact ⟨_, a, t, t', b, rfl, rfl, hm⟩

/-- Threads that take locks in order are never stuck: as long as one is not done, some step is sure to be possible. -/
theorem ordered_progress {ts : Threads L} (h : AllOrdered rank ts) (hn : ¬ Done ts) : ∃ ts', SureStep ts ts' := by
  by_cases hfree : ∃ t ∈ ts, t.rest ≠ [] ∧ ∀ l, ¬ WaitsFor t l
  · obtain ⟨⟨held, rest⟩, ht, hr, hw⟩ := hfree
    cases rest with
    | nil => exact absurd rfl hr
    | cons i r =>
      cases i with
      | work => exact step_of_move ht .work
      | acquire l m => exact absurd ⟨m, r, rfl⟩ (hw l)
      | release l m => exact step_of_move ht .release
  · have hall : ∀ t ∈ ts, t.rest ≠ [] → ∃ l, WaitsFor t l := by
      intro t ht hr
      apply Classical.byContradiction
      intro hc
      exact hfree ⟨t, ht, hr, fun l hl => hc ⟨l, hl⟩⟩
    have hex : ∃ t ∈ ts, ∃ l, WaitsFor t l := by
      apply Classical.byContradiction
      intro hc
      apply hn
      intro t ht
      apply Classical.byContradiction
      intro hr
      exact hc ⟨t, ht, hall t ht hr⟩
    obtain ⟨t, ht, l, hl, hmax⟩ := highest (rank := rank) ts hex
    have nobody : ∀ t' ∈ ts, ¬ holds t' l := by
      intro t' ht' hh
      obtain ⟨l', hl'⟩ := hall t' ht' (holder_not_done (h t' ht') hh)
      have hle := hmax t' ht' l' hl'
      obtain ⟨m', r', hr'⟩ := hl'
      have ho := h t' ht'
      rw [hr'] at ho
      obtain ⟨m, hm⟩ := hh
      exact absurd (ho.1 _ hm) (Nat.not_lt.2 hle)
    by_cases hw : ∃ t' ∈ ts, wantsWrite t' l
    · obtain ⟨⟨held, rest⟩, ht', r, hr⟩ := hw
      dsimp only at hr
      subst hr
      exact step_of_move ht' (.acquire nobody)
    · obtain ⟨m, r, hr⟩ := hl
      obtain ⟨held, rest⟩ := t
      dsimp only at hr
      subst hr
      refine step_of_move ht (.acquire ?_)
      cases m with
      | exclusive => exact nobody
      | shared => exact ⟨fun t' ht' hm => nobody t' ht' ⟨_, hm⟩, fun t' ht' hw' => hw ⟨t', ht', hw'⟩⟩

/-! ## Every run ends -/

/-- What is left to do. -/
def left (ts : Threads L) : Nat := (ts.map fun t => t.rest.length).sum

theorem left_step {ts ts' : Threads L} (h : Step ts ts') : left ts' + 1 = left ts := by
  obtain ⟨a, t, t', b, rfl, rfl, hm⟩ := h
  have : t'.rest.length + 1 = t.rest.length := by cases hm <;> rfl
  simp only [left, List.map_append, List.map_cons, List.sum_append, List.sum_cons]
  omega

/-- Some number of steps. -/
inductive Steps : Nat → Threads L → Threads L → Prop
  | zero {ts} : Steps 0 ts ts
  | next {n ts ts' ts''} : Step ts ts' → Steps n ts' ts'' → Steps (n + 1) ts ts''

theorem left_steps {n : Nat} {ts ts' : Threads L} (h : Steps n ts ts') : left ts' + n = left ts := by
  induction h with
  | zero => rfl
  | next hs _ ih => have := left_step hs; omega

theorem left_zero {ts : Threads L} : left ts = 0 ↔ Done ts := by
  induction ts with
  | nil => exact ⟨fun _ _ h => (List.not_mem_nil h).elim, fun _ => rfl⟩
  | cons t ts ih =>
    have e : left (t :: ts) = t.rest.length + left ts := rfl
    rw [e, Nat.add_eq_zero_iff, ih, List.length_eq_zero_iff]
    simp [Done]

/-- Threads that take locks in order all get to their end: from every state that comes about, however the threads are scheduled, there is a way on to the end, and any run
of as many steps as are left is there. -/
theorem ordered_ends (rank : L → Nat) {ps : List (Prog L)} (hp : ∀ p ∈ ps, Ordered rank [] p) {ts : Threads L} (h : Reach ps ts) :
    (¬ Done ts → ∃ ts', SureStep ts ts') ∧ (∃ ts', Steps (left ts) ts ts' ∧ Done ts') ∧ (∀ ts', Steps (left ts) ts ts' → Done ts') ∧
      ∀ n ts', Steps n ts ts' → n ≤ left ts := by
  have key : ∀ k (ts : Threads L), AllOrdered rank ts → left ts = k → ∃ ts', Steps k ts ts' ∧ Done ts' := by
    intro k
    induction k with
    | zero => intro ts _ h0; exact ⟨ts, .zero, left_zero.1 h0⟩
    | succ k ih =>
      intro ts ho hk
      have hn : ¬ Done ts := by
        intro hd
        have := left_zero.2 hd
        omega
      obtain ⟨ts', hs⟩ := ordered_progress ho hn
      have hs := sure_step hs
      obtain ⟨ts'', h1, h2⟩ := ih ts' (allOrdered_step ho hs) (by have := left_step hs; omega)
      exact ⟨ts'', .next hs h1, h2⟩
  have ho := allOrdered_reach hp h
  refine ⟨ordered_progress ho, key _ ts ho rfl, fun ts' hs => left_zero.1 ?_, fun n ts' hs => ?_⟩
  · have := left_steps hs; omega
  · have := left_steps hs; omega

end

end Otel.Locks
