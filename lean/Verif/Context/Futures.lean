import Verif.Context.StackProps
/-!
# Polling futures with a context (C04)

Models `opentelemetry/src/context/future_ext.rs`: each poll of a `WithContext` attaches the context, polls the inner
future, and drops the guard.
-/

namespace Otel.Ctx

/-- What a thread does: observe the current context, poll a wrapped future whose inner poll does `body`, or one thing
after another (the executor's schedule). -/
inductive Prog (α : Type) where
  | skip
  | look
  | seq (p q : Prog α)
  | poll (cx : α) (body : Prog α)
deriving Repr

variable {α : Type}

/-- `WithContext::poll` (also `poll_next`, `poll_ready`, ...): `let _guard = otel_cx.clone().attach(); inner.poll()`.
Returns the final stack and the contexts observed, in order. `/repo/opentelemetry/src/context/future_ext.rs:10-29, 47-78` -/
def Prog.exec : Prog α → Stack α → Stack α × List α
  | .skip, s => (s, [])
  | .look, s => (s, [s.cur])
  | .seq p q, s =>
    let (s1, o1) := p.exec s
    let (s2, o2) := q.exec s1
    (s2, o1 ++ o2)
  | .poll cx body, s =>
    let (s1, pos) := s.push cx
    let (s2, o) := body.exec s1
    (s2.dropGuard pos, o)

/-- Specification: what each `look` sees is decided lexically, by the innermost enclosing poll. -/
def Prog.sees (cx : α) : Prog α → List α
  | .skip => []
  | .look => [cx]
  | .seq p q => p.sees cx ++ q.sees cx
  | .poll cx' body => body.sees cx'

/-- Nesting depth of polls. -/
def Prog.depth : Prog α → Nat
  | .skip => 0
  | .look => 0
  | .seq p q => max p.depth q.depth
  | .poll _ body => body.depth + 1

theorem push_drop (s : Stack α) (cx : α) (h : s.stack.length < 65535) :
    (s.push cx).1.dropGuard (s.push cx).2 = s := by
  by_cases hroom : s.stack.length + 1 < maxPos
  · have hmod : (s.stack.length + 1) % 65536 = s.stack.length + 1 := by unfold maxPos at hroom; omega
    simp only [Stack.push, hroom, if_true, hmod]
    rw [Stack.dropGuard, if_pos ⟨by omega, hroom⟩, Stack.popId, if_neg (by unfold maxPos at *; omega)]
    dsimp only
    rw [List.length_append, List.length_singleton, hmod, if_pos rfl, shrink_append_some, List.getLast?_concat,
      List.dropLast_concat]
  · simp [Stack.push, hroom, Stack.dropGuard]

/-- **C04 (a).** Whatever is polled, however nested and in whatever order, the thread's context stack is afterwards
exactly what it was: even when an attach overflowed. -/
theorem poll_restores (p : Prog α) (s : Stack α) (h : s.stack.length < 65535) : (p.exec s).1 = s := by
  induction p generalizing s with
  | skip => rfl
  | look => rfl
  | seq p q ihp ihq =>
    simp only [Prog.exec]
    rw [ihp s h]
    exact ihq s h
  | poll cx body ih =>
    simp only [Prog.exec]
    rw [ih]
    · exact push_drop s cx h
    · unfold Stack.push
      dsimp only
      split
      · rename_i hr; unfold maxPos at hr; simp; omega
      · exact h

/-- **C04 (b).** As long as the nesting fits in the stack, every observation sees the context of the innermost poll
around it, and outside polls the thread's own current context. -/
theorem poll_sees_own_context (p : Prog α) (s : Stack α) (h : s.stack.length + p.depth < 65535) :
    (p.exec s).2 = p.sees s.cur := by
  induction p generalizing s with
  | skip => rfl
  | look => rfl
  | seq p q ihp ihq =>
    simp only [Prog.depth] at h
    simp only [Prog.exec, Prog.sees]
    rw [poll_restores p s (by omega), ihp s (by omega), ihq s (by omega)]
  | poll cx body ih =>
    simp only [Prog.depth] at h
    have hroom : s.stack.length + 1 < maxPos := by unfold maxPos; omega
    simp only [Prog.exec, Prog.sees]
    rw [ih]
    · simp [Stack.push, hroom]
    · simp [Stack.push, hroom]; omega

/-- Non-vacuity: two futures whose polls interleave and nest. -/
example : let p : Prog Nat := .seq (.poll 1 (.seq .look (.poll 2 .look))) (.seq .look (.poll 2 (.seq .look (.poll 1 .look))))
    (Stack.init 0).stack.length + p.depth < 65535 ∧ (p.exec (Stack.init 0)).2 = [1, 2, 0, 2, 1] := by decide

/-! ## Futures that attach contexts themselves

A future may attach contexts inside a poll, keep their guards as long as it likes and drop them in any order. Then a poll is a part of the history of its thread: an attach, what
the future does, and the drop of the guard of that attach (`/repo/opentelemetry/src/context/future_ext.rs:10-29`).
-/

/-- The history of a poll that begins after `pre`: the `k`-th attach, where `k` is the number of attaches before it, and the drop of its guard. -/
def pollOps (pre : List (Op α)) (cx : α) (body : List (Op α)) : List (Op α) := pre ++ .attach cx :: body ++ [.drop (Spec.attaches pre)]

/-- The future does not drop the guard of the poll around it (it cannot: it does not have it). -/
def NotAround (pre body : List (Op α)) : Prop := .drop (Spec.attaches pre) ∉ body

/-- The attachments made since the poll began that are alive. -/
def keptBy (pre : List (Op α)) (ops : List (Op α)) : List (Nat × α) :=
  (Spec.run (fun _ => true) ops).live.filter fun e => decide (Spec.attaches pre < e.1)

/-- Those made before that are alive. -/
def olderThan (pre : List (Op α)) (ops : List (Op α)) : List (Nat × α) :=
  (Spec.run (fun _ => true) ops).live.filter fun e => decide (e.1 < Spec.attaches pre)

theorem live_below (ops : List (Op α)) : ∀ e ∈ (Spec.run (fun _ => true) ops).live, e.1 < Spec.attaches ops := by
  induction ops using List.reverseRecOn with
  | nil => intro e he; cases he
  | append_singleton ops o ih =>
    intro e he
    rw [Spec.run_snoc] at he
    cases o with
    | attach cx =>
      have hc := Spec.count_eq (fun _ => true) ops
      have hn : Spec.attaches (ops ++ [.attach cx]) = Spec.attaches ops + 1 := by simp [Spec.attaches]
      simp only [Spec.step, if_true, List.mem_append, List.mem_singleton] at he
      rcases he with he | rfl
      · have := ih e he; omega
      · rw [hn, hc]; exact Nat.lt_succ_self _
    | drop k =>
      have hn : Spec.attaches (ops ++ [.drop k]) = Spec.attaches ops := by simp [Spec.attaches]
      rw [hn]
      exact ih e (List.mem_filter.1 he).1

/-- During a poll the live attachments are older ones, the one of the poll, and those the future made. -/
theorem poll_live (pre : List (Op α)) (cx : α) (body : List (Op α)) (h : NotAround pre body) : (Spec.run (fun _ => true) (pre ++ .attach cx :: body)).live =
    olderThan pre (pre ++ .attach cx :: body) ++ (Spec.attaches pre, cx) :: keptBy pre (pre ++ .attach cx :: body) := by
  unfold olderThan keptBy
  induction body using List.reverseRecOn with
  | nil =>
    have hb := live_below pre
    have hl : (Spec.run (fun _ => true) (pre ++ [.attach cx])).live = (Spec.run (fun _ => true) pre).live ++ [(Spec.attaches pre, cx)] := by
      rw [Spec.run_snoc]; simp [Spec.step, Spec.count_eq]
    rw [hl, List.filter_append, List.filter_append, List.filter_eq_self.2 (fun e he => by simpa using hb e he),
      List.filter_eq_nil_iff.2 (fun e he => by have := hb e he; simp; omega : ∀ e ∈ (Spec.run (fun _ => true) pre).live, ¬ (decide (Spec.attaches pre < e.1) = true))]
    simp
  | append_singleton body o ih =>
    have ih := ih fun hm => h (by simp [hm])
    have e1 : pre ++ .attach cx :: (body ++ [o]) = (pre ++ .attach cx :: body) ++ [o] := by simp
    have hlong : Spec.attaches pre < Spec.attaches (pre ++ .attach cx :: body) := by simp [Spec.attaches]
    rw [e1, Spec.run_snoc]
    generalize hs : Spec.run (fun _ => true) (pre ++ .attach cx :: body) = s at ih
    have hcount : s.count = Spec.attaches (pre ++ .attach cx :: body) := by rw [← hs, Spec.count_eq]
    cases o with
    | attach c =>
      simp only [Spec.step, if_true, List.filter_append]
      have g1 : [(s.count, c)].filter (fun e => decide (e.1 < Spec.attaches pre)) = [] := by
        rw [List.filter_eq_nil_iff]; intro e he; rw [List.mem_singleton.1 he]; simp; omega
      have g2 : [(s.count, c)].filter (fun e => decide (Spec.attaches pre < e.1)) = [(s.count, c)] := by
        rw [List.filter_eq_self]; intro e he; rw [List.mem_singleton.1 he]; simp; omega
      rw [g1, g2, List.append_nil]
      nth_rewrite 1 [ih]
      rw [List.append_assoc, List.cons_append]
    | drop j =>
      have hj : j ≠ Spec.attaches pre := fun hj => h (by simp [hj])
      simp only [Spec.step]
      nth_rewrite 1 [ih]
      rw [List.filter_append, List.filter_cons_of_pos (by simpa using hj.symm), List.filter_filter, List.filter_filter, List.filter_filter, List.filter_filter]
      simp only [Bool.and_comm]

/-- **C04 (c).** Whatever contexts a future attaches inside its polls, whenever it drops their guards, and whatever other futures on the thread do: inside a poll the current
context is the newest one that the future has attached in this poll and not dropped, otherwise the one that the poll was wrapped with; and when the poll ends the thread's current
context is the newest one that the future attached in this poll and still keeps, otherwise the newest of those attached before that is still alive. -/
theorem poll_with_guards (base : α) (pre : List (Op α)) (cx : α) (body : List (Op α)) (hn : NotAround pre body)
    (hroom : Spec.attaches (pollOps pre cx body) < 65535) :
    ((Sys.init base).run (pre ++ .attach cx :: body)).current = ((keptBy pre (pre ++ .attach cx :: body)).getLast?.map Prod.snd).getD cx ∧
    ((Sys.init base).run (pollOps pre cx body)).current = ((keptBy pre (pre ++ .attach cx :: body)).getLast?.map Prod.snd).getD
      (((olderThan pre (pre ++ .attach cx :: body)).getLast?.map Prod.snd).getD base) := by
  have hr' : Spec.attaches (pre ++ .attach cx :: body) < 65535 := by
    have : Spec.attaches (pollOps pre cx body) = Spec.attaches (pre ++ .attach cx :: body) := by simp [pollOps, Spec.attaches]
    omega
  have hl := poll_live pre cx body hn
  constructor
  · rw [current_is_newest_live base _ hr', Spec.State.current, hl]
    generalize keptBy pre (pre ++ .attach cx :: body) = l
    rcases List.eq_nil_or_concat l with rfl | ⟨l, e, rfl⟩
    · simp
    · have : olderThan pre (pre ++ .attach cx :: body) ++ (Spec.attaches pre, cx) :: l.concat e = (olderThan pre (pre ++ .attach cx :: body) ++ (Spec.attaches pre, cx) :: l) ++ [e] := by simp
      rw [this, List.getLast?_concat, List.concat_eq_append, List.getLast?_concat]; rfl
  · rw [current_is_newest_live base _ hroom, pollOps, Spec.run_snoc, Spec.State.current]
    have e2 : (Spec.step (fun _ => true) (Spec.run (fun _ => true) (pre ++ .attach cx :: body)) (.drop (Spec.attaches pre) : Op α)).live =
        olderThan pre (pre ++ .attach cx :: body) ++ keptBy pre (pre ++ .attach cx :: body) := by
      simp only [Spec.step]
      rw [hl, List.filter_append, List.filter_cons_of_neg (by simp), List.filter_eq_self.2, List.filter_eq_self.2]
      · intro e he; have := (List.mem_filter.1 he).2; simp at this ⊢; omega
      · intro e he; have := (List.mem_filter.1 he).2; simp at this ⊢; omega
    rw [e2]
    generalize keptBy pre (pre ++ .attach cx :: body) = l
    rcases List.eq_nil_or_concat l with rfl | ⟨l, e, rfl⟩
    · rw [List.append_nil]
      cases (olderThan pre (pre ++ .attach cx :: body)).getLast? <;> rfl
    · rw [List.concat_eq_append, ← List.append_assoc, List.getLast?_concat, List.getLast?_concat]; rfl

/-- The future drops only guards of contexts it attached in this poll, and keeps none. -/
def Tidy (pre : List (Op α)) (cx : α) (body : List (Op α)) : Prop :=
  (∀ j, .drop j ∈ body → Spec.attaches pre < j) ∧ keptBy pre (pre ++ .attach cx :: body) = []

/-- **C04 (d).** A future that drops, in any order, the guards of all contexts it attached in a poll leaves the thread's current context as it was. -/
theorem poll_restores_tidy (base : α) (pre : List (Op α)) (cx : α) (body : List (Op α)) (ht : Tidy pre cx body) (hroom : Spec.attaches (pollOps pre cx body) < 65535) :
    ((Sys.init base).run (pollOps pre cx body)).current = ((Sys.init base).run pre).current ∧ ((Sys.init base).run (pre ++ .attach cx :: body)).current = cx := by
  obtain ⟨h1, h2⟩ := ht
  have hn : NotAround pre body := fun hm => absurd (h1 _ hm) (Nat.lt_irrefl _)
  obtain ⟨k1, k2⟩ := poll_with_guards base pre cx body hn hroom
  rw [h2] at k1 k2
  refine ⟨?_, k1⟩
  have hr : Spec.attaches pre < 65535 := by
    have : Spec.attaches pre ≤ Spec.attaches (pollOps pre cx body) := by simp [pollOps, Spec.attaches]
    omega
  have hold : olderThan pre (pre ++ .attach cx :: body) = (Spec.run (fun _ => true) pre).live := by
    clear k1 k2 h2 hroom hn
    unfold olderThan
    induction body using List.reverseRecOn with
    | nil =>
      have hl : (Spec.run (fun _ => true) (pre ++ [.attach cx])).live = (Spec.run (fun _ => true) pre).live ++ [(Spec.attaches pre, cx)] := by
        rw [Spec.run_snoc]; simp [Spec.step, Spec.count_eq]
      rw [hl, List.filter_append, List.filter_eq_self.2 (fun e he => by simpa using live_below pre e he)]
      simp
    | append_singleton body o ih =>
      have ih := ih fun j hj => h1 j (by simp [hj])
      have e1 : pre ++ .attach cx :: (body ++ [o]) = (pre ++ .attach cx :: body) ++ [o] := by simp
      rw [e1, Spec.run_snoc]
      cases o with
      | attach c =>
        have hlong : Spec.attaches pre < Spec.attaches (pre ++ .attach cx :: body) := by simp [Spec.attaches]
        simp only [Spec.step, if_true, List.filter_append, ih]
        rw [List.filter_eq_nil_iff.2, List.append_nil]
        intro e he
        rw [List.mem_singleton.1 he, Spec.count_eq]; simp; omega
      | drop j =>
        have hj := h1 j (by simp)
        simp only [Spec.step]
        rw [List.filter_filter, ← ih]
        apply List.filter_congr
        intro e _
        by_cases he : e.1 < Spec.attaches pre
        · have : e.1 ≠ j := by omega
          simp [he, this]
        · simp [he]
  rw [k2, hold, current_is_newest_live base pre hr, Spec.State.current]
  cases (Spec.run (fun _ => true) pre).live.getLast? <;> rfl

/-- Beside `poll_restores_tidy`: two contexts whose guards are dropped in the order of their making. -/
example : Tidy [Op.attach 7] 1 [.attach 2, .attach 3, .drop 2, .drop 3] ∧ ((Sys.init 0).run (pollOps [.attach 7] 1 [.attach 2, .attach 3, .drop 2, .drop 3])).current = 7 := by
  refine ⟨⟨?_, by decide⟩, by decide⟩
  intro j hj
  simp only [List.mem_cons, List.not_mem_nil, or_false, reduceCtorEq, false_or, Op.drop.injEq] at hj
  have : Spec.attaches [Op.attach 7] = 1 := rfl
  omega

/-- **C04, finding.** A future that keeps a guard across an await leaks its context: after the poll it is current for whatever runs next on the thread; it stops to be when the
guard is dropped in a later poll. -/
theorem guard_across_await_violated : ((Sys.init 0).run (pollOps [] 1 [.attach 2])).current = 2 ∧ NotAround [] [Op.attach 2] ∧
    ((Sys.init 0).run (pollOps (pollOps [] 1 [.attach 2]) 1 [.drop 1])).current = 0 := by
  refine ⟨by decide, by simp [NotAround], by decide⟩

end Otel.Ctx
