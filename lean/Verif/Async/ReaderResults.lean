import Verif.Async.ReaderProps
/-!
# The periodic metric reader on an async runtime: results (C79)
-/

namespace Otel.AsyncReader
open Otel.Async (Res)

/-- **C79 (once)** For a delta exporter each measurement is handed over at most once, in every schedule, even if exports fail; and none is skipped: the
exports cover an initial segment of the measurements. -/
theorem reader_delta_once (cfg : Cfg) (hd : cfg.delta = true) (s : State) (h : Reachable cfg s) :
    ∃ n ≤ s.recorded, ∀ i, s.log.countP (Ev.covers i) = if i < n then 1 else 0 := by
  obtain ⟨hc, hw⟩ := data_reachable h
  have hle := hc.collected
  have fin : ∀ b ≤ s.collected, Tiles 0 s.log b → ∃ n ≤ s.recorded, ∀ i, s.log.countP (Ev.covers i) = if i < n then 1 else 0 :=
    fun b hb ht => ⟨b, by omega, fun i => by rw [ht.count i]; simp⟩
  unfold Work at hw
  cases hwk : s.worker with
  | exporting lo hi k => rw [hwk] at hw; obtain ⟨w1, w2, w3⟩ := hw.1 hd; exact fin lo (by omega) w3
  | stopping t r => rw [hwk] at hw; exact fin _ (Nat.le_refl _) (hw.1 hd)
  | unspawned => rw [hwk] at hw; exact fin _ (Nat.le_refl _) (hw hd)
  | idle => rw [hwk] at hw; exact fin _ (Nat.le_refl _) (hw hd)
  | collecting k => rw [hwk] at hw; exact fin _ (Nat.le_refl _) (hw hd)
  | ending => rw [hwk] at hw; exact fin _ (Nat.le_refl _) (hw hd)
  | done => rw [hwk] at hw; obtain ⟨b, hb, ht⟩ := hw hd; exact fin b hb ht

/-- **C79 (cumulative)** For a cumulative exporter each export carries everything from the first measurement. -/
theorem reader_cumulative (cfg : Cfg) (hd : cfg.delta = false) (s : State) (h : Reachable cfg s) (lo hi : Nat) (r : Res) (hm : Ev.exported lo hi r ∈ s.log) :
    lo = 0 := (data_reachable h).1.cumul hd lo hi r hm

/-- **C79 (answers), the part that holds.** When `force_flush` or `shutdown` returns Ok, everything recorded before the call was handed to the exporter:
for a cumulative exporter in an export that succeeded. Missing: for a delta exporter, that these exports succeeded (`reader_failure_masked_violated`). -/
theorem reader_ok_partial (cfg : Cfg) (s : State) (h : Reachable cfg s) (t : Nat) (hr : (t, Ret.result .ok) ∈ s.returned) : Delivered cfg s t :=
  (data_reachable h).1.returned t hr

/-- **C79 (answers)** Each call returns at most once, and a call that has not returned is one the task was given, is serving, or has answered. -/
theorem reader_returns_once (cfg : Cfg) (s : State) (h : Reachable cfg s) :
    s.answered.Nodup ∧ ∀ t < s.nextTok, t ∈ s.answered ∨ t ∈ s.queue.map Msg.tok ∨ t ∈ s.worker.serving ∨ t ∈ s.settling.map Prod.fst := by
  have hc := callsOk_reachable h
  have hn : s.calls.Nodup := hc.nodup_iff.2 List.nodup_range
  refine ⟨(List.nodup_append.1 hn).2.1, fun t ht => ?_⟩
  have := hc.mem_iff.2 (List.mem_range.2 ht)
  simp only [State.calls, List.mem_append] at this
  rcases this with ((h | h) | h) | h
  · exact .inr (.inl h)
  · exact .inr (.inr (.inl h))
  · exact .inr (.inr (.inr h))
  · exact .inl h

/-- **C79 (answers)** When the task has ended every call has returned, but for shutdown calls that have their answer in hand. -/
theorem reader_all_answered (cfg : Cfg) (s : State) (h : Reachable cfg s) (hw : s.worker = .done) :
    ∀ t < s.nextTok, t ∈ s.answered ∨ t ∈ s.settling.map Prod.fst := by
  have hq : s.queue = [] := by
    have key : ∀ s, Reachable cfg s → s.worker = .done → s.queue = [] := by
      intro s h
      induction h with
      | init => intro h; cases h
      | @step s s' a hr hs ih =>
        intro hd
        have call : ∀ b, (s.call cfg b).worker = .done → (s.call cfg b).queue = [] := by
          intro b
          unfold State.call
          simp only
          split
          · exact ih
          · split
            · exact ih
            · rename_i hnd
              split
              · intro hdd; exact absurd hdd hnd
              · exact ih
        have after : ∀ (s : State) k r, (s.after k r).worker ≠ .done := by intro s k r; cases k <;> simp [State.after]
        cases a with
        | record => simp only [step, Option.some.injEq] at hs; subst hs; exact ih hd
        | register =>
          simp only [step] at hs
          split at hs
          · injection hs with hs; subst hs; cases hd
          · injection hs with hs; subst hs; exact ih hd
        | dropPipeline => simp only [step, Option.some.injEq] at hs; subst hs; exact ih hd
        | forceFlush => simp only [step, Option.some.injEq] at hs; subst hs; exact call _ hd
        | shutdown => simp only [step, Option.some.injEq] at hs; subst hs; exact call _ hd
        | settle =>
          simp only [step] at hs
          split at hs
          · injection hs with hs; subst hs; exact ih hd
          · cases hs
        | recv =>
          simp only [step] at hs
          split at hs
          · injection hs with hs; subst hs; cases hd
          · injection hs with hs; subst hs; cases hd
          · cases hs
        | tick =>
          simp only [step] at hs
          split at hs
          · injection hs with hs; subst hs; cases hd
          · cases hs
        | collect =>
          simp only [step] at hs
          split at hs
          · injection hs with hs; subst hs
            unfold State.collect at hd
            split at hd
            · exact absurd hd (after _ _ _)
            · split at hd
              · exact absurd hd (after _ _ _)
              · cases hd
          · cases hs
        | finish r =>
          simp only [step] at hs
          split at hs
          · injection hs with hs; subst hs; exact absurd hd (after _ _ _)
          · cases hs
        | stop ok =>
          simp only [step] at hs
          split at hs
          · injection hs with hs; subst hs; cases hd
          · cases hs
        | close =>
          simp only [step] at hs
          split at hs
          · injection hs with hs; subst hs; rfl
          · cases hs
        | die =>
          simp only [step] at hs
          split at hs
          · cases hs
          · cases hs
          · injection hs with hs; subst hs; rfl
    exact key s h hw
  intro t ht
  rcases (reader_returns_once cfg s h).2 t ht with h | h | h | h
  · exact .inl h
  · rw [hq] at h; cases h
  · rw [hw] at h; cases h
  · exact .inr h

/-- **C79 (progress)** As long as calls are waiting and the reader is registered, something other than a new call or a tick can happen. -/
theorem reader_not_stuck (cfg : Cfg) (s : State) (h : Reachable cfg s) (hreg : s.worker ≠ .unspawned) (t : Nat) (ht : t < s.nextTok) (hw : t ∉ s.answered) :
    ∃ a s', a ∈ [.settle, .recv, .collect, .finish .ok, .stop true, .close] ∧ step cfg s a = some s' := by
  cases hwk : s.worker with
  | unspawned => exact absurd hwk hreg
  | idle =>
    rcases (reader_returns_once cfg s h).2 t ht with h1 | h1 | h1 | h1
    · exact absurd h1 hw
    · cases hq : s.queue with
      | nil => rw [hq] at h1; cases h1
      | cons m q =>
        cases m with
        | flush u => exact ⟨.recv, _, by simp, by simp only [step, hwk, hq]; rfl⟩
        | shutdown u => exact ⟨.recv, _, by simp, by simp only [step, hwk, hq]; rfl⟩
    · rw [hwk] at h1; cases h1
    · have := ((end_reachable h).live (by rw [hwk]; simp) (by rw [hwk]; simp)).2.1
      rw [this] at h1; cases h1
  | collecting k => exact ⟨.collect, _, by simp, by simp only [step, hwk]; rfl⟩
  | exporting lo hi k => exact ⟨.finish .ok, _, by simp, by simp only [step, hwk]; rfl⟩
  | stopping u r => exact ⟨.stop true, _, by simp, by simp only [step, hwk]; rfl⟩
  | ending => exact ⟨.close, _, by simp, by simp only [step, hwk]; rfl⟩
  | done =>
    rcases reader_all_answered cfg s h hwk t ht with h1 | h1
    · exact absurd h1 hw
    · cases hl : s.settling with
      | nil => rw [hl] at h1; cases h1
      | cons p l => obtain ⟨u, r⟩ := p; exact ⟨.settle, _, by simp, by simp only [step, hl]; rfl⟩

/-- What the task and the callers still have to do. -/
def State.cost (s : State) : Nat :=
  7 * s.queue.length + 2 * s.settling.length + match s.worker with
    | .collecting _ => 6
    | .exporting .. => 5
    | .stopping .. => 4
    | .ending => 1
    | _ => 0

theorem cost_after (s : State) (k : Cont) (r : Res) :
    (s.after k r).cost ≤ 7 * s.queue.length + 2 * s.settling.length + 4 ∧ (s.after k r).nextTok = s.nextTok ∧ (s.after k r).worker ≠ .unspawned := by
  cases k <;> simp [State.after, State.cost]

theorem cost_step (cfg : Cfg) (s s' : State) (a : Action) (ha : a ∈ [.settle, .recv, .collect, .finish .ok, .stop true, .close]) (hreg : s.worker ≠ .unspawned)
    (hs : step cfg s a = some s') : s'.cost < s.cost ∧ s'.nextTok = s.nextTok ∧ s'.worker ≠ .unspawned := by
  simp only [List.mem_cons, List.not_mem_nil, or_false] at ha
  rcases ha with rfl | rfl | rfl | rfl | rfl | rfl
  · simp only [step] at hs
    split at hs
    · rename_i t r l hl
      injection hs with hs; subst hs
      refine ⟨?_, rfl, hreg⟩
      simp only [State.cost, hl, List.length_cons]; omega
    · cases hs
  · simp only [step] at hs
    split at hs
    · rename_i t q hw hq
      injection hs with hs; subst hs
      refine ⟨?_, rfl, by simp⟩
      simp only [State.cost, hq, hw, List.length_cons]; omega
    · rename_i t q hw hq
      injection hs with hs; subst hs
      refine ⟨?_, rfl, by simp⟩
      simp only [State.cost, hq, hw, List.length_cons]; omega
    · cases hs
  · simp only [step] at hs
    split at hs
    · rename_i k hw
      injection hs with hs; subst hs
      have hc : s.cost = 7 * s.queue.length + 2 * s.settling.length + 6 := by simp [State.cost, hw]
      have key : ∀ r, (s.after k r).cost < s.cost ∧ (s.after k r).nextTok = s.nextTok ∧ (s.after k r).worker ≠ .unspawned := by
        intro r
        obtain ⟨h1, h2, h3⟩ := cost_after s k r
        exact ⟨by omega, h2, h3⟩
      unfold State.collect
      split
      · exact key _
      · split
        · exact key _
        · refine ⟨?_, rfl, by simp⟩
          rw [hc]; simp [State.cost]
    · cases hs
  · simp only [step] at hs
    split at hs
    · rename_i lo hi k hw
      injection hs with hs; subst hs
      obtain ⟨h1, h2, h3⟩ := cost_after ({ s with log := s.log ++ [.exported lo hi .ok] } : State) k .ok
      have hc : s.cost = 7 * s.queue.length + 2 * s.settling.length + 5 := by simp [State.cost, hw]
      exact ⟨by rw [hc]; exact Nat.lt_of_le_of_lt h1 (by simp), h2, h3⟩
    · cases hs
  · simp only [step] at hs
    split at hs
    · rename_i t r hw
      injection hs with hs; subst hs
      refine ⟨?_, rfl, by simp⟩
      simp only [State.cost, hw, List.length_append, List.length_cons, List.length_nil]; omega
    · cases hs
  · simp only [step] at hs
    split at hs
    · rename_i hw
      injection hs with hs; subst hs
      refine ⟨?_, rfl, by simp [State.drop]⟩
      simp only [State.cost, hw, State.drop, List.length_nil]; omega
    · cases hs

/-- **C79 (answers)** Once the reader is registered no call is left waiting: from every state the task and the callers can finish all of them, without
another tick or call. -/
theorem reader_calls_return (cfg : Cfg) (s : State) (h : Reachable cfg s) (hreg : s.worker ≠ .unspawned) :
    ∃ as s', (∀ a ∈ as, a ∈ [.settle, .recv, .collect, .finish .ok, .stop true, .close]) ∧ runAll cfg s as = some s' ∧ ∀ t < s.nextTok, t ∈ s'.answered := by
  induction hn : s.cost using Nat.strongRecOn generalizing s with
  | ind n ih =>
    by_cases hall : ∀ t < s.nextTok, t ∈ s.answered
    · exact ⟨[], s, by simp, rfl, hall⟩
    · simp only [Classical.not_forall] at hall
      obtain ⟨t, ht, hna⟩ := hall
      obtain ⟨a, s1, ha, hs⟩ := reader_not_stuck cfg s h hreg t ht hna
      obtain ⟨h1, h2, h3⟩ := cost_step cfg s s1 a ha hreg hs
      obtain ⟨as, s', g1, g2, g3⟩ := ih s1.cost (by omega) s1 (h.step hs) h3 rfl
      refine ⟨a :: as, s', ?_, ?_, by rw [← h2]; exact g3⟩
      · intro b hb
        rcases List.mem_cons.1 hb with rfl | hb
        · exact ha
        · exact g1 b hb
      · simp only [runAll, hs]; exact g2

/-- **C79 (shutdown)** The exporter is shut down at most once and nothing is exported after it; when a `shutdown` call has returned the task's answer it
has been shut down. -/
theorem reader_shutdown_last (cfg : Cfg) (s : State) (h : Reachable cfg s) :
    (Running s.log ∨ Closed s.log) ∧ (s.isShutdown = true → Closed s.log) :=
  ⟨(end_reachable h).ended, fun hf => (end_reachable h).closed (.inr (.inr hf))⟩

/-- **C79 (shutdown)** `AlreadyShutdown` is returned only after a `shutdown` call returned. -/
theorem reader_already (cfg : Cfg) (s : State) (h : Reachable cfg s) (t : Nat) (ht : (t, Ret.already) ∈ s.returned) :
    ∃ u r, (u, Ret.result r) ∈ s.returned ∧ s.isShut u = true :=
  (end_reachable h).flag ((end_reachable h).already t ht)

/-- **C79 (shutdown)** After a `shutdown` call has returned the task's answer (the flag is set), a call returns `AlreadyShutdown` at once. -/
theorem reader_after_shutdown (cfg : Cfg) (s : State) (hf : s.isShutdown = true) (b : Bool) :
    (s.call cfg b).returned = s.returned ++ [(s.nextTok, .already)] := by
  unfold State.call
  simp only [hf, if_true]

/-! ### Where it fails -/

def exCfg (delta : Bool) : Cfg := ⟨delta, 257⟩

/-- **C79 (answers), negation.** With a delta exporter: a tick's export fails, the following `force_flush` finds nothing to collect and returns Ok. The
measurement never reached the backend. -/
theorem reader_failure_masked_violated : ∃ s, Reachable (exCfg true) s ∧ s.recorded = 1 ∧ s.returned = [(0, .result .ok)] ∧ s.atCall 0 = 1 ∧
    s.log = [.exported 0 1 .failed] := by
  have h : (runAll (exCfg true) .init [.register, .record, .tick, .collect, .finish .failed, .forceFlush, .recv, .collect]).map
      (fun s => (s.recorded, s.returned, s.atCall 0, s.log)) = some (1, [(0, .result .ok)], 1, [.exported 0 1 .failed]) := by decide +kernel
  obtain ⟨s, hs, he⟩ := Option.map_eq_some_iff.1 h
  simp only [Prod.mk.injEq] at he
  exact ⟨s, reachable_runAll .init _ hs, he⟩

/-- **C79 (shutdown), negation.** The exporter's `shutdown` fails and the reader's returns Ok. -/
theorem reader_exporter_failure_hidden_violated : ∃ s, Reachable (exCfg true) s ∧ s.returned = [(0, .result .ok)] ∧ s.log = [.shutdown false] := by
  have h : (runAll (exCfg true) .init [.register, .shutdown, .recv, .collect, .stop false, .settle]).map
      (fun s => (s.returned, s.log)) = some ([(0, .result .ok)], [.shutdown false]) := by decide +kernel
  obtain ⟨s, hs, he⟩ := Option.map_eq_some_iff.1 h
  simp only [Prod.mk.injEq] at he
  exact ⟨s, reachable_runAll .init _ hs, he⟩

/-- **C79 (shutdown), negation.** Two threads call `shutdown`: the second is told of a failure, not that the reader is shut down already. -/
theorem reader_second_shutdown_violated : ∃ s, Reachable (exCfg true) s ∧ s.returned = [(1, .canceled), (0, .result .ok)] ∧ s.isShut 0 = true ∧ s.isShut 1 = true := by
  have h : (runAll (exCfg true) .init [.register, .shutdown, .shutdown, .recv, .collect, .stop true, .close, .settle]).map
      (fun s => (s.returned, s.isShut 0, s.isShut 1)) = some ([(1, .canceled), (0, .result .ok)], true, true) := by decide +kernel
  obtain ⟨s, hs, he⟩ := Option.map_eq_some_iff.1 h
  simp only [Prod.mk.injEq] at he
  exact ⟨s, reachable_runAll .init _ hs, he⟩

/-- **C79 (answers), negation.** A call on a reader that is not registered with a provider does not return, whatever happens short of registering it: the
task that would answer is not running, and the channel is not closed. -/
theorem reader_unregistered_blocks_violated (cfg : Cfg) (hcap : 0 < cfg.cap) (b : Bool) (as : List Action) (hno : ∀ a ∈ as, a ≠ .register) (s : State)
    (hs : runAll cfg (State.init.call cfg b) as = some s) : 0 < s.nextTok ∧ 0 ∉ s.answered := by
  have inv0 : (State.init.call cfg b).worker = .unspawned ∧ (State.init.call cfg b).queue.map Msg.tok = [0] ∧ (State.init.call cfg b).settling = [] ∧
      0 ∉ (State.init.call cfg b).answered ∧ 0 < (State.init.call cfg b).nextTok ∧ (State.init.call cfg b).isShutdown = false := by
    cases b <;> simp [State.call, State.init, hcap, Msg.tok, State.answered]
  have key : ∀ (as : List Action) (s s' : State), (∀ a ∈ as, a ≠ .register) → s.worker = .unspawned → s.settling = [] → 0 ∉ s.answered → 0 < s.nextTok →
      s.isShutdown = false → runAll cfg s as = some s' → 0 < s'.nextTok ∧ 0 ∉ s'.answered := by
    intro as
    induction as with
    | nil => intro s s' _ _ _ h3 h4 _ hr; injection hr with hr; subst hr; exact ⟨h4, h3⟩
    | cons a as ih =>
      intro s s' hna hw hse h3 h4 hf hr
      simp only [runAll] at hr
      split at hr
      · rename_i s1 h1
        have hna' : ∀ a ∈ as, a ≠ .register := fun a ha => hna a (List.mem_cons_of_mem _ ha)
        have call : ∀ c, (s.call cfg c).worker = .unspawned ∧ (s.call cfg c).settling = [] ∧ 0 ∉ (s.call cfg c).answered ∧ 0 < (s.call cfg c).nextTok ∧
            (s.call cfg c).isShutdown = false := by
          intro c
          unfold State.call
          simp only [hf, hw]
          simp only [Bool.false_eq_true, if_false, reduceCtorEq]
          split
          · exact ⟨rfl, hse, h3, by simp, rfl⟩
          · refine ⟨rfl, hse, ?_, by simp, rfl⟩
            simp only [State.answered, List.map_append, List.mem_append]
            intro h
            rcases h with h | h
            · exact h3 h
            · simp at h; omega
        cases a with
        | register => exact absurd rfl (hna _ List.mem_cons_self)
        | record => simp only [step, Option.some.injEq] at h1; subst h1; exact ih { s with recorded := s.recorded + 1 } s' hna' hw hse h3 h4 hf hr
        | dropPipeline => simp only [step, Option.some.injEq] at h1; subst h1; exact ih { s with alive := false } s' hna' hw hse h3 h4 hf hr
        | forceFlush =>
          simp only [step, Option.some.injEq] at h1; subst h1
          obtain ⟨c1, c2, c3, c4, c5⟩ := call false
          exact ih _ s' hna' c1 c2 c3 c4 c5 hr
        | shutdown =>
          simp only [step, Option.some.injEq] at h1; subst h1
          obtain ⟨c1, c2, c3, c4, c5⟩ := call true
          exact ih _ s' hna' c1 c2 c3 c4 c5 hr
        | settle => simp [step, hse] at h1
        | recv => simp [step, hw] at h1
        | tick => simp [step, hw] at h1
        | collect => simp [step, hw] at h1
        | finish r => simp [step, hw] at h1
        | stop ok => simp [step, hw] at h1
        | close => simp [step, hw] at h1
        | die => simp [step, hw] at h1
      · cases hr
  exact key as _ s hno inv0.1 inv0.2.2.1 inv0.2.2.2.1 inv0.2.2.2.2.1 inv0.2.2.2.2.2 hs

/-- Non-vacuity: a delta reader with two measurements, one exported by a tick and one by a flush, and a shutdown. -/
example : (runAll (exCfg true) .init [.register, .record, .tick, .collect, .finish .ok, .record, .forceFlush, .recv, .collect, .finish .ok, .shutdown, .recv,
      .collect, .stop true, .settle, .close, .forceFlush]).map (fun s => (s.log, s.returned)) =
    some ([.exported 0 1 .ok, .exported 1 2 .ok, .shutdown true], [(0, .result .ok), (1, .result .ok), (2, .already)]) := by decide +kernel

end Otel.AsyncReader
