import Verif.Async.BatchResults
/-!
# C117: an async batch processor that is let go without a shutdown

The task reads `stream::select(message_receiver, ticker)` (spans:362, logs:139). When the last sender is dropped the receiver ends but the ticker does
not, so the merged stream never does (spans:337, logs:140; `to_interval_stream` never ends: opentelemetry-sdk/src/runtime.rs:45-58). The model of
`Async/Batch.lean` therefore needs no new step: dropping the processor means that the steps of callers stop and those of the task go on.
-/

namespace Otel.Async

variable {X R : Type}

/-! ### Specification -/

/-- The task's own steps. -/
def Action.own : Action X → Bool
  | .recv | .tick | .finish _ | .stop | .close => true
  | _ => false

/-- Nobody asked for a shutdown that is still to be carried out, and none has been. -/
structure Abandoned (s : State X R) : Prop where
  queue : ∀ t, Msg.shutdown t ∉ s.queue
  worker : s.worker = .idle ∨ ∃ k, s.worker = .exporting k ∧ ∀ t, k ≠ .shut t

/-- Nothing is left to do. -/
structure Drained (s : State X R) : Prop where
  idle : s.worker = .idle
  queue : s.queue = []
  buf : s.buf = []

/-- An upper bound on the work left. -/
def State.work (s : State X R) : Nat :=
  4 * s.queue.length + 2 * s.buf.length + (if s.worker = .idle then 0 else 1)

/-! ### Steps -/

theorem abandoned_after {cfg : Cfg} {s : State X R} {k : Cont} (hk : ∀ t, k ≠ .shut t) (r : Res) (own : Option Nat) :
    (s.after cfg k r own).worker = .idle ∧ (s.after cfg k r own).queue = s.queue ∧ (s.after cfg k r own).buf = s.buf
      ∧ (s.after cfg k r own).exporterShutdowns = s.exporterShutdowns ∧ (s.after cfg k r own).accepted = s.accepted := by
  cases k with
  | loop => exact ⟨rfl, rfl, rfl, rfl, rfl⟩
  | flush t => exact ⟨rfl, rfl, rfl, rfl, rfl⟩
  | shut t => exact absurd rfl (hk t)

theorem abandoned_export {cfg : Cfg} {s : State X R} {k : Cont} (hk : ∀ t, k ≠ .shut t) (hq : ∀ t, Msg.shutdown t ∉ s.queue)
    (hw : s.worker = .idle) : Abandoned (s.export cfg k) ∧ (s.export cfg k).exporterShutdowns = s.exporterShutdowns
      ∧ (s.export cfg k).accepted = s.accepted
      ∧ (s.export cfg k).work + (if s.buf = [] then 0 else 1) ≤ s.work := by
  unfold State.export
  cases hb : s.buf with
  | nil =>
    obtain ⟨h1, h2, h3, h4, h5⟩ := abandoned_after (cfg := cfg) (s := s) hk .ok none
    simp only [List.isEmpty_nil, if_true]
    refine ⟨⟨by rw [h2]; exact hq, Or.inl h1⟩, h4, h5, ?_⟩
    simp [State.work, h1, h2, h3, hb]
  | cons x b =>
    simp only [List.isEmpty_cons, Bool.false_eq_true, if_false]
    refine ⟨⟨hq, Or.inr ⟨k, rfl, hk⟩⟩, trivial, trivial, ?_⟩
    simp [State.work, hw, hb]; omega

/-- The measure of one step of the task: everything but a tick with nothing to export is work. -/
theorem abandoned_step {cfg : Cfg} {sampled : X → Bool} {s s' : State X R} {a : Action X} (h : Abandoned s) (ha : a.own = true)
    (hs : step cfg sampled s a = some s') :
    Abandoned s' ∧ s'.exporterShutdowns = s.exporterShutdowns ∧ s'.accepted = s.accepted ∧ s'.work + works [a] ≤ s.work := by
  cases a with
  | emit x => cases ha
  | count => cases ha
  | forceFlush => cases ha
  | shutdown => cases ha
  | die => cases ha
  | recv =>
    simp only [step] at hs
    split at hs
    · rename_i m q hw hq
      injection hs with hs; subst hs
      have hq' : ∀ t, Msg.shutdown t ∉ q := fun t ht => h.queue t (by rw [hq]; exact List.mem_cons_of_mem _ ht)
      cases m with
      | item x =>
        simp only [State.process]
        split
        · obtain ⟨h1, h2, h2', h3⟩ := abandoned_export (cfg := cfg) (s := ({ s with queue := q, buf := s.buf ++ [x] } : State X R)) (k := .loop)
            (fun _ e => by cases e) hq' hw
          refine ⟨h1, h2, h2', ?_⟩
          simp only [State.work, hw, hq, works, List.length_append, List.length_cons, List.length_nil, if_true] at h3 ⊢
          omega
        · refine ⟨⟨hq', Or.inl hw⟩, rfl, rfl, ?_⟩
          simp only [State.work, hw, hq, works, List.length_append, List.length_cons, List.length_nil, if_true]
          omega
      | flush t =>
        obtain ⟨h1, h2, h2', h3⟩ := abandoned_export (cfg := cfg) (s := ({ s with queue := q } : State X R)) (k := .flush t)
          (fun _ e => by cases e) hq' hw
        refine ⟨h1, h2, h2', ?_⟩
        simp only [State.process, State.work, hw, hq, works, List.length_cons, if_true] at h3 ⊢
        omega
      | shutdown t => exact absurd (by rw [hq]; exact List.mem_cons_self) (h.queue t)
      | setResource r =>
        refine ⟨⟨hq', Or.inl hw⟩, rfl, rfl, ?_⟩
        simp only [State.process, State.work, hw, hq, works, List.length_cons, if_true]
        omega
    · cases hs
  | tick =>
    simp only [step] at hs
    split at hs
    · rename_i hw
      injection hs with hs; subst hs
      obtain ⟨h1, h2, h2', h3⟩ := abandoned_export (cfg := cfg) (s := s) (k := .loop) (fun _ e => by cases e) h.queue hw
      exact ⟨h1, h2, h2', by simp only [works]; omega⟩
    · cases hs
  | finish r =>
    simp only [step] at hs
    split at hs
    · rename_i k hw
      injection hs with hs; subst hs
      have hk : ∀ t, k ≠ .shut t := by
        rcases h.worker with h0 | ⟨k', h0, h1⟩
        · rw [h0] at hw; cases hw
        · rw [h0] at hw; injection hw with hw; subst hw; exact h1
      obtain ⟨h1, h2, h3, h4, h5⟩ := abandoned_after (cfg := cfg) (s := ({ s with outcomes := s.outcomes ++ [r] } : State X R)) hk r (some s.outcomes.length)
      refine ⟨⟨by rw [h2]; exact h.queue, Or.inl h1⟩, h4, h5, ?_⟩
      simp only [State.work, works]
      rw [h1, h2, h3, hw]
      simp
    · cases hs
  | stop =>
    rcases h.worker with h0 | ⟨k', h0, _⟩ <;> simp [step, h0] at hs
  | close =>
    rcases h.worker with h0 | ⟨k', h0, _⟩ <;> simp [step, h0] at hs

/-! ### Results -/

/-- **C117, false as it stands** A processor that is let go without a shutdown is never cleaned up: however the task goes on, the exporter is never told
to shut down, the task is not finished, and it can always go on. -/
theorem abandoned_never_stops_violated {cfg : Cfg} {sampled : X → Bool} {s s' : State X R} {as : List (Action X)} (h : Abandoned s)
    (ho : ∀ a ∈ as, a.own = true) (hr : runAll cfg sampled s as = some s') :
    s'.exporterShutdowns = s.exporterShutdowns ∧ s'.worker ≠ .done ∧ (∃ a s'', a.own = true ∧ step cfg sampled s' a = some s'') := by
  induction as generalizing s with
  | nil =>
    injection hr with hr; subst hr
    rcases h.worker with h0 | ⟨k, h0, _⟩
    · exact ⟨rfl, by rw [h0]; simp, .tick, s.export cfg .loop, rfl, by simp only [step, h0]⟩
    · refine ⟨rfl, by rw [h0]; simp, .finish .ok, ({ s with outcomes := s.outcomes ++ [.ok] } : State X R).after cfg k .ok (some s.outcomes.length), rfl, ?_⟩
      simp only [step]; split
      · rename_i k' hk'; rw [h0] at hk'; injection hk' with hk'; subst hk'; rfl
      · rename_i hn; exact absurd h0 (hn k)
  | cons a as ih =>
    simp only [runAll] at hr
    split at hr
    · rename_i s1 hs1
      obtain ⟨h1, h2, _, _⟩ := abandoned_step h (ho a List.mem_cons_self) hs1
      rw [← h2]
      exact ih h1 (fun b hb => ho b (List.mem_cons_of_mem _ hb)) hr
    · cases hr

/-- The state stays abandoned; what was accepted stays accepted; the steps of the task other than ticks are bounded. -/
theorem abandoned_run {cfg : Cfg} {sampled : X → Bool} {s s' : State X R} {as : List (Action X)} (h : Abandoned s)
    (ho : ∀ a ∈ as, a.own = true) (hr : runAll cfg sampled s as = some s') :
    Abandoned s' ∧ s'.accepted = s.accepted ∧ s'.work + works as ≤ s.work := by
  induction as generalizing s with
  | nil => injection hr with hr; subst hr; exact ⟨h, rfl, by simp [works]⟩
  | cons a as ih =>
    simp only [runAll] at hr
    split at hr
    · rename_i s1 hs1
      obtain ⟨h1, _, h2, h3⟩ := abandoned_step h (ho a List.mem_cons_self) hs1
      obtain ⟨g1, g2, g3⟩ := ih h1 (fun b hb => ho b (List.mem_cons_of_mem _ hb)) hr
      refine ⟨g1, g2.trans h2, ?_⟩
      rw [works_cons]; omega
    · cases hr

/-- From an abandoned state the task can finish its work: there is a schedule of at most `work` steps. -/
theorem abandoned_can_drain {cfg : Cfg} {sampled : X → Bool} (s : State X R) (h : Abandoned s) :
    ∃ as s', (∀ a ∈ as, a.own = true) ∧ as.length ≤ s.work ∧ runAll cfg sampled s as = some s' ∧ Drained s' := by
  generalize hn : s.work = n
  induction n using Nat.strongRecOn generalizing s with
  | ind n ih =>
    have go : ∀ a s1, a.own = true → step cfg sampled s a = some s1 → s1.work < s.work →
        ∃ as s', (∀ a ∈ as, a.own = true) ∧ as.length ≤ n ∧ runAll cfg sampled s as = some s' ∧ Drained s' := by
      intro a s1 ha hs hlt
      obtain ⟨as, s', h1, h2, h3, h4⟩ := ih s1.work (hn ▸ hlt) s1 (abandoned_step h ha hs).1 rfl
      refine ⟨a :: as, s', ?_, ?_, ?_, h4⟩
      · intro b hb
        rcases List.mem_cons.1 hb with rfl | hb
        · exact ha
        · exact h1 b hb
      · simp only [List.length_cons]; omega
      · simp only [runAll, hs]; exact h3
    rcases h.worker with hw | ⟨k, hw, _⟩
    · cases hq : s.queue with
      | cons m q =>
        have hs : step cfg sampled s .recv = some (({ s with queue := q } : State X R).process cfg m) := by simp only [step, hw, hq]
        have := (abandoned_step (a := .recv) h rfl hs).2.2.2
        exact go .recv _ rfl hs (by simp only [works] at this; omega)
      | nil =>
        cases hb : s.buf with
        | nil => exact ⟨[], s, by simp, by simp, rfl, hw, hq, hb⟩
        | cons x b =>
          have hs : step cfg sampled s .tick = some (s.export cfg .loop) := by simp only [step, hw]
          have := (abandoned_export (cfg := cfg) (s := s) (k := .loop) (fun _ e => by cases e) h.queue hw).2.2.2
          simp only [hb, reduceCtorEq, if_false] at this
          exact go .tick _ rfl hs (by omega)
    · obtain ⟨s1, hs⟩ : ∃ s1, step cfg sampled s (.finish .ok) = some s1 := ⟨({ s with outcomes := s.outcomes ++ [.ok] } : State X R).after cfg k .ok (some s.outcomes.length), by
        simp only [step]; split
        · rename_i k' hk'; rw [hw] at hk'; injection hk' with hk'; subst hk'; rfl
        · rename_i hn; exact absurd hw (hn k)⟩
      have := (abandoned_step (a := .finish .ok) h rfl hs).2.2.2
      exact go (.finish .ok) s1 rfl hs (by simp only [works] at this; omega)

/-- **C117 (partial)** What a processor accepted is not lost when it is let go without a shutdown, as long as the runtime goes on. However the task has
gone on since: nothing accepted is missing from what was exported and what it holds; the steps it still took, ticks apart, are bounded by the work
there was; and within the work left, all of it can be handed to the exporter, in order. Missing: the exporter's shutdown, see
`abandoned_never_stops_violated`. -/
theorem abandoned_delivers_partial {cfg : Cfg} {sampled : X → Bool} {r : R} {s s' : State X R} {as : List (Action X)} (hr : Reachable cfg sampled r s)
    (h : Abandoned s) (ho : ∀ a ∈ as, a.own = true) (hs : runAll cfg sampled s as = some s') :
    s.accepted = s'.delivered ++ s'.buf ++ items s'.queue ∧ works as ≤ s.work ∧ (Drained s' → s'.delivered = s.accepted)
      ∧ ∃ more s'', (∀ a ∈ more, a.own = true) ∧ more.length ≤ s'.work ∧ runAll cfg sampled s' more = some s'' ∧ Drained s''
        ∧ s''.delivered = s.accepted := by
  obtain ⟨h1, h2, h3⟩ := abandoned_run h ho hs
  have alive : ∀ {s : State X R}, Abandoned s → s.worker ≠ .done := by
    intro s h
    rcases h.worker with h0 | ⟨k, h0, _⟩ <;> rw [h0] <;> simp
  have acct : s.accepted = s'.delivered ++ s'.buf ++ items s'.queue := by
    rw [← h2]; exact (async_order (reachable_runAll hr hs)).2 (alive h1)
  refine ⟨acct, by omega, fun hd => by rw [acct, hd.buf, hd.queue]; simp [items], ?_⟩
  obtain ⟨more, s'', g1, g2, g3, g4⟩ := abandoned_can_drain (cfg := cfg) (sampled := sampled) s' h1
  refine ⟨more, s'', g1, g2, g3, g4, ?_⟩
  obtain ⟨k1, k2, _⟩ := abandoned_run h1 g1 g3
  have := (async_order (reachable_runAll (reachable_runAll hr hs) g3)).2 (alive k1)
  rw [g4.buf, g4.queue] at this
  simp only [items, List.append_nil] at this
  rw [← this, k2, h2]

/-- A tick exports everything that is held: an abandoned processor needs no more than the next tick once its channel is empty. -/
theorem abandoned_tick {cfg : Cfg} {sampled : X → Bool} {r : R} {s s' : State X R} (hr : Reachable cfg sampled r s) (h : Abandoned s)
    (hq : s.queue = []) (hs : step cfg sampled s .tick = some s') : s'.delivered = s.accepted := by
  have h1 := async_tick_exports hs
  have hw : s.worker = .idle := by
    rcases h.worker with h0 | ⟨k, h0, _⟩
    · exact h0
    · simp [step, h0] at hs
  have h2 := (async_order hr).2 (by rw [hw]; simp)
  rw [hq] at h2
  simp only [items, List.append_nil] at h2
  rw [h2]
  simp only [step, hw, Option.some.injEq] at hs
  subst hs
  unfold State.export
  cases hb : s.buf with
  | nil => simp [State.after, State.delivered]
  | cons x b => simp [State.delivered]

/-- **C117, false as it stands** Dropping a provider does not make up for it: its `shutdown` is refused when the channel is full, and the state is then
abandoned. Here with room for one message, which the item has taken. -/
theorem drop_with_full_queue_violated : ∃ s : State Nat Unit, Reachable ⟨.span, 1, 5⟩ (fun _ => true) () s
    ∧ s.returned.map (fun a => (a.tok, a.ret)) = [(0, .full)] ∧ s.isShutdown 0 = true ∧ s.accepted = [7] ∧ Abandoned s := by
  have h : ∃ s, runAll ⟨.span, 1, 5⟩ (fun _ => true) (.init () : State Nat Unit) [.recv, .emit 7, .shutdown] = some s
      ∧ s.returned.map (fun a => (a.tok, a.ret)) = [(0, .full)] ∧ s.isShutdown 0 = true ∧ s.accepted = [7] ∧ s.queue = [.item 7] ∧ s.worker = .idle :=
    ⟨_, rfl, rfl, rfl, rfl, rfl, rfl⟩
  obtain ⟨s, h1, h2, h3, h4, h5, h6⟩ := h
  exact ⟨s, reachable_runAll .init h1, h2, h3, h4, ⟨by rw [h5]; simp, Or.inl h6⟩⟩

/-- The premises of `abandoned_delivers_partial` are met: two spans accepted, one taken out of the channel. -/
example : ∃ s : State Nat Unit, Reachable ⟨.log, 8, 5⟩ (fun _ => true) () s ∧ Abandoned s ∧ s.accepted = [1, 2] ∧ s.delivered = [] := by
  have h : ∃ s, runAll ⟨.log, 8, 5⟩ (fun _ => true) (.init () : State Nat Unit) [.recv, .emit 1, .emit 2, .recv] = some s
      ∧ s.accepted = [1, 2] ∧ s.queue = [.item 2] ∧ s.worker = .idle ∧ s.delivered = [] := ⟨_, rfl, rfl, rfl, rfl, rfl⟩
  obtain ⟨s, h1, h2, h3, h4, h5⟩ := h
  exact ⟨s, reachable_runAll .init h1, ⟨by rw [h3]; simp, Or.inl h4⟩, h2, h5⟩

end Otel.Async
