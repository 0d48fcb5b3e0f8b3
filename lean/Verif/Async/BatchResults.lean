import Verif.Async.BatchProps
/-!
# The theorems on the batch processors on an async runtime (C76, C77)
-/

namespace Otel.Async

variable {X R : Type}

/-! ### Specification -/

/-- The items a schedule gives to the processor. -/
def emits : List (Action X) → List X
  | [] => []
  | .emit x :: as => x :: emits as
  | _ :: as => emits as

/-- Steps of the task other than ticks. -/
def works : List (Action X) → Nat
  | [] => 0
  | .recv :: as => works as + 1
  | .finish _ :: as => works as + 1
  | .stop :: as => works as + 1
  | .close :: as => works as + 1
  | _ :: as => works as

/-- Ticks of the timer. -/
def ticks : List (Action X) → Nat
  | [] => 0
  | .tick :: as => ticks as + 1
  | _ :: as => ticks as

theorem reachable_runAll {cfg : Cfg} {sampled : X → Bool} {r : R} {s s' : State X R} {as : List (Action X)} (h : Reachable cfg sampled r s)
    (hs : runAll cfg sampled s as = some s') : Reachable cfg sampled r s' := by
  induction as generalizing s with
  | nil => injection hs with hs; subst hs; exact h
  | cons a as ih =>
    simp only [runAll] at hs
    split at hs
    · exact ih (h.step ‹_›) hs
    · cases hs

/-! ### C76: items -/

/-- **C76.** The exporter receives a prefix of the accepted items, in order, each once; while the task runs nothing else is missing but what the buffer
and the channel hold. -/
theorem async_order {cfg : Cfg} {sampled : X → Bool} {r : R} {s : State X R} (h : Reachable cfg sampled r s) :
    s.delivered <+: s.accepted ∧ (s.worker ≠ .done → s.accepted = s.delivered ++ s.buf ++ items s.queue) := by
  have hi := inv_reachable h
  refine ⟨⟨s.buf ++ items s.queue ++ s.lost, by rw [hi.acct]; simp⟩, fun hd => ?_⟩
  have := hi.acct
  rw [hi.alive hd, List.append_nil] at this
  exact this

theorem queue_bound {cfg : Cfg} {sampled : X → Bool} {r : R} {s : State X R} (h0 : 1 ≤ cfg.maxQueue) (h : Reachable cfg sampled r s) :
    s.queue.length ≤ cfg.maxQueue := by
  have after : ∀ (s : State X R) k r own, (s.after cfg k r own).queue = s.queue := by
    intro s k r own; unfold State.after; split; rfl; rfl; split <;> rfl
  have exp : ∀ (s : State X R) k, (s.export cfg k).queue = s.queue := by
    intro s k; unfold State.export; split
    · exact after _ _ _ _
    · rfl
  have call : ∀ (s : State X R) b, s.queue.length ≤ cfg.maxQueue → (s.call cfg b).queue.length ≤ cfg.maxQueue := by
    intro s b ih
    simp only [State.call]
    split
    · rename_i hr; have := (refuse_none hr).2; simp only at this ⊢; simp only [List.length_append, List.length_singleton]; omega
    · exact ih
  induction h with
  | init => exact h0
  | @step s s' a _ hs ih =>
    cases a with
    | emit x =>
      simp only [step, Option.some.injEq] at hs; subst hs
      unfold State.emit
      split
      · exact ih
      · split
        · rename_i hr; have := (refuse_none hr).2; simp only [List.length_append, List.length_singleton]; omega
        · exact ih
    | count => simp only [step] at hs; split at hs <;> cases hs; exact ih
    | forceFlush => simp only [step, Option.some.injEq] at hs; subst hs; exact call s _ ih
    | shutdown => simp only [step, Option.some.injEq] at hs; subst hs; exact call s _ ih
    | recv =>
      simp only [step] at hs
      split at hs
      case h_2 => cases hs
      rename_i m q hw hq
      injection hs with hs; subst hs
      rw [hq, List.length_cons] at ih
      have : (State.process cfg { s with queue := q } m).queue = q := by
        cases m <;> simp only [State.process]
        · split
          · exact exp _ _
          · rfl
        · exact exp _ _
        · exact exp _ _
      rw [this]; omega
    | tick => simp only [step] at hs; split at hs <;> cases hs; rw [exp]; exact ih
    | finish r => simp only [step] at hs; split at hs <;> cases hs; rw [after]; exact ih
    | stop => simp only [step] at hs; split at hs <;> cases hs <;> exact ih
    | close => simp only [step] at hs; split at hs <;> cases hs; exact Nat.zero_le _
    | die => simp only [step] at hs; split at hs <;> cases hs; exact Nat.zero_le _

/-- **C76.** At most `maxQueue` messages and a batch less one wait in memory. -/
theorem async_held_bound {cfg : Cfg} {sampled : X → Bool} {r : R} {s : State X R} (h0 : 1 ≤ cfg.maxQueue) (h1 : 1 ≤ cfg.maxBatch)
    (h : Reachable cfg sampled r s) : s.queue.length ≤ cfg.maxQueue ∧ s.buf.length ≤ cfg.maxBatch - 1 := by
  have := (inv_reachable h).room h1
  exact ⟨queue_bound h0 h, by omega⟩

/-- **C76.** No export is empty or larger than the configured batch size (a positive number). -/
theorem async_batch_size {cfg : Cfg} {sampled : X → Bool} {r : R} {s : State X R} (h0 : 0 < cfg.maxBatch) (h : Reachable cfg sampled r s)
    (b : List X × Option R) (hb : b ∈ s.exported) : b.1 ≠ [] ∧ b.1.length ≤ cfg.maxBatch :=
  ⟨((inv_reachable h).full b hb).1, ((inv_reachable h).full b hb).2 h0⟩

/-- **C76.** Exports do not overlap: one is begun only when all before it have ended, whatever `max_concurrent_exports` says. -/
theorem async_no_overlap {cfg : Cfg} {sampled : X → Bool} {r : R} {s s' : State X R} {a : Action X} (h : Reachable cfg sampled r s)
    (hs : step cfg sampled s a = some s') (hn : s'.exported ≠ s.exported) :
    s.outcomes.length = s.exported.length ∧ ∃ b, s'.exported = s.exported ++ [b] := by
  have hi := inv_reachable h
  have after : ∀ (s : State X R) k r own, (s.after cfg k r own).exported = s.exported := by
    intro s k r own; unfold State.after; split; rfl; rfl; split <;> rfl
  have exp : ∀ (s : State X R) k, (s.export cfg k).exported = s.exported ∨ ∃ b, (s.export cfg k).exported = s.exported ++ [b] := by
    intro s k; unfold State.export; split
    · exact .inl (after _ _ _ _)
    · exact .inr ⟨_, rfl⟩
  cases a with
  | emit x =>
    simp only [step, Option.some.injEq] at hs; subst hs
    unfold State.emit at hn
    split at hn
    · exact absurd rfl hn
    · split at hn <;> exact absurd rfl hn
  | count => simp only [step] at hs; split at hs <;> cases hs; exact absurd rfl hn
  | forceFlush =>
    simp only [step, Option.some.injEq] at hs; subst hs; simp only [State.call] at hn; split at hn <;> exact absurd rfl hn
  | shutdown =>
    simp only [step, Option.some.injEq] at hs; subst hs; simp only [State.call] at hn; split at hn <;> exact absurd rfl hn
  | recv =>
    simp only [step] at hs
    split at hs
    case h_2 => cases hs
    rename_i m q hw hq
    injection hs with hs; subst hs
    refine ⟨(hi.outcI (by simp [hw]) (by simp [hw])).symm, ?_⟩
    cases m with
    | item x =>
      simp only [State.process] at hn ⊢
      split at hn
      · rename_i hf; rw [if_pos hf]; exact (exp _ _).resolve_left hn
      · exact absurd rfl hn
    | flush t => exact (exp { s with queue := q } (.flush t)).resolve_left hn
    | shutdown t => exact (exp { s with queue := q } (.shut t)).resolve_left hn
    | setResource r => exact absurd rfl hn
  | tick =>
    simp only [step] at hs
    split at hs
    case h_2 => cases hs
    rename_i hw
    injection hs with hs; subst hs
    exact ⟨(hi.outcI (by simp [hw]) (by simp [hw])).symm, (exp _ _).resolve_left hn⟩
  | finish r => simp only [step] at hs; split at hs <;> cases hs; exact absurd (after _ _ _ _) hn
  | stop => simp only [step] at hs; split at hs <;> cases hs <;> exact absurd rfl hn
  | close => simp only [step] at hs; split at hs <;> cases hs; exact absurd rfl hn
  | die => simp only [step] at hs; split at hs <;> cases hs; exact absurd rfl hn

theorem emits_step {cfg : Cfg} {sampled : X → Bool} {s s' : State X R} {a : Action X} (hs : step cfg sampled s a = some s') :
    (s'.accepted ++ s'.refused ++ s'.unsampled).Perm (s.accepted ++ s.refused ++ s.unsampled ++ emits [a]) := by
  have after : ∀ (s : State X R) k r own, (s.after cfg k r own).accepted = s.accepted ∧ (s.after cfg k r own).refused = s.refused ∧
      (s.after cfg k r own).unsampled = s.unsampled := by
    intro s k r own; unfold State.after; split; exact ⟨rfl, rfl, rfl⟩; exact ⟨rfl, rfl, rfl⟩; split <;> exact ⟨rfl, rfl, rfl⟩
  have exp : ∀ (s : State X R) k, (s.export cfg k).accepted = s.accepted ∧ (s.export cfg k).refused = s.refused ∧
      (s.export cfg k).unsampled = s.unsampled := by
    intro s k; unfold State.export; split
    · exact after _ _ _ _
    · exact ⟨rfl, rfl, rfl⟩
  have same : s'.accepted = s.accepted ∧ s'.refused = s.refused ∧ s'.unsampled = s.unsampled → emits [a] = [] →
      (s'.accepted ++ s'.refused ++ s'.unsampled).Perm (s.accepted ++ s.refused ++ s.unsampled ++ emits [a]) := by
    rintro ⟨h1, h2, h3⟩ h4; rw [h1, h2, h3, h4, List.append_nil]
  cases a with
  | emit x =>
    simp only [step, Option.some.injEq] at hs; subst hs
    unfold State.emit
    simp only [emits]
    split
    · simp
    · split
      · simp only [List.append_assoc]
        refine List.Perm.append_left _ ?_
        rw [← List.append_assoc s.refused]
        exact List.perm_append_comm
      · simp only [List.append_assoc]
        refine List.Perm.append_left _ (List.Perm.append_left _ ?_)
        exact List.perm_append_comm
  | count => simp only [step] at hs; split at hs <;> cases hs; exact same ⟨rfl, rfl, rfl⟩ rfl
  | forceFlush =>
    simp only [step, Option.some.injEq] at hs; subst hs; simp only [State.call] at same ⊢; split at same <;> rename_i hr <;> simp only [hr] <;> exact same ⟨rfl, rfl, rfl⟩ rfl
  | shutdown =>
    simp only [step, Option.some.injEq] at hs; subst hs; simp only [State.call] at same ⊢; split at same <;> rename_i hr <;> simp only [hr] <;> exact same ⟨rfl, rfl, rfl⟩ rfl
  | recv =>
    simp only [step] at hs
    split at hs
    case h_2 => cases hs
    rename_i m q hw hq
    injection hs with hs; subst hs
    refine same ?_ rfl
    cases m with
    | item x =>
      simp only [State.process]
      split
      · exact exp _ _
      · exact ⟨rfl, rfl, rfl⟩
    | flush t => exact exp _ _
    | shutdown t => exact exp _ _
    | setResource r => exact ⟨rfl, rfl, rfl⟩
  | tick => simp only [step] at hs; split at hs <;> cases hs; exact same (exp _ _) rfl
  | finish r => simp only [step] at hs; split at hs <;> cases hs; exact same (after _ _ _ _) rfl
  | stop => simp only [step] at hs; split at hs <;> cases hs <;> exact same ⟨rfl, rfl, rfl⟩ rfl
  | close => simp only [step] at hs; split at hs <;> cases hs; exact same ⟨rfl, rfl, rfl⟩ rfl
  | die => simp only [step] at hs; split at hs <;> cases hs; exact same ⟨rfl, rfl, rfl⟩ rfl

theorem emits_cons (a : Action X) (as : List (Action X)) : emits (a :: as) = emits [a] ++ emits as := by cases a <;> rfl

theorem emits_run {cfg : Cfg} {sampled : X → Bool} {s s' : State X R} {as : List (Action X)} (hs : runAll cfg sampled s as = some s') :
    (s'.accepted ++ s'.refused ++ s'.unsampled).Perm (s.accepted ++ s.refused ++ s.unsampled ++ emits as) := by
  induction as generalizing s with
  | nil => injection hs with hs; subst hs; simp [emits]
  | cons a as ih =>
    simp only [runAll] at hs
    split at hs
    · rename_i s1 h1
      refine (ih hs).trans ?_
      rw [emits_cons, ← List.append_assoc]
      exact (emits_step h1).append_right _
    · cases hs

/-- **C76.** Every item given to the processor was accepted, refused or is a span that is not sampled; the refused ones are counted, up to those
whose thread has not yet come to the counter. -/
theorem async_drops_counted {cfg : Cfg} {sampled : X → Bool} {r : R} {s : State X R} {as : List (Action X)}
    (hs : runAll cfg sampled (.init r) as = some s) :
    (s.accepted ++ s.refused ++ s.unsampled).Perm (emits as) ∧ s.dropped + s.counting = s.refused.length :=
  ⟨by simpa [State.init] using emits_run hs, (inv_reachable (reachable_runAll .init hs)).cnt⟩

/-- **C76.** An item (for spans: a sampled one) is accepted if the task runs and the channel has room, and refused otherwise. -/
theorem async_accepts_iff {cfg : Cfg} {sampled : X → Bool} {s s' : State X R} {x : X} (hx : cfg.kind = .span → sampled x = true)
    (hs : step cfg sampled s (.emit x) = some s') :
    if s.worker ≠ .done ∧ s.queue.length < cfg.maxQueue then s'.accepted = s.accepted ++ [x] ∧ s'.refused = s.refused
    else s'.accepted = s.accepted ∧ s'.refused = s.refused ++ [x] := by
  simp only [step, Option.some.injEq] at hs
  subst hs
  have hx' : ¬ (cfg.kind = .span ∧ sampled x = false) := by
    rintro ⟨h1, h2⟩
    rw [hx h1] at h2; cases h2
  unfold State.emit
  rw [if_neg hx']
  unfold State.refuse
  by_cases h1 : s.worker = .done
  · rw [if_pos h1, if_neg (by simp [h1])]; exact ⟨rfl, rfl⟩
  · by_cases h2 : s.queue.length < cfg.maxQueue
    · rw [if_neg h1, if_pos h2, if_pos ⟨h1, h2⟩]; exact ⟨rfl, rfl⟩
    · rw [if_neg h1, if_neg h2, if_neg (by simp [h2])]; exact ⟨rfl, rfl⟩

/-- **C76.** A tick hands over everything in the buffer. -/
theorem async_tick_exports {cfg : Cfg} {sampled : X → Bool} {s s' : State X R} (hs : step cfg sampled s .tick = some s') :
    s'.delivered = s.delivered ++ s.buf ∧ s'.buf = [] := by
  simp only [step] at hs
  split at hs
  case h_2 => cases hs
  injection hs with hs; subst hs
  unfold State.export
  split
  · rename_i hb
    simp only [List.isEmpty_iff] at hb
    simp [State.after, State.delivered, hb]
  · simp [State.delivered]

/-- The resource: it is in place before the first export. -/
def ResInv (r : R) (s : State X R) : Prop :=
  (∀ b ∈ s.exported, b.2 = some r) ∧
    (s.worker = .done ∨ (s.resource = some r ∧ ∀ r', Msg.setResource r' ∉ s.queue) ∨
      (s.worker = .idle ∧ s.resource = none ∧ s.buf = [] ∧ ∃ q, s.queue = .setResource r :: q ∧ ∀ r', Msg.setResource r' ∉ q))

theorem resInv_reachable {cfg : Cfg} {sampled : X → Bool} {r : R} {s : State X R} (h : Reachable cfg sampled r s) : ResInv r s := by
  have after : ∀ (s : State X R) k o own, (s.after cfg k o own).exported = s.exported ∧ (s.after cfg k o own).resource = s.resource ∧
      (s.after cfg k o own).queue = s.queue := by
    intro s k r own; unfold State.after; split; exact ⟨rfl, rfl, rfl⟩; exact ⟨rfl, rfl, rfl⟩; split <;> exact ⟨rfl, rfl, rfl⟩
  have exp : ∀ (s : State X R) k, (∀ b ∈ s.exported, b.2 = some r) → s.resource = some r → (∀ r', Msg.setResource r' ∉ s.queue) →
      ResInv r (s.export cfg k) := by
    intro s k h1 h2 h3; unfold State.export; split
    · obtain ⟨e1, e2, e3⟩ := after s k .ok none
      exact ⟨by rw [e1]; exact h1, .inr (.inl ⟨by rw [e2]; exact h2, by rw [e3]; exact h3⟩)⟩
    · refine ⟨?_, .inr (.inl ⟨h2, h3⟩)⟩
      intro b hb
      simp only [List.mem_append, List.mem_singleton] at hb
      rcases hb with hb | hb
      · exact h1 b hb
      · subst hb; exact h2
  have push : ∀ (s s' : State X R) m, (∀ r', m ≠ Msg.setResource r') → ResInv r s → s.worker ≠ .done → s'.exported = s.exported → s'.worker = s.worker →
      s'.resource = s.resource → s'.buf = s.buf → s'.queue = s.queue ++ [m] → ResInv r s' := by
    intro s s' m hm hr hd e1 e2 e3 e4 e5
    refine ⟨by rw [e1]; exact hr.1, ?_⟩
    rcases hr.2 with h | ⟨h, h'⟩ | ⟨h1, h2, h3, q, h4, h5⟩
    · exact absurd h hd
    · refine .inr (.inl ⟨by rw [e3]; exact h, fun r' => ?_⟩)
      rw [e5]
      simp only [List.mem_append, List.mem_singleton, not_or]
      exact ⟨h' r', fun h => hm r' h.symm⟩
    · refine .inr (.inr ⟨by rw [e2]; exact h1, by rw [e3]; exact h2, by rw [e4]; exact h3, q ++ [m], by rw [e5, h4]; rfl, fun r' => ?_⟩)
      simp only [List.mem_append, List.mem_singleton, not_or]
      exact ⟨h5 r', fun h => hm r' h.symm⟩
  have call : ∀ (s : State X R) b, ResInv r s → ResInv r (s.call cfg b) := by
    intro s b ih
    simp only [State.call]
    split
    · rename_i hr
      refine push s _ (if b then .shutdown s.nextTok else .flush s.nextTok) (fun r' => ?_) ih (refuse_none hr).1 rfl rfl rfl rfl rfl
      cases b <;> simp
    · exact ih
  induction h with
  | init => exact ⟨fun b hb => (by cases hb), .inr (.inr ⟨rfl, rfl, rfl, [], rfl, fun _ h => (by cases h)⟩)⟩
  | @step s s' a h0 hs ih =>
    cases a with
    | emit x =>
      simp only [step, Option.some.injEq] at hs; subst hs
      unfold State.emit
      split
      · exact ih
      · split
        · rename_i hr
          exact push s _ (.item x) (fun r' => by simp) ih (refuse_none hr).1 rfl rfl rfl rfl rfl
        · exact ih
    | count => simp only [step] at hs; split at hs <;> cases hs; exact ih
    | forceFlush => simp only [step, Option.some.injEq] at hs; subst hs; exact call s _ ih
    | shutdown => simp only [step, Option.some.injEq] at hs; subst hs; exact call s _ ih
    | recv =>
      simp only [step] at hs
      split at hs
      case h_2 => cases hs
      rename_i m q hw hq
      injection hs with hs; subst hs
      rcases ih.2 with h | ⟨h, h'⟩ | ⟨h1, h2, h3, q', h4, h5⟩
      · rw [hw] at h; cases h
      · rw [hq] at h'
        have hq' : ∀ r', Msg.setResource r' ∉ q := fun r' hr => h' r' (List.mem_cons_of_mem _ hr)
        cases m with
        | item x =>
          simp only [State.process]
          split
          · exact exp _ _ ih.1 h hq'
          · exact ⟨ih.1, .inr (.inl ⟨h, hq'⟩)⟩
        | flush t => exact exp _ _ ih.1 h hq'
        | shutdown t => exact exp _ _ ih.1 h hq'
        | setResource r1 => exact absurd List.mem_cons_self (h' r1)
      · rw [hq] at h4
        injection h4 with h4 h6
        subst h4 h6
        exact ⟨ih.1, .inr (.inl ⟨rfl, h5⟩)⟩
    | tick =>
      simp only [step] at hs
      split at hs
      case h_2 => cases hs
      rename_i hw
      injection hs with hs; subst hs
      rcases ih.2 with h | ⟨h, h'⟩ | ⟨h1, h2, h3, q', h4, h5⟩
      · rw [hw] at h; cases h
      · exact exp _ _ ih.1 h h'
      · unfold State.export
        rw [h3]
        exact ⟨ih.1, .inr (.inr ⟨rfl, h2, h3, q', h4, h5⟩)⟩
    | finish o =>
      simp only [step] at hs
      split at hs
      case h_2 => cases hs
      rename_i k hw
      injection hs with hs; subst hs
      obtain ⟨e1, e2, e3⟩ := after { s with outcomes := s.outcomes ++ [o] } k o (some s.outcomes.length)
      rcases ih.2 with h | ⟨h, h'⟩ | ⟨h1, _⟩
      · rw [hw] at h; cases h
      · exact ⟨by rw [e1]; exact ih.1, .inr (.inl ⟨by rw [e2]; exact h, by rw [e3]; exact h'⟩)⟩
      · rw [hw] at h1; cases h1
    | stop =>
      simp only [step] at hs
      split at hs
      case h_3 => cases hs
      all_goals
        rename_i hw
        injection hs with hs; subst hs
        rcases ih.2 with h | ⟨h, h'⟩ | ⟨h1, _⟩
        · rw [hw] at h; cases h
        · exact ⟨ih.1, .inr (.inl ⟨h, h'⟩)⟩
        · rw [hw] at h1; cases h1
    | close => simp only [step] at hs; split at hs <;> cases hs; exact ⟨ih.1, .inl rfl⟩
    | die => simp only [step] at hs; split at hs <;> cases hs; exact ⟨ih.1, .inl rfl⟩

/-- **C76.** Every export is made with the resource of the provider. -/
theorem async_resource {cfg : Cfg} {sampled : X → Bool} {r : R} {s : State X R} (h : Reachable cfg sampled r s) :
    ∀ b ∈ s.exported, b.2 = some r := (resInv_reachable h).1

/-! ### C77: force_flush and shutdown -/

theorem deliveredBy_prefix (s : State X R) (n : Nat) : s.deliveredBy n <+: s.delivered := by
  refine ⟨((s.exported.drop n).map Prod.fst).flatten, ?_⟩
  rw [State.deliveredBy, ← List.flatten_append, ← List.map_append, List.take_append_drop, State.delivered]

/-- **C77.** When `force_flush` or `shutdown` returns an answer of the task, every item accepted before the call has been handed to the exporter and those
exports have ended. The answer is the outcome of the export made for the call, and `ok` when there was nothing left to export. -/
theorem async_answer {cfg : Cfg} {sampled : X → Bool} {r : R} {s : State X R} (h : Reachable cfg sampled r s) (a : Answer) (ha : a ∈ s.returned)
    (o : Res) (ho : a.ret = .result o) :
    ∃ n, n ≤ s.outcomes.length ∧ s.accepted.take (s.atCall a.tok) = s.deliveredBy n ∧
      (a.own = none → o = .ok) ∧ (∀ i, a.own = some i → n = i + 1 ∧ s.outcomes[i]? = some o) := by
  obtain ⟨n, h1, h2, h3, h4⟩ := (invT_reachable h).ans a ha o ho
  refine ⟨n, h1, ?_, h3, h4⟩
  have hp := (deliveredBy_prefix s n).trans (async_order h).1
  rw [← h2]
  exact (List.prefix_iff_eq_take.1 hp).symm

/-- **C77.** Each call returns at most once. -/
theorem async_returns_once {cfg : Cfg} {sampled : X → Bool} {r : R} {s : State X R} (h : Reachable cfg sampled r s) :
    (s.returned.map Answer.tok).Nodup := by
  have := (invT_reachable h).perm.nodup_iff.2 List.nodup_range
  exact (List.nodup_append.1 this).2.1

theorem past_step {cfg : Cfg} {sampled : X → Bool} {s s' : State X R} {a : Action X} (hp : s.worker.past = true) (hs : step cfg sampled s a = some s') :
    s'.worker.past = true ∧ s'.exported = s.exported := by
  cases a with
  | emit x =>
    simp only [step, Option.some.injEq] at hs; subst hs
    unfold State.emit
    split
    · exact ⟨hp, rfl⟩
    · split <;> exact ⟨hp, rfl⟩
  | count => simp only [step] at hs; split at hs <;> cases hs; exact ⟨hp, rfl⟩
  | forceFlush => simp only [step, Option.some.injEq] at hs; subst hs; simp only [State.call]; split <;> exact ⟨hp, rfl⟩
  | shutdown => simp only [step, Option.some.injEq] at hs; subst hs; simp only [State.call]; split <;> exact ⟨hp, rfl⟩
  | recv =>
    simp only [step] at hs
    split at hs
    · rename_i hw _; rw [hw] at hp; cases hp
    · cases hs
  | tick =>
    simp only [step] at hs
    split at hs
    · rename_i hw; rw [hw] at hp; cases hp
    · cases hs
  | finish r =>
    simp only [step] at hs
    split at hs
    · rename_i hw; rw [hw] at hp; cases hp
    · cases hs
  | stop => simp only [step] at hs; split at hs <;> cases hs <;> exact ⟨rfl, rfl⟩
  | close => simp only [step] at hs; split at hs <;> cases hs; exact ⟨rfl, rfl⟩
  | die => simp only [step] at hs; split at hs <;> cases hs; exact ⟨rfl, rfl⟩

theorem past_run {cfg : Cfg} {sampled : X → Bool} {s s' : State X R} {as : List (Action X)} (hp : s.worker.past = true)
    (hs : runAll cfg sampled s as = some s') : s'.exported = s.exported := by
  induction as generalizing s with
  | nil => injection hs with hs; subst hs; rfl
  | cons a as ih =>
    simp only [runAll] at hs
    split at hs
    · rename_i s1 h1
      have := past_step hp h1
      rw [ih this.1 hs, this.2]
    · cases hs

/-- **C77.** Once `shutdown` has returned the task's answer, nothing is exported any more, whatever the program does. -/
theorem async_shutdown_last {cfg : Cfg} {sampled : X → Bool} {r : R} {s s' : State X R} {as : List (Action X)} (h : Reachable cfg sampled r s)
    (a : Answer) (ha : a ∈ s.returned) (hsd : s.isShutdown a.tok = true) (o : Res) (ho : a.ret = .result o)
    (hs : runAll cfg sampled s as = some s') : s'.exported = s.exported :=
  past_run ((invT_reachable h).down a ha hsd o ho).1 hs

/-- **C77.** The exporter is shut down at most once; the log processor's `shutdown` answers after that, so that it has been shut down exactly once. The
span processor answers before (see `span_exporter_running_violated`). -/
theorem async_exporter_shutdown {cfg : Cfg} {sampled : X → Bool} {r : R} {s : State X R} (h : Reachable cfg sampled r s) :
    s.exporterShutdowns ≤ 1 ∧
      (cfg.kind = .log → ∀ a ∈ s.returned, s.isShutdown a.tok = true → ∀ o, a.ret = .result o → s.exporterShutdowns = 1) := by
  have hi := invT_reachable h
  refine ⟨?_, fun hk a ha hsd o ho => (hi.down a ha hsd o ho).2 hk⟩
  have hst := hi.stops
  unfold Worker.stopsOk at hst
  split at hst <;> omega

/-! Every call returns -/

/-- Steps the task needs for the message of call `t`. -/
def ahead (t : Nat) : List (Msg X R) → Nat
  | [] => 0
  | .flush u :: q => 4 + if u = t then 0 else ahead t q
  | .shutdown u :: q => 4 + if u = t then 0 else ahead t q
  | _ :: q => 4 + ahead t q

/-- Steps before the task looks at its messages again. -/
def Worker.cost : Worker → Nat
  | .idle => 0
  | .exporting (.shut _) => 3
  | .exporting _ => 1
  | .stopping _ => 2
  | .ending => 1
  | .done => 0

/-- An upper bound for the number of steps of the task before call `t` returns. -/
def State.toGo (t : Nat) (s : State X R) : Nat := (if t ∈ tokens s.queue then ahead t s.queue else 0) + s.worker.cost

theorem ahead_append {t : Nat} {q q' : List (Msg X R)} (h : t ∈ tokens q) : ahead t (q ++ q') = ahead t q := by
  induction q with
  | nil => cases h
  | cons m q ih =>
    cases m with
    | item x => simp only [List.cons_append, ahead, ih h]
    | setResource x => simp only [List.cons_append, ahead, ih h]
    | flush u =>
      simp only [List.cons_append, ahead]
      split
      · rfl
      · rename_i hu
        rw [ih]
        simp only [tokens, List.mem_cons] at h
        exact h.resolve_left (fun h' => hu h'.symm)
    | shutdown u =>
      simp only [List.cons_append, ahead]
      split
      · rfl
      · rename_i hu
        rw [ih]
        simp only [tokens, List.mem_cons] at h
        exact h.resolve_left (fun h' => hu h'.symm)

theorem ahead_le (t : Nat) (q : List (Msg X R)) : ahead t q ≤ 4 * q.length := by
  induction q with
  | nil => exact Nat.le_refl _
  | cons m q ih =>
    cases m <;> simp only [ahead, List.length_cons]
    · omega
    · split <;> omega
    · split <;> omega
    · omega

theorem waiting_iff {cfg : Cfg} {s : State X R} (h : InvT cfg s) (t : Nat) : s.waiting t ↔ t ∈ tokens s.queue ∨ t ∈ s.worker.serving := by
  have hm := h.perm.mem_iff (a := t)
  have hn := h.perm.nodup_iff.2 List.nodup_range
  rw [List.nodup_append] at hn
  simp only [List.mem_append, List.mem_map, List.mem_range] at hm
  constructor
  · rintro ⟨h1, h2⟩
    rcases hm.2 h1 with h | ⟨a, ha, h⟩
    · exact h
    · exact absurd h (h2 a ha)
  · intro h1
    refine ⟨hm.1 (.inl h1), fun a ha h2 => ?_⟩
    exact hn.2.2 t (List.mem_append.2 h1) a.tok (List.mem_map.2 ⟨a, ha, rfl⟩) h2.symm

theorem cost_after (cfg : Cfg) (s : State X R) (k : Cont) (r : Res) (own : Option Nat) : (s.after cfg k r own).worker.cost ≤ 2 := by
  unfold State.after
  split
  · simp [Worker.cost]
  · simp [Worker.cost]
  · split <;> simp [Worker.cost]

theorem cost_export (cfg : Cfg) (s : State X R) (k : Cont) : (s.export cfg k).worker.cost ≤ 3 := by
  unfold State.export
  split
  · exact Nat.le_succ_of_le (cost_after ..)
  · cases k <;> simp [Worker.cost]

/-- One step, seen from a call that is still waiting after it. -/
theorem toGo_step {cfg : Cfg} {sampled : X → Bool} {r : R} {s s' : State X R} {a : Action X} {t : Nat} (h : Reachable cfg sampled r s)
    (hs : step cfg sampled s a = some s') (hw : s.waiting t) (hw' : s'.waiting t) : s'.toGo t + works [a] ≤ s.toGo t + ticks [a] := by
  have hT := invT_reachable h
  have hT' := invT_reachable (h.step hs)
  have hm := (waiting_iff hT t).1 hw
  have hm' := (waiting_iff hT' t).1 hw'
  have after : ∀ (s : State X R) k r own, (s.after cfg k r own).queue = s.queue := by
    intro s k r own; unfold State.after; split; rfl; rfl; split <;> rfl
  have exp : ∀ (s : State X R) k, (s.export cfg k).queue = s.queue := by
    intro s k; unfold State.export; split
    · exact after _ _ _ _
    · rfl
  have hnd := hT.perm.nodup_iff.2 List.nodup_range
  -- a message put in the channel
  have push : ∀ (s' : State X R) m, s'.queue = s.queue ++ [m] → s'.worker = s.worker → t ∉ tokens [m] → s'.toGo t = s.toGo t := by
    intro s' m h1 h2 h3
    unfold State.toGo
    rw [h1, h2, tokens_append]
    by_cases ht : t ∈ tokens s.queue
    · rw [if_pos (by simp [ht]), if_pos ht, ahead_append ht]
    · rw [if_neg (by simp [ht, h3]), if_neg ht]
  cases a with
  | emit x =>
    simp only [step, Option.some.injEq] at hs; subst hs
    simp only [works, ticks, Nat.add_zero]
    unfold State.emit
    split
    · exact Nat.le_refl _
    · split
      · exact Nat.le_of_eq (push _ (.item x) rfl rfl (by simp [tokens]))
      · exact Nat.le_refl _
  | count => simp only [step] at hs; split at hs <;> cases hs; exact Nat.le_refl _
  | forceFlush =>
    simp only [step, Option.some.injEq] at hs; subst hs
    simp only [works, ticks, Nat.add_zero, State.call]
    split
    · refine Nat.le_of_eq (push _ (.flush s.nextTok) rfl rfl ?_)
      simp only [tokens, List.mem_singleton]
      have := hw.1; omega
    · exact Nat.le_refl _
  | shutdown =>
    simp only [step, Option.some.injEq] at hs; subst hs
    simp only [works, ticks, Nat.add_zero, State.call]
    split
    · refine Nat.le_of_eq (push _ (.shutdown s.nextTok) rfl rfl ?_)
      simp only [tokens, List.mem_singleton]
      have := hw.1; omega
    · exact Nat.le_refl _
  | recv =>
    simp only [step] at hs
    split at hs
    case h_2 => cases hs
    rename_i m q hwk hq
    injection hs with hs; subst hs
    simp only [works, ticks, Nat.add_zero, Nat.zero_add]
    have hcost : (State.process cfg { s with queue := q } m).worker.cost ≤ 3 := by
      cases m <;> simp only [State.process]
      · split
        · exact cost_export _ _ _
        · simp [hwk, Worker.cost]
      · exact cost_export _ _ _
      · exact cost_export _ _ _
      · simp [hwk, Worker.cost]
    have hqueue : (State.process cfg { s with queue := q } m).queue = q := by
      cases m <;> simp only [State.process]
      · split
        · exact exp _ _
        · rfl
      · exact exp _ _
      · exact exp _ _
    rw [hwk, hq] at hm
    simp only [Worker.serving, List.not_mem_nil, or_false] at hm
    rw [hq] at hnd
    unfold State.toGo
    rw [hqueue, hq, show s.worker.cost = 0 by rw [hwk]; rfl, if_pos hm, Nat.add_zero]
    cases m with
    | item x => simp only [tokens] at hm; rw [if_pos hm]; simp only [ahead]; omega
    | setResource x => simp only [tokens] at hm; rw [if_pos hm]; simp only [ahead]; omega
    | flush u =>
      simp only [ahead]
      by_cases hu : u = t
      · subst hu
        simp only [tokens, List.append_assoc, List.cons_append, List.nodup_cons, List.mem_append, not_or] at hnd
        rw [if_neg hnd.1.1, if_pos rfl]; omega
      · simp only [tokens, List.mem_cons] at hm
        rw [if_pos (hm.resolve_left (fun h' => hu h'.symm)), if_neg hu]; omega
    | shutdown u =>
      simp only [ahead]
      by_cases hu : u = t
      · subst hu
        simp only [tokens, List.append_assoc, List.cons_append, List.nodup_cons, List.mem_append, not_or] at hnd
        rw [if_neg hnd.1.1, if_pos rfl]; omega
      · simp only [tokens, List.mem_cons] at hm
        rw [if_pos (hm.resolve_left (fun h' => hu h'.symm)), if_neg hu]; omega
  | tick =>
    simp only [step] at hs
    split at hs
    case h_2 => cases hs
    rename_i hwk
    injection hs with hs; subst hs
    simp only [works, ticks, Nat.add_zero, Nat.zero_add]
    unfold State.toGo
    rw [exp, show s.worker.cost = 0 by rw [hwk]; rfl]
    have : (s.export cfg .loop).worker.cost ≤ 1 := by
      unfold State.export
      split <;> simp [State.after, Worker.cost]
    omega
  | finish o =>
    simp only [step] at hs
    split at hs
    case h_2 => cases hs
    rename_i k hwk
    injection hs with hs; subst hs
    simp only [works, ticks, Nat.add_zero, Nat.zero_add]
    unfold State.toGo
    rw [after]
    cases k with
    | loop => simp only [State.after, hwk, Worker.cost]; omega
    | flush u => simp only [State.after, hwk, Worker.cost]; omega
    | shut u =>
      have := cost_after cfg { s with outcomes := s.outcomes ++ [o] } (.shut u) o (some s.outcomes.length)
      rw [show s.worker.cost = 3 by rw [hwk]; rfl]
      change (if t ∈ tokens s.queue then ahead t s.queue else 0) + _ + 1 ≤ _
      omega
  | stop =>
    simp only [step] at hs
    split at hs
    case h_3 => cases hs
    all_goals
      rename_i hwk
      injection hs with hs; subst hs
      simp only [works, ticks, Nat.add_zero, Nat.zero_add]
      unfold State.toGo
      rw [hwk]
      simp only [Worker.cost]
      omega
  | close =>
    simp only [step] at hs
    split at hs
    case h_2 => cases hs
    injection hs with hs; subst hs
    rcases hm' with h' | h' <;> cases h'
  | die =>
    simp only [step] at hs
    split at hs
    case h_1 => cases hs
    injection hs with hs; subst hs
    rcases hm' with h' | h' <;> cases h'

theorem returned_step {cfg : Cfg} {sampled : X → Bool} {s s' : State X R} {a : Action X} (hs : step cfg sampled s a = some s') :
    s.nextTok ≤ s'.nextTok ∧ ∀ x ∈ s.returned, x ∈ s'.returned := by
  have after : ∀ (s : State X R) k r own, s.nextTok ≤ (s.after cfg k r own).nextTok ∧ ∀ x ∈ s.returned, x ∈ (s.after cfg k r own).returned := by
    intro s k r own; unfold State.after; split
    · exact ⟨Nat.le_refl _, fun x hx => hx⟩
    · exact ⟨Nat.le_refl _, fun x hx => List.mem_append_left _ hx⟩
    · split
      · exact ⟨Nat.le_refl _, fun x hx => List.mem_append_left _ hx⟩
      · exact ⟨Nat.le_refl _, fun x hx => hx⟩
  have exp : ∀ (s : State X R) k, s.nextTok ≤ (s.export cfg k).nextTok ∧ ∀ x ∈ s.returned, x ∈ (s.export cfg k).returned := by
    intro s k; unfold State.export; split
    · exact after _ _ _ _
    · exact ⟨Nat.le_refl _, fun x hx => hx⟩
  cases a with
  | emit x =>
    simp only [step, Option.some.injEq] at hs; subst hs
    unfold State.emit
    split
    · exact ⟨Nat.le_refl _, fun x hx => hx⟩
    · split <;> exact ⟨Nat.le_refl _, fun x hx => hx⟩
  | count => simp only [step] at hs; split at hs <;> cases hs; exact ⟨Nat.le_refl _, fun x hx => hx⟩
  | forceFlush =>
    simp only [step, Option.some.injEq] at hs; subst hs; simp only [State.call]; split
    · exact ⟨Nat.le_succ _, fun x hx => hx⟩
    · exact ⟨Nat.le_succ _, fun x hx => List.mem_append_left _ hx⟩
  | shutdown =>
    simp only [step, Option.some.injEq] at hs; subst hs; simp only [State.call]; split
    · exact ⟨Nat.le_succ _, fun x hx => hx⟩
    · exact ⟨Nat.le_succ _, fun x hx => List.mem_append_left _ hx⟩
  | recv =>
    simp only [step] at hs
    split at hs
    case h_2 => cases hs
    rename_i m q hw hq
    injection hs with hs; subst hs
    cases m with
    | item x =>
      simp only [State.process]
      split
      · exact exp { s with queue := q, buf := s.buf ++ [x] } .loop
      · exact ⟨Nat.le_refl _, fun x hx => hx⟩
    | flush t => exact exp { s with queue := q } (.flush t)
    | shutdown t => exact exp { s with queue := q } (.shut t)
    | setResource r => exact ⟨Nat.le_refl _, fun x hx => hx⟩
  | tick => simp only [step] at hs; split at hs <;> cases hs; exact exp _ _
  | finish r =>
    simp only [step] at hs; split at hs <;> cases hs
    exact after { s with outcomes := s.outcomes ++ [r] } _ r (some s.outcomes.length)
  | stop =>
    simp only [step] at hs; split at hs <;> cases hs
    · exact ⟨Nat.le_refl _, fun x hx => hx⟩
    · exact ⟨Nat.le_refl _, fun x hx => List.mem_append_left _ hx⟩
  | close => simp only [step] at hs; split at hs <;> cases hs; exact ⟨Nat.le_refl _, fun x hx => List.mem_append_left _ hx⟩
  | die =>
    simp only [step] at hs; split at hs <;> cases hs
    exact ⟨Nat.le_refl _, fun x hx => List.mem_append_left _ (List.mem_append_left _ hx)⟩

theorem waiting_run {cfg : Cfg} {sampled : X → Bool} {s s' : State X R} {as : List (Action X)} {t : Nat}
    (hs : runAll cfg sampled s as = some s') (h0 : t < s.nextTok) (hw : s'.waiting t) : s.waiting t := by
  induction as generalizing s with
  | nil => injection hs with hs; subst hs; exact hw
  | cons a as ih =>
    simp only [runAll] at hs
    split at hs
    · rename_i s1 h1
      have h2 := returned_step h1
      have := ih hs (Nat.lt_of_lt_of_le h0 h2.1)
      exact ⟨h0, fun x hx => this.2 x (h2.2 x hx)⟩
    · cases hs

theorem works_cons (a : Action X) (as : List (Action X)) : works (a :: as) = works [a] + works as := by cases a <;> simp [works, Nat.add_comm]
theorem ticks_cons (a : Action X) (as : List (Action X)) : ticks (a :: as) = ticks [a] + ticks as := by cases a <;> simp [ticks, Nat.add_comm]

/-- **C77.** Every call returns: while it waits, the task can take at most four steps for each message in the channel, three more and one for each tick.
New items and calls do not delay it. -/
theorem async_call_returns {cfg : Cfg} {sampled : X → Bool} {r : R} {s s' : State X R} {as : List (Action X)} {t : Nat} (h : Reachable cfg sampled r s)
    (hs : runAll cfg sampled s as = some s') (h0 : t < s.nextTok) (hw : s'.waiting t) : works as ≤ 4 * s.queue.length + 3 + ticks as := by
  have key : s'.toGo t + works as ≤ s.toGo t + ticks as := by
    induction as generalizing s with
    | nil => injection hs with hs; subst hs; simp [works, ticks]
    | cons a as ih =>
      have hw0 := waiting_run hs h0 hw
      simp only [runAll] at hs
      split at hs
      · rename_i s1 h1
        have h2 := Nat.lt_of_lt_of_le h0 (returned_step h1).1
        have h3 := ih (h.step h1) hs h2
        have h4 := toGo_step h h1 hw0 (waiting_run hs h2 hw)
        rw [works_cons, ticks_cons]
        omega
      · cases hs
  have : s.toGo t ≤ 4 * s.queue.length + 3 := by
    unfold State.toGo
    have h1 := ahead_le t s.queue
    have h2 : s.worker.cost ≤ 3 := by unfold Worker.cost; split <;> omega
    split <;> omega
  omega

/-- **C77.** While a call waits the task is never stuck: it can take a step other than a tick (a running export can at least time out). -/
theorem async_not_stuck {cfg : Cfg} {sampled : X → Bool} {r : R} {s : State X R} {t : Nat} (h : Reachable cfg sampled r s) (hw : s.waiting t) :
    ∃ a s', step cfg sampled s a = some s' ∧ works [a] = 1 := by
  have hm := (waiting_iff (invT_reachable h) t).1 hw
  cases hwk : s.worker with
  | idle =>
    rw [hwk] at hm
    simp only [Worker.serving, List.not_mem_nil, or_false] at hm
    cases hq : s.queue with
    | nil => rw [hq] at hm; cases hm
    | cons m q => exact ⟨.recv, _, by simp only [step, hwk, hq]; rfl, rfl⟩
  | exporting k => exact ⟨.finish .timeout, _, by simp only [step, hwk]; rfl, rfl⟩
  | stopping ans =>
    cases ans with
    | none => exact ⟨.stop, _, by simp only [step, hwk]; rfl, rfl⟩
    | some x => exact ⟨.stop, _, by simp only [step, hwk]; rfl, rfl⟩
  | ending => exact ⟨.close, _, by simp only [step, hwk]; rfl, rfl⟩
  | done =>
    have := ((inv_reachable h).dead hwk).1
    rw [hwk, this] at hm
    rcases hm with hm | hm <;> cases hm

/-! ### Witnesses and examples -/

/-- What a run ends in: accepted, batches, outcomes, answers, `exporter.shutdown()` calls, refused, lost, dropped. -/
def State.view (s : State X R) : List X × List (List X) × List Res × List Answer × Nat × List X × List X × Nat :=
  (s.accepted, s.exported.map Prod.fst, s.outcomes, s.returned, s.exporterShutdowns, s.refused, s.lost, s.dropped)

/-- A run to the end: two items fill a batch, a third is exported for `shutdown`, after which an item is refused. -/
example : (runAll ⟨.log, 5, 2⟩ (fun _ => true) (State.init () : State Nat Unit)
      [.emit 1, .emit 2, .recv, .recv, .recv, .emit 3, .finish .ok, .shutdown, .recv, .recv, .finish .timeout, .stop, .close, .emit 4, .count]).map State.view
    = some ([1, 2, 3], [[1, 2], [3]], [.ok, .timeout], [⟨0, .result .timeout, some 1⟩], 1, [4], [], 1) := by rfl

/-- A span that is not sampled is not sent; the span processor answers a flush without items with `ok`. -/
example : (runAll ⟨.span, 5, 2⟩ (fun x => x != 9) (State.init () : State Nat Unit) [.emit 9, .forceFlush, .recv, .recv]).map State.view
    = some ([], [], [], [⟨0, .result .ok, none⟩], 0, [], [], 0) := by rfl

/-- **C77, violated.** `force_flush` returns `ok` although an item accepted before it was not delivered: the export of its full batch had failed, which
only the log of the SDK says. -/
theorem async_failure_masked_violated : ∃ s : State Nat Unit, Reachable ⟨.span, 5, 1⟩ (fun _ => true) () s ∧
    ⟨0, .result .ok, none⟩ ∈ s.returned ∧ s.atCall 0 = 1 ∧ s.accepted = [7] ∧ s.outcomes = [.failed] := by
  have h : (runAll ⟨.span, 5, 1⟩ (fun _ => true) (State.init () : State Nat Unit) [.emit 7, .recv, .recv, .finish .failed, .forceFlush, .recv]).map
      (fun s => (s.returned, s.atCall 0, s.accepted, s.outcomes)) = some ([⟨0, .result .ok, none⟩], 1, [7], [.failed]) := by decide +kernel
  obtain ⟨s, hs, hv⟩ := Option.map_eq_some_iff.1 h
  simp only [Prod.mk.injEq] at hv
  exact ⟨s, reachable_runAll .init hs, by rw [hv.1]; simp, hv.2.1, hv.2.2.1, hv.2.2.2⟩

/-- **C77, violated.** The span processor's `shutdown` returns `ok` before the exporter is shut down; the task may even die in between. -/
theorem span_exporter_running_violated : ∃ s : State Nat Unit, Reachable ⟨.span, 5, 1⟩ (fun _ => true) () s ∧
    ⟨0, .result .ok, none⟩ ∈ s.returned ∧ s.isShutdown 0 = true ∧ s.exporterShutdowns = 0 := by
  have h : (runAll ⟨.span, 5, 1⟩ (fun _ => true) (State.init () : State Nat Unit) [.shutdown, .recv, .recv]).map
      (fun s => (s.returned, s.isShutdown 0, s.exporterShutdowns)) = some ([⟨0, .result .ok, none⟩], true, 0) := by decide +kernel
  obtain ⟨s, hs, hv⟩ := Option.map_eq_some_iff.1 h
  simp only [Prod.mk.injEq] at hv
  exact ⟨s, reachable_runAll .init hs, by rw [hv.1]; simp, hv.2.1, hv.2.2⟩

/-- **C77, violated.** When the channel is full `shutdown` returns an error and does nothing: the task goes on exporting, items are accepted later and the
exporter is not shut down. -/
theorem async_shutdown_refused_violated : ∃ s s' : State Nat Unit, Reachable ⟨.log, 1, 1⟩ (fun _ => true) () s ∧
    ⟨0, .full, none⟩ ∈ s.returned ∧ s.isShutdown 0 = true ∧ s.exported = [] ∧
    runAll ⟨.log, 1, 1⟩ (fun _ => true) s [.recv, .emit 3, .recv, .finish .ok] = some s' ∧ s'.exported = [([3], some ())] ∧ s'.exporterShutdowns = 0 := by
  have h : (runAll ⟨.log, 1, 1⟩ (fun _ => true) (State.init () : State Nat Unit) [.shutdown]).map
      (fun s => (s.returned, s.isShutdown 0, s.exported, (runAll ⟨.log, 1, 1⟩ (fun _ => true) s [.recv, .emit 3, .recv, .finish .ok]).map
        (fun s => (s.exported, s.exporterShutdowns)))) = some ([⟨0, .full, none⟩], true, [], some ([([3], some ())], 0)) := by rfl
  obtain ⟨s, hs, hv⟩ := Option.map_eq_some_iff.1 h
  simp only [Prod.mk.injEq] at hv
  obtain ⟨s', hs', hv'⟩ := Option.map_eq_some_iff.1 hv.2.2.2
  simp only [Prod.mk.injEq] at hv'
  exact ⟨s, s', reachable_runAll .init hs, by rw [hv.1]; simp, hv.2.1, hv.2.2.1, hs', hv'.1, hv'.2⟩

/-- **C76, violated.** A batch size of 0, which the builder and the environment allow, is no limit: the buffer grows until the next tick and is then
exported at once. -/
theorem async_batch_zero_violated : ∃ s : State Nat Unit, Reachable ⟨.span, 5, 0⟩ (fun _ => true) () s ∧ ([1, 2, 3], some ()) ∈ s.exported := by
  have h : (runAll ⟨.span, 5, 0⟩ (fun _ => true) (State.init () : State Nat Unit) [.emit 1, .emit 2, .emit 3, .recv, .recv, .recv, .recv, .tick]).map
      (fun s => s.exported) = some [([1, 2, 3], some ())] := by decide +kernel
  obtain ⟨s, hs, hv⟩ := Option.map_eq_some_iff.1 h
  exact ⟨s, reachable_runAll .init hs, by rw [hv]; simp⟩

/-- **C76, violated.** Between the answer to `shutdown` and the end of the task an item is still accepted; it is neither exported nor counted as dropped. -/
theorem async_lost_uncounted_violated : ∃ s : State Nat Unit, Reachable ⟨.log, 5, 1⟩ (fun _ => true) () s ∧
    s.worker = .done ∧ s.accepted = [5] ∧ s.delivered = [] ∧ s.dropped = 0 ∧ s.counting = 0 := by
  have h : (runAll ⟨.log, 5, 1⟩ (fun _ => true) (State.init () : State Nat Unit) [.shutdown, .recv, .recv, .stop, .emit 5, .close]).map
      (fun s => (s.worker, s.accepted, s.delivered, s.dropped, s.counting)) = some (.done, [5], [], 0, 0) := by decide +kernel
  obtain ⟨s, hs, hv⟩ := Option.map_eq_some_iff.1 h
  simp only [Prod.mk.injEq] at hv
  exact ⟨s, reachable_runAll .init hs, hv.1, hv.2.1, hv.2.2.1, hv.2.2.2.1, hv.2.2.2.2⟩

/-! ### The ticker -/

/-- The instants at which `to_interval_stream` yields if the task polls it all the time: each item comes one `delay` after it is asked for, the first too.
runtime.rs:46-58 -/
def intervalStream (interval : Nat) (n : Nat) : Nat := (n + 1) * interval

/-- The ticks of the processors (spans:359-361, logs:132-134) and of the periodic reader (periodic_reader_with_async_runtime.rs:115-117): the first item is
skipped. -/
def ticker (interval : Nat) (n : Nat) : Nat := intervalStream interval (n + 1)

/-- **C76, violated.** The comment says that the ticker fires at once, so that the first tick is skipped; it does not, and the first tick comes after two
intervals. From then on the ticks are one interval apart. -/
theorem first_tick_late_violated (interval : Nat) :
    ticker interval 0 = 2 * interval ∧ ∀ n, ticker interval (n + 1) = ticker interval n + interval := by
  refine ⟨rfl, fun n => ?_⟩
  simp only [ticker, intervalStream, Nat.succ_mul]

end Otel.Async
