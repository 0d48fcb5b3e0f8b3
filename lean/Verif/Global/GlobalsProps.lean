import Verif.Global.Globals
/-! # C89: the globals give what was set last, and using them never blocks for ever -/

namespace Otel.Glob

/-- C89: in every execution of any threads, what a thread gets from a global (provider, or propagator inside `get_text_map_propagator`) is what was set last before,
or the no-op if nothing was; all threads agree on the order of the sets. -/
theorem global_last_set (cleanup programs : Nat → List Cmd) (handles : Nat → Nat) (s : Sys) (h : Reach cleanup (start handles programs) s) (pre post : List Event) (g : Which)
    (p : Nat) (hl : s.log = pre ++ .got g p :: post) : p = lastSet g (noop g) pre := by
  have : Reg s := by
    clear hl
    induction h with
    | refl => exact ⟨fun g => by cases g <;> rfl, fun pre g p post e => by simp [start] at e⟩
    | step t _ hst ih => exact reg_step ih hst
  exact this.2 pre g p post hl

/-- A step is possible for a thread whose head is not a wait. -/
theorem step_of_release {cleanup : Nat → List Cmd} {t : Nat} {s : Sys} {g : Which} {k : List Cmd} (h : s.threads t = .release g :: k) :
    ∃ s', step cleanup t s = some s' ∧ s'.writer g = none := by
  unfold step
  rw [h]
  exact ⟨_, rfl, put_same _ _ _⟩

/-- C89: nobody waits for ever at the global tracer provider: if a thread has to wait there, it waits for another thread, which releases the lock with its very next
step. This holds whatever the clean-up of a provider does. -/
theorem tracer_no_deadlock (cleanup programs : Nat → List Cmd) (handles : Nat → Nat) (hc : ∀ p, Api (cleanup p)) (hp : ∀ t, Api (programs t)) (s : Sys)
    (h : Reach cleanup (start handles programs) s) (t : Nat) (c : Cmd) (k : List Cmd) (ht : s.threads t = c :: k) (hu : Uses .tracer c) :
    (step cleanup t s).isSome ∨ ∃ t' s', t' ≠ t ∧ step cleanup t' s = some s' ∧ s'.writer .tracer = none := by
  have hcl : Closed (fun _ => False) cleanup .tracer :=
    ⟨id, fun _ _ _ _ h => h.elim, fun _ h => h.elim, fun p => ⟨[], [.drop p], rfl, fun _ h => by simp at h, by simp⟩⟩
  have hl := lock_reach hc hcl (lock_start handles hp) h
  cases hw : s.writer .tracer with
  | none =>
    left
    rcases hu with rfl | ⟨p, rfl⟩
    · simp [step, ht, hw]
    · simp [step, ht, hw]
  | some t' =>
    right
    obtain ⟨a, b, e, h1, _⟩ := hl.1 t' hw
    cases a with
    | cons x a => exact (h1 x (List.mem_cons_self ..)).elim
    | nil =>
      obtain ⟨s', h2, h3⟩ := step_of_release (cleanup := cleanup) e
      refine ⟨t', s', fun e' => ?_, h2, h3⟩
      subst e'
      rw [ht] at e
      cases e
      rcases hu with hu | ⟨p, hu⟩ <;> cases hu

/-- What clean-up may do so that the global meter provider is safe: drop things and use the global tracer provider. -/
def Modest (c : Cmd) : Prop := (∃ p, c = .drop p) ∨ c = .get .tracer ∨ (∃ p, c = .set .tracer p) ∨ c = .release .tracer

/-- C89, partially: if the clean-up of no provider uses the global meter provider or propagator, nobody waits for ever at the global meter provider: another thread
can go on, the one that changes it or the one this one waits for. Missing: clean-up that does (`meter_violated`). -/
theorem meter_no_deadlock_partial (cleanup programs : Nat → List Cmd) (handles : Nat → Nat) (hc : ∀ p, Api (cleanup p)) (hm : ∀ p, ∀ c ∈ cleanup p, Modest c)
    (hp : ∀ t, Api (programs t)) (s : Sys) (h : Reach cleanup (start handles programs) s) (t : Nat) (c : Cmd) (k : List Cmd) (ht : s.threads t = c :: k)
    (hu : Uses .meter c) : (step cleanup t s).isSome ∨ ∃ t', t' ≠ t ∧ (s.writer .meter = some t' ∨ s.writer .tracer = some t') ∧ (step cleanup t' s).isSome := by
  have hcl : Closed Modest cleanup .meter := by
    refine ⟨?_, ?_, fun p _ => hm p, fun p => ⟨[.drop p], [], rfl, fun c hc => ?_, by simp⟩⟩
    · rintro (⟨p, h⟩ | h | ⟨p, h⟩ | h) <;> cases h
    · rintro g' p q _ (⟨p, h⟩ | h | ⟨p, h⟩ | h) <;> cases h
      intro c hc
      simp only [afterSet, List.mem_cons, List.not_mem_nil, or_false] at hc
      rcases hc with rfl | rfl
      · exact .inr (.inr (.inr rfl))
      · exact .inl ⟨_, rfl⟩
    · rw [List.mem_singleton] at hc
      exact .inl ⟨p, hc⟩
  have hl := lock_reach hc hcl (lock_start handles hp) h
  have hu' : ∀ g, c ≠ .release g := fun g e => by subst e; rcases hu with hu | ⟨p, hu⟩ <;> cases hu
  have hut : ¬ Modest c := by
    rintro (⟨p, h⟩ | h | ⟨p, h⟩ | h) <;> subst h <;> rcases hu with hu | ⟨p, hu⟩ <;> cases hu
  cases hw : s.writer .meter with
  | none =>
    left
    rcases hu with rfl | ⟨p, rfl⟩
    · simp [step, ht, hw]
    · simp [step, ht, hw]
  | some t' =>
    right
    obtain ⟨a, b, e, h1, _⟩ := hl.1 t' hw
    have hne : t' ≠ t := by
      rintro rfl
      rw [ht] at e
      cases a with
      | nil => cases e; exact hu' _ rfl
      | cons x a => cases e; exact hut (h1 _ (List.mem_cons_self ..))
    cases a with
    | nil =>
      obtain ⟨s', h2, _⟩ := step_of_release (cleanup := cleanup) e
      exact ⟨t', hne, .inl rfl, by rw [h2]; rfl⟩
    | cons x a =>
      have wait : Uses .tracer x → ∃ t', t' ≠ t ∧ (some t' = some t' ∨ s.writer .tracer = some t') ∧ (s.writer .meter = some t' ∨ s.writer .tracer = some t') ∧ (step cleanup t' s).isSome := by
        intro hx
        rcases tracer_no_deadlock cleanup programs handles hc hp s h t' x _ e hx with h2 | ⟨t'', s', _, h3, _⟩
        · exact ⟨t', hne, .inl rfl, .inl hw, h2⟩
        · cases hwt : s.writer .tracer with
          | none =>
            refine ⟨t', hne, .inl rfl, .inl hw, ?_⟩
            rcases hx with rfl | ⟨p, rfl⟩ <;> simp [step, e, hwt]
          | some t3 =>
            have hcl' : Closed (fun _ => False) cleanup .tracer :=
              ⟨id, fun _ _ _ _ h => h.elim, fun _ h => h.elim, fun p => ⟨[], [.drop p], rfl, fun _ h => by simp at h, by simp⟩⟩
            obtain ⟨a3, b3, e3, h13, _⟩ := (lock_reach hc hcl' (lock_start handles hp) h).1 t3 hwt
            cases a3 with
            | cons y a3 => exact (h13 y (List.mem_cons_self ..)).elim
            | nil =>
              obtain ⟨s4, h4, _⟩ := step_of_release (cleanup := cleanup) e3
              refine ⟨t3, fun e' => ?_, .inr rfl, .inr rfl, by rw [h4]; rfl⟩
              rw [e', ht] at e3
              cases e3
              exact hu' _ rfl
      rcases h1 x (List.mem_cons_self ..) with ⟨p, rfl⟩ | rfl | ⟨p, rfl⟩ | rfl
      · refine ⟨t', hne, .inl rfl, ?_⟩
        by_cases hh : s.handles p = 1 <;> simp [step, e, hh]
      · obtain ⟨t3, h3, _, h4, h5⟩ := wait (.inl rfl)
        exact ⟨t3, h3, by rw [← hw]; exact h4, h5⟩
      · obtain ⟨t3, h3, _, h4, h5⟩ := wait (.inr ⟨p, rfl⟩)
        exact ⟨t3, h3, by rw [← hw]; exact h4, h5⟩
      · refine ⟨t', hne, .inl rfl, ?_⟩
        simp [step, e]

/-- An execution from a schedule. -/
def runs (cleanup : Nat → List Cmd) : List Nat → Sys → Option Sys
  | [], s => some s
  | t :: ts, s => (step cleanup t s).bind (runs cleanup ts)

theorem reach_runs {cleanup : Nat → List Cmd} (ts : List Nat) (s0 s s' : Sys) (h : Reach cleanup s0 s) (hr : runs cleanup ts s = some s') : Reach cleanup s0 s' := by
  induction ts generalizing s with
  | nil => cases hr; exact h
  | cons t ts ih =>
    simp only [runs] at hr
    cases hs : step cleanup t s with
    | none => rw [hs] at hr; cases hr
    | some x => rw [hs] at hr; exact ih x (.step t h hs) hr

/-- One thread runs a program, with one handle of each provider. -/
def alone (k : List Cmd) : Sys := start (fun _ => 1) (fun t => if t = 0 then k else [])

/-- C89 is violated: `set_meter_provider` drops the provider it replaces while it holds the lock of the global. If that was its last handle, the provider is shut down
there, and if anything in this (an exporter, a callback of the last collection) asks for `global::meter`, the program stands still for ever. -/
theorem meter_violated : ∃ (cleanup : Nat → List Cmd) (s : Sys), Reach cleanup (alone [.set .meter 5, .set .meter 6]) s ∧ s.threads 0 ≠ [] ∧ ∀ t, step cleanup t s = none := by
  let cleanup : Nat → List Cmd := fun p => if p = 5 then [.get .meter] else []
  let k : List Cmd := [.set .meter 5, .set .meter 6]
  obtain ⟨s, hs, h1, h2, h3⟩ : ∃ s, runs cleanup [0, 0, 0, 0, 0] (alone k) = some s ∧ s.threads 0 = [.get .meter, .release .meter] ∧ s.writer .meter = some 0
      ∧ ∀ t, t ≠ 0 → s.threads t = [] := by
    refine ⟨_, rfl, rfl, rfl, fun t ht => ?_⟩
    simp [put, alone, start, ht]
  refine ⟨cleanup, s, reach_runs _ _ _ _ .refl hs, by simp [h1], fun t => ?_⟩
  by_cases ht : t = 0
  · subst ht; simp [step, h1, h2]
  · simp [step, h3 t ht]

/-- C89 is violated: `get_text_map_propagator` calls its closure with the lock of the global: a closure that sets the propagator waits for itself, for ever. -/
theorem propagator_violated : ∃ s : Sys, Reach (fun _ => []) (alone [.enter, .set .propagator 5, .leave]) s ∧ s.threads 0 ≠ [] ∧ ∀ t, step (fun _ => []) t s = none := by
  let k : List Cmd := [.enter, .set .propagator 5, .leave]
  obtain ⟨s, hs, h1, h2, h3⟩ : ∃ s, runs (fun _ => []) [0] (alone k) = some s ∧ s.threads 0 = [.set .propagator 5, .leave] ∧ s.readers = [0]
      ∧ ∀ t, t ≠ 0 → s.threads t = [] := by
    refine ⟨_, rfl, rfl, rfl, fun t ht => ?_⟩
    simp [put, alone, start, ht]
  refine ⟨s, reach_runs _ _ _ _ .refl hs, by simp [h1], fun t => ?_⟩
  by_cases ht : t = 0
  · subst ht; simp [step, h1, h2]
  · simp [step, h3 t ht]

/-- C89 is violated: the example of `SdkTracerProvider::force_flush` makes a clone of the provider global and says that dropping the provider then exports all
remaining spans. The global keeps a handle, so the provider is not shut down, in no execution, and what its processors have not exported is lost. Here provider 5 has
two handles, one given to the global, one dropped. -/
theorem drop_violated (cleanup : Nat → List Cmd) (hc : cleanup 0 = []) (s : Sys)
    (h : Reach cleanup (start (fun p => if p = 5 then 2 else 1) (fun t => if t = 0 then [.set .tracer 5, .drop 5] else [])) s) : Event.destroyed 5 ∉ s.log := by
  have inv : (s.log = [] ∧ s.handles = (fun p => if p = 5 then 2 else 1) ∧ s.current .tracer = 0 ∧ s.threads = fun t => if t = 0 then [.set .tracer 5, .drop 5] else [])
      ∨ (.destroyed 5 ∉ s.log ∧ ∃ k : List Cmd, (s.threads = fun t => if t = 0 then k else []) ∧
          ((k = [.release .tracer, .drop 0, .drop 5] ∧ s.handles 5 = 2) ∨ (k = [.drop 0, .drop 5] ∧ s.handles 5 = 2) ∨ (k = [.drop 5] ∧ s.handles 5 = 2) ∨ k = [])) := by
    induction h with
    | refl => exact .inl ⟨rfl, rfl, rfl, rfl⟩
    | @step s' s'' t _ hst ih =>
      right
      have put0 : ∀ (k k' : List Cmd), put (fun t : Nat => if t = 0 then k else []) 0 k' = fun t => if t = 0 then k' else [] := by
        intro k k'; funext t; by_cases ht : t = 0 <;> simp [put, ht]
      rcases ih with ⟨h1, h2, h3, h4⟩ | ⟨h1, k, h4, hk⟩
      · unfold step at hst
        by_cases ht : t = 0
        · subst ht
          rw [h4] at hst
          simp only [if_true] at hst
          split at hst
          · cases hst
          · cases hst
            refine ⟨by simp [h1], _, put0 _ _, .inl ⟨by rw [h3]; rfl, by simp [h2]⟩⟩
        · rw [h4] at hst; simp [ht] at hst
      · unfold step at hst
        by_cases ht : t = 0
        · subst ht
          rw [h4] at hst
          rcases hk with ⟨rfl, hh⟩ | ⟨rfl, hh⟩ | ⟨rfl, hh⟩ | rfl
          · simp only [if_true] at hst
            cases hst
            exact ⟨h1, _, put0 _ _, .inr (.inl ⟨rfl, hh⟩)⟩
          · simp only [if_true] at hst
            split at hst
            · cases hst
              refine ⟨by simp [h1], _, put0 _ _, .inr (.inr (.inl ⟨by rw [hc]; rfl, ?_⟩))⟩
              simp [put, hh]
            · cases hst
              refine ⟨h1, _, put0 _ _, .inr (.inr (.inl ⟨rfl, ?_⟩))⟩
              simp [put, hh]
          · simp only [if_true, hh] at hst
            cases hst
            exact ⟨h1, _, put0 _ _, .inr (.inr (.inr rfl))⟩
          · simp at hst
        · rw [h4] at hst; simp [ht] at hst
  rcases inv with ⟨h, _⟩ | ⟨h, _⟩
  · simp [h]
  · exact h

/-! ## Witnesses -/

/-- Two threads and the global tracer provider: thread 1 gets the no-op before the set and the provider after; the no-op of the global is destroyed with the set. -/
example : ((runs (fun _ => []) [1, 0, 0, 1, 0] (start (fun _ => 1) (fun t => if t = 0 then [.set .tracer 5] else if t = 1 then [.get .tracer, .get .tracer] else []))).map
    Sys.log) = some [.got .tracer 0, .changed .tracer 5, .got .tracer 5] := by decide

/-- Thread 1 has to wait while thread 0 changes the provider. -/
example : (runs (fun _ => []) [0] (start (fun _ => 1) (fun t => if t = 0 then [.set .tracer 5] else if t = 1 then [.get .tracer] else []))).map
    (fun s => (step (fun _ => []) 1 s).isSome) = some false := by decide

/-- Clean-up that drops and uses the global tracer provider only. -/
example : ∀ c ∈ [Cmd.drop 7, .get .tracer, .set .tracer 0], Modest c := by
  intro c hc
  simp only [List.mem_cons, List.not_mem_nil, or_false] at hc
  rcases hc with rfl | rfl | rfl
  · exact .inl ⟨_, rfl⟩
  · exact .inr (.inl rfl)
  · exact .inr (.inr (.inl ⟨_, rfl⟩))

end Otel.Glob
