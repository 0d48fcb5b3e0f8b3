/-!
# The global providers and the global propagator (`opentelemetry/src/global/{trace,metrics,propagation}.rs`), C89

Each global is a value behind a read-write lock. Threads run lists of commands; a destructor runs the commands of the provider's clean-up (its shutdown,
which runs code of exporters) in the thread that drops the last handle. The locks are not poisoned, since nothing panics while they are held except code of
destructors and of closures, which do not panic here. The provider `set_tracer_provider` returns is dropped at once by its caller. A thread that needs a
lock which is taken waits; `std` leaves open whether a thread that waits for itself blocks or panics.
-/

namespace Otel.Glob

/-- Which global. -/
inductive Which where
  | tracer
  | meter
  | propagator
deriving DecidableEq

/-- What a thread does. -/
inductive Cmd where
  /-- `tracer_provider`, `tracer`, `meter_provider`, `meter`: trace.rs:375-380, 389-391, 416-418, metrics.rs:38-82 -/
  | get (g : Which)
  /-- `set_tracer_provider`, `set_meter_provider`, `set_text_map_propagator` -/
  | set (g : Which) (p : Nat)
  /-- `get_text_map_propagator` takes the lock and calls its closure: propagation.rs:32-43 -/
  | enter
  /-- the closure returned -/
  | leave
  /-- a handle of a provider (or the box of a propagator) is dropped -/
  | drop (p : Nat)
  /-- the end of a `set` -/
  | release (g : Which)
deriving DecidableEq

/-- What happened. -/
inductive Event where
  | got (g : Which) (p : Nat)
  | changed (g : Which) (p : Nat)
  | destroyed (p : Nat)
deriving DecidableEq

/-- The state. -/
structure Sys where
  current : Which → Nat
  writer : Which → Option Nat
  readers : List Nat
  handles : Nat → Nat
  threads : Nat → List Cmd
  log : List Event

/-- Function update. -/
def put {X Y : Type} [DecidableEq X] (f : X → Y) (x : X) (y : Y) : X → Y := fun z => if z = x then y else f z

/-- What is left to do after the value was exchanged. The tracer provider: `mem::replace`, the lock is released, the caller drops what it got (trace.rs:427-440). The
meter provider and the propagator: an assignment, which drops the old value while the lock is held (metrics.rs:24-35, propagation.rs:25-29). -/
def afterSet (g : Which) (old : Nat) : List Cmd :=
  match g with
  | .tracer => [.release g, .drop old]
  | _ => [.drop old, .release g]

/-- One step of thread `t`, `none` if it has to wait. `cleanup p` is what the destructor of `p` does. -/
def step (cleanup : Nat → List Cmd) (t : Nat) (s : Sys) : Option Sys :=
  match s.threads t with
  | [] => none
  | .get g :: k =>
    if (s.writer g).isSome then none
    else some { s with handles := put s.handles (s.current g) (s.handles (s.current g) + 1), threads := put s.threads t k, log := s.log ++ [.got g (s.current g)] }
  | .set g p :: k =>
    if (s.writer g).isSome || (g == .propagator && !s.readers.isEmpty) then none
    else some { s with
      writer := put s.writer g (some t), current := put s.current g p, threads := put s.threads t (afterSet g (s.current g) ++ k)
      log := s.log ++ [.changed g p] }
  | .enter :: k =>
    if (s.writer .propagator).isSome then none
    else some { s with readers := t :: s.readers, threads := put s.threads t k, log := s.log ++ [.got .propagator (s.current .propagator)] }
  | .leave :: k => some { s with readers := s.readers.erase t, threads := put s.threads t k }
  | .drop p :: k =>
    if s.handles p = 1 then
      some { s with handles := put s.handles p 0, threads := put s.threads t (cleanup p ++ k), log := s.log ++ [.destroyed p] }
    else some { s with handles := put s.handles p (s.handles p - 1), threads := put s.threads t k }
  | .release g :: k => some { s with writer := put s.writer g none, threads := put s.threads t k }

/-- The start: the no-op values 0, 1, 2 are global, and the threads have their programs. trace.rs:362-368, metrics.rs:8-15, propagation.rs:10-22 -/
def start (handles : Nat → Nat) (programs : Nat → List Cmd) : Sys :=
  ⟨fun | .tracer => 0 | .meter => 1 | .propagator => 2, fun _ => none, [], handles, programs, []⟩

/-- The states an execution can reach. -/
inductive Reach (cleanup : Nat → List Cmd) (s : Sys) : Sys → Prop where
  | refl : Reach cleanup s s
  | step {s' s'' : Sys} (t : Nat) : Reach cleanup s s' → step cleanup t s' = some s'' → Reach cleanup s s''

/-! ## Specification -/

/-- The value of a global after some events: the one set last. -/
def lastSet (g : Which) : Nat → List Event → Nat
  | p, [] => p
  | p, .changed g' p' :: es => lastSet g (if g' = g then p' else p) es
  | p, _ :: es => lastSet g p es

/-- The no-op value. -/
def noop : Which → Nat
  | .tracer => 0
  | .meter => 1
  | .propagator => 2

/-- Programs are written with the functions of the API. -/
def Api (k : List Cmd) : Prop := ∀ g, Cmd.release g ∉ k

/-- A thread uses a global. -/
def Uses (g : Which) (c : Cmd) : Prop := c = .get g ∨ (∃ p, c = .set g p)

/-! ## Lemmas -/

theorem put_same {X Y : Type} [DecidableEq X] (f : X → Y) (x : X) (y : Y) : put f x y x = y := if_pos rfl
theorem put_other {X Y : Type} [DecidableEq X] (f : X → Y) {x z : X} (y : Y) (h : z ≠ x) : put f x y z = f z := if_neg h

theorem lastSet_append (g : Which) (p : Nat) (a b : List Event) : lastSet g p (a ++ b) = lastSet g (lastSet g p a) b := by
  induction a generalizing p with
  | nil => rfl
  | cons e a ih => cases e <;> exact ih _

/-- What a step adds to the log. -/
theorem step_log {cleanup : Nat → List Cmd} {t : Nat} {s s' : Sys} (h : step cleanup t s = some s') :
    (s'.log = s.log ∧ s'.current = s.current) ∨ (∃ g, s'.log = s.log ++ [.got g (s.current g)] ∧ s'.current = s.current)
      ∨ (∃ g p, s'.log = s.log ++ [.changed g p] ∧ s'.current = put s.current g p) ∨ (∃ p, s'.log = s.log ++ [.destroyed p] ∧ s'.current = s.current) := by
  unfold step at h
  split at h
  · cases h
  · split at h
    · cases h
    · cases h; exact .inr (.inl ⟨_, rfl, rfl⟩)
  · split at h
    · cases h
    · cases h; exact .inr (.inr (.inl ⟨_, _, rfl, rfl⟩))
  · split at h
    · cases h
    · cases h; exact .inr (.inl ⟨_, rfl, rfl⟩)
  · cases h; exact .inl ⟨rfl, rfl⟩
  · split at h
    · cases h; exact .inr (.inr (.inr ⟨_, rfl, rfl⟩))
    · cases h; exact .inl ⟨rfl, rfl⟩
  · cases h; exact .inl ⟨rfl, rfl⟩

/-- The invariant of the registers. -/
def Reg (s : Sys) : Prop :=
  (∀ g, s.current g = lastSet g (noop g) s.log) ∧ ∀ pre g p post, s.log = pre ++ .got g p :: post → p = lastSet g (noop g) pre

theorem snoc_split {X : Type} {a pre post : List X} {x y : X} (h : a ++ [x] = pre ++ y :: post) : (post = [] ∧ a = pre ∧ x = y) ∨ ∃ post', a = pre ++ y :: post' := by
  rcases List.eq_nil_or_concat post with rfl | ⟨q, z, rfl⟩
  · obtain ⟨h1, h2⟩ := List.append_inj' h rfl
    cases h2
    exact .inl ⟨rfl, h1, rfl⟩
  · have : a ++ [x] = (pre ++ y :: q) ++ [z] := by rw [h]; simp
    exact .inr ⟨q, (List.append_inj' this rfl).1⟩

theorem reg_step {cleanup : Nat → List Cmd} {t : Nat} {s s' : Sys} (hs : Reg s) (h : step cleanup t s = some s') : Reg s' := by
  rcases step_log h with ⟨h1, h2⟩ | ⟨g, h1, h2⟩ | ⟨g, p, h1, h2⟩ | ⟨p, h1, h2⟩
  · unfold Reg; rw [h1, h2]; exact hs
  · refine ⟨fun g' => by rw [h1, h2, lastSet_append]; exact hs.1 g', fun pre g' p post e => ?_⟩
    rw [h1] at e
    rcases snoc_split e with ⟨_, e1, e2⟩ | ⟨q, e⟩
    · cases e2; rw [← e1]; exact hs.1 g
    · exact hs.2 pre g' p q e
  · refine ⟨fun g' => ?_, fun pre g' p' post e => ?_⟩
    · rw [h1, h2, lastSet_append, ← hs.1 g']
      by_cases hg : g = g'
      · subst hg; simp [put, lastSet]
      · rw [put_other _ _ (Ne.symm hg)]; simp [lastSet, hg]
    · rw [h1] at e
      rcases snoc_split e with ⟨_, _, e⟩ | ⟨q, e⟩
      · cases e
      · exact hs.2 pre g' p' q e
  · refine ⟨fun g' => by rw [h1, h2, lastSet_append]; exact hs.1 g', fun pre g' p' post e => ?_⟩
    rw [h1] at e
    rcases snoc_split e with ⟨_, _, e⟩ | ⟨q, e⟩
    · cases e
    · exact hs.2 pre g' p' q e

/-- A thread that changes a global has a first part to do, of commands of a kind, before it releases the lock. -/
def Holding (A : Cmd → Prop) (g : Which) (k : List Cmd) : Prop := ∃ a b, k = a ++ .release g :: b ∧ (∀ c ∈ a, A c) ∧ .release g ∉ b

/-- The holder of the lock is about to release it; nobody else would. -/
def Lock (A : Cmd → Prop) (g : Which) (s : Sys) : Prop :=
  (∀ t, s.writer g = some t → Holding A g (s.threads t)) ∧ ∀ t, s.writer g ≠ some t → .release g ∉ s.threads t

/-- Commands that keep the part before the release within the kind. -/
structure Closed (A : Cmd → Prop) (cleanup : Nat → List Cmd) (g : Which) : Prop where
  notRelease : ¬ A (.release g)
  inner : ∀ g' p q, g' ≠ g → A (.set g' p) → ∀ c ∈ afterSet g' q, A c
  dropped : ∀ p, A (.drop p) → ∀ c ∈ cleanup p, A c
  first : ∀ p, ∃ a b, afterSet g p = a ++ .release g :: b ∧ (∀ c ∈ a, A c) ∧ .release g ∉ b

theorem not_mem_afterSet {g g' : Which} (h : g' ≠ g) (p : Nat) : Cmd.release g ∉ afterSet g' p := by
  cases g' <;> simp [afterSet] <;> exact fun e => h e.symm

/-- A step that replaces the head of the own commands by some, and leaves the lock as it is. -/
theorem lock_replace {A : Cmd → Prop} {g : Which} {s s' : Sys} {t : Nat} {c : Cmd} {new k : List Cmd} (hs : Lock A g s) (hc : s.threads t = c :: k)
    (hne : c ≠ .release g) (hw : s'.writer g = s.writer g) (ht : s'.threads = put s.threads t (new ++ k)) (hA : A c → ∀ x ∈ new, A x) (hn : .release g ∉ new) :
    Lock A g s' := by
  refine ⟨fun t' h' => ?_, fun t' h' => ?_⟩
  · rw [hw] at h'
    obtain ⟨a, b, e, h1, h2⟩ := hs.1 t' h'
    rw [ht]
    by_cases htt : t' = t
    · subst htt
      rw [put_same]
      rw [hc] at e
      cases a with
      | nil => cases e; exact absurd rfl hne
      | cons x a =>
        cases e
        refine ⟨new ++ a, b, by simp, fun y hy => ?_, h2⟩
        rcases List.mem_append.1 hy with hy | hy
        · exact hA (h1 _ (List.mem_cons_self ..)) y hy
        · exact h1 y (List.mem_cons_of_mem _ hy)
    · rw [put_other _ _ htt]; exact ⟨a, b, e, h1, h2⟩
  · rw [hw] at h'
    have := hs.2 t' h'
    rw [ht]
    by_cases htt : t' = t
    · subst htt
      rw [put_same]
      rw [hc] at this
      intro hm
      rcases List.mem_append.1 hm with hm | hm
      · exact hn hm
      · exact this (List.mem_cons_of_mem _ hm)
    · rw [put_other _ _ htt]; exact this

theorem lock_step {A : Cmd → Prop} {cleanup : Nat → List Cmd} (hapi : ∀ p, Api (cleanup p)) {g : Which} (hcl : Closed A cleanup g) {t : Nat} {s s' : Sys}
    (hs : Lock A g s) (h : step cleanup t s = some s') : Lock A g s' := by
  unfold step at h
  split at h
  · cases h
  · next g' k hk =>
    split at h
    · cases h
    · cases h
      exact lock_replace (new := []) hs hk (by simp) rfl rfl (by simp) (by simp)
  · next g' p k hk =>
    split at h
    · cases h
    · next hw =>
      cases h
      by_cases hg : g' = g
      · subst hg
        have hnone : s.writer g' = none := by
          cases hw' : s.writer g' with
          | none => rfl
          | some x => rw [hw'] at hw; simp at hw
        obtain ⟨a, b, e, h1, h2⟩ := hcl.first (s.current g')
        have hno : ∀ t', .release g' ∉ s.threads t' := fun t' => hs.2 t' (by rw [hnone]; simp)
        refine ⟨fun t' h' => ?_, fun t' h' => ?_⟩
        · simp only [put_same, Option.some.injEq] at h'
          subst h'
          simp only [put_same]
          refine ⟨a, b ++ k, by rw [e]; simp, h1, fun hm => ?_⟩
          rcases List.mem_append.1 hm with hm | hm
          · exact h2 hm
          · exact hno t (by rw [hk]; exact List.mem_cons_of_mem _ hm)
        · simp only [put_same] at h'
          have : t' ≠ t := fun e => h' (by rw [e])
          simp only [put_other _ _ this]
          exact hno t'
      · refine lock_replace (new := afterSet g' (s.current g')) hs hk (by simp) ?_ rfl (fun ha => hcl.inner g' p _ hg ha) (not_mem_afterSet hg _)
        exact put_other _ _ (Ne.symm hg)
  · next k hk =>
    split at h
    · cases h
    · cases h
      exact lock_replace (new := []) hs hk (by simp) rfl rfl (by simp) (by simp)
  · next k hk =>
    cases h
    exact lock_replace (new := []) hs hk (by simp) rfl rfl (by simp) (by simp)
  · next p k hk =>
    split at h
    · cases h
      exact lock_replace (new := cleanup p) hs hk (by simp) rfl rfl (hcl.dropped p) (hapi p g)
    · cases h
      exact lock_replace (new := []) hs hk (by simp) rfl rfl (by simp) (by simp)
  · next g' k hk =>
    cases h
    by_cases hg : g' = g
    · subst hg
      have hw : s.writer g' = some t := Classical.byContradiction fun hne => hs.2 t hne (by rw [hk]; exact List.mem_cons_self ..)
      obtain ⟨a, b, e, h1, h2⟩ := hs.1 t hw
      rw [hk] at e
      have hkb : .release g' ∉ k := by
        cases a with
        | nil => cases e; exact h2
        | cons x a => cases e; exact absurd (h1 _ (List.mem_cons_self ..)) hcl.notRelease
      refine ⟨fun t' h' => by simp [put_same] at h', fun t' _ => ?_⟩
      by_cases htt : t' = t
      · subst htt; simp only [put_same]; exact hkb
      · simp only [put_other _ _ htt]
        exact hs.2 t' (by rw [hw]; simpa using Ne.symm htt)
    · refine lock_replace (new := []) hs hk (by simpa using hg) ?_ rfl (by simp) (by simp)
      exact put_other _ _ (Ne.symm hg)

theorem lock_start {A : Cmd → Prop} {g : Which} (handles : Nat → Nat) {programs : Nat → List Cmd} (hp : ∀ t, Api (programs t)) : Lock A g (start handles programs) :=
  ⟨fun t h => by simp [start] at h, fun t _ => hp t g⟩

theorem lock_reach {A : Cmd → Prop} {cleanup : Nat → List Cmd} (hapi : ∀ p, Api (cleanup p)) {g : Which} (hcl : Closed A cleanup g) {s s' : Sys} (hs : Lock A g s)
    (h : Reach cleanup s s') : Lock A g s' := by
  induction h with
  | refl => exact hs
  | step t _ hst ih => exact lock_step hapi hcl ih hst

end Otel.Glob
