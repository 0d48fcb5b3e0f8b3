/-!
# The manual reader and the meters of a provider (C49)

`ManualReader` keeps its state behind a mutex, `SdkMeterProvider::meter_with_scope` its map behind another; every call is one step.
Lock poisoning is left out.
-/

namespace Otel.Metrics.Manual

/-! ## The reader -/

/-- `ManualReaderInner` and, for the weak references, which pipelines are still alive. manual_reader.rs:50-53 -/
structure Reader where
  producer : Option Nat
  isShutdown : Bool
  alive : Nat → Bool

/-- `ManualReader::new`. manual_reader.rs:62-70 -/
def Reader.new : Reader where
  producer := none
  isShutdown := false
  alive := fun _ => true

/-- What happens to a reader. -/
inductive Op where
  | register (p : Nat)
  /-- pipeline `p` is dropped with its provider -/
  | dropPipeline (p : Nat)
  | collect
  | flush
  | shutdown
deriving DecidableEq, Repr

/-- What a call returns; `collected p` is `Ok` with the data of pipeline `p`. -/
inductive Res where
  | unit
  | collected (p : Nat)
  | error
deriving DecidableEq, Repr

/-- `register_pipeline`: 76-87, `collect`: 93-109, `force_flush`: 112-114, `shutdown_with_timeout`: 117-128 of manual_reader.rs. The
production itself succeeds. -/
def Reader.op (r : Reader) : Op → Reader × Res
  | .register p => match r.producer with
    | none => ({ r with producer := some p }, .unit)
    | some _ => (r, .unit)
  | .dropPipeline p => ({ r with alive := fun q => if q = p then false else r.alive q }, .unit)
  | .collect => match r.producer with
    | some p => if r.alive p then (r, .collected p) else (r, .error)
    | none => (r, .error)
  | .flush => (r, .unit)
  | .shutdown => ({ r with producer := none, isShutdown := true }, .unit)

/-- A history: the final state and the results. -/
def Reader.run (r : Reader) : List Op → Reader × List Res
  | [] => (r, [])
  | o :: os => let (r1, x) := r.op o; let (r2, xs) := r1.run os; (r2, x :: xs)

theorem no_producer (r : Reader) (hp : r.producer = none) (os : List Op) (hreg : ∀ p, Op.register p ∉ os) :
    (r.run os).1.producer = none ∧ ∀ p, Res.collected p ∉ (r.run os).2 := by
  induction os generalizing r with
  | nil => exact ⟨hp, by simp [Reader.run]⟩
  | cons o os ih =>
    have hreg' : ∀ p, Op.register p ∉ os := fun p h => hreg p (List.mem_cons_of_mem _ h)
    have h1 : (r.op o).1.producer = none ∧ ∀ p, Res.collected p ≠ (r.op o).2 := by
      cases o with
      | register p => exact absurd List.mem_cons_self (hreg p)
      | dropPipeline p => exact ⟨hp, by simp [Reader.op]⟩
      | collect => simp [Reader.op, hp]
      | flush => exact ⟨hp, by simp [Reader.op]⟩
      | shutdown => exact ⟨rfl, by simp [Reader.op]⟩
    obtain ⟨h2, h3⟩ := ih (r.op o).1 h1.1 hreg'
    refine ⟨h2, fun p hm => ?_⟩
    rcases List.mem_cons.1 (show Res.collected p ∈ (r.op o).2 :: ((r.op o).1.run os).2 from hm) with h | h
    · exact h1.2 p h
    · exact h3 p h

/-- **C49 (manual reader, partial)** After `shutdown` no collection succeeds, whatever was done before and is done after, as long as the reader
is not registered with a provider again. Without that condition it fails, see `collect_after_shutdown_violated`. -/
theorem collect_after_shutdown_partial (before after : List Op) (hreg : ∀ p, Op.register p ∉ after) :
    ∀ p, Res.collected p ∉ ((Reader.new.run before).1.run (.shutdown :: after)).2 := by
  intro p hm
  have h := no_producer ((Reader.new.run before).1.op .shutdown).1 rfl after hreg
  rcases List.mem_cons.1 (show Res.collected p ∈ ((Reader.new.run before).1.op .shutdown).2 :: _ from hm) with h' | h'
  · cases h'
  · exact h.2 p h'

/-- **C49 (manual reader, violated)** The documentation says any call of `collect` after `shutdown` returns an error. Given to a second
provider, a reader that was shut down collects again; `is_shutdown` is never read. -/
theorem collect_after_shutdown_violated :
    ((Reader.new.run [.register 0, .collect, .shutdown, .collect, .register 1, .collect]).2) =
      [.unit, .collected 0, .unit, .error, .unit, .collected 1] := by rfl

/-- **C49 (registration)** Between two shutdowns a reader collects from the pipeline that was registered first, and only while that is alive:
whatever else is done, no other pipeline's data is returned. -/
theorem first_registration_wins (r : Reader) (hp : r.producer = none) (p : Nat) (os : List Op) (hs : Op.shutdown ∉ os) (q : Nat)
    (hq : Res.collected q ∈ (r.run (.register p :: os)).2) : q = p := by
  have key : ∀ (os : List Op) (r : Reader), r.producer = some p → Op.shutdown ∉ os → Res.collected q ∈ (r.run os).2 → q = p := by
    intro os
    induction os with
    | nil => intro r _ _ h; simp [Reader.run] at h
    | cons o os ih =>
      intro r hr hs hm
      have hs' : Op.shutdown ∉ os := fun h => hs (List.mem_cons_of_mem _ h)
      rcases List.mem_cons.1 (show Res.collected q ∈ (r.op o).2 :: ((r.op o).1.run os).2 from hm) with h | h
      · cases o with
        | register p' => simp [Reader.op, hr] at h
        | dropPipeline p' => simp [Reader.op] at h
        | collect =>
          simp only [Reader.op, hr] at h
          split at h
          · injection h
          · cases h
        | flush => simp [Reader.op] at h
        | shutdown => exact absurd List.mem_cons_self hs
      · refine ih (r.op o).1 ?_ hs' h
        cases o with
        | register p' => simp [Reader.op, hr]
        | dropPipeline p' => exact hr
        | collect => simp only [Reader.op, hr]; split <;> exact hr
        | flush => exact hr
        | shutdown => exact absurd List.mem_cons_self hs
  rcases List.mem_cons.1 (show Res.collected q ∈ (r.op (.register p)).2 :: ((r.op (.register p)).1.run os).2 from hq) with h | h
  · simp [Reader.op, hp] at h
  · exact key os _ (by simp [Reader.op, hp]) hs h

/-- **C49 (dropped provider)** A reader whose provider is gone returns an error; one whose provider lives returns its data. -/
theorem collect_iff (r : Reader) (p : Nat) : (r.op .collect).2 = .collected p ↔ r.producer = some p ∧ r.alive p = true := by
  simp only [Reader.op]
  split
  · rename_i q hq
    rw [hq]
    split
    · rename_i ha; constructor
      · intro h; injection h with h; subst h; exact ⟨rfl, ha⟩
      · rintro ⟨h, _⟩; injection h with h; rw [h]
    · rename_i ha; constructor
      · intro h; cases h
      · rintro ⟨h, h'⟩; injection h with h; rw [h] at ha; exact absurd h' ha
  · rename_i hq; rw [hq]; simp

/-- In this history `p` is the pipeline registered first since the last shutdown, or since the start. -/
def RegisteredFirst (os : List Op) (p : Nat) : Prop :=
  ∃ c d b, os = c ++ d ++ .register p :: b ∧ (c = [] ∨ ∃ c', c = c' ++ [.shutdown]) ∧
    (∀ o ∈ d, o ≠ .shutdown ∧ ∀ q, o ≠ .register q) ∧ Op.shutdown ∉ b

theorem run_append (r : Reader) (a b : List Op) : (r.run (a ++ b)).1 = ((r.run a).1.run b).1 := by
  induction a generalizing r with
  | nil => rfl
  | cons o a ih => exact ih (r.op o).1

theorem alive_run (os : List Op) (r : Reader) (p : Nat) : (r.run os).1.alive p = true ↔ r.alive p = true ∧ Op.dropPipeline p ∉ os := by
  induction os generalizing r with
  | nil => simp [Reader.run]
  | cons o os ih =>
    show ((r.op o).1.run os).1.alive p = true ↔ _
    rw [ih]
    cases o with
    | register q => simp only [Reader.op]; split <;> simp
    | dropPipeline q =>
      simp only [Reader.op]
      by_cases hq : p = q
      · simp [hq]
      · simp [hq]
    | collect => simp only [Reader.op]; split <;> (try split) <;> simp
    | flush => simp [Reader.op]
    | shutdown => simp [Reader.op]

theorem producer_quiet (d : List Op) (r : Reader) (hr : r.producer = none) (hd : ∀ o ∈ d, o ≠ .shutdown ∧ ∀ q, o ≠ .register q) : (r.run d).1.producer = none :=
  (no_producer r hr d fun p hp => (hd _ hp).2 p rfl).1

theorem producer_kept (b : List Op) (r : Reader) (p : Nat) (hr : r.producer = some p) (hb : Op.shutdown ∉ b) : (r.run b).1.producer = some p := by
  induction b generalizing r with
  | nil => exact hr
  | cons o b ih =>
    refine ih (r.op o).1 ?_ fun h => hb (List.mem_cons_of_mem _ h)
    cases o with
    | register q => simp [Reader.op, hr]
    | dropPipeline q => exact hr
    | collect => simp only [Reader.op, hr]; split <;> exact hr
    | flush => exact hr
    | shutdown => exact absurd List.mem_cons_self hb

theorem producer_run (os : List Op) :
    (∀ p, (Reader.new.run os).1.producer = some p → RegisteredFirst os p) ∧
    ((Reader.new.run os).1.producer = none → ∃ c d, os = c ++ d ∧ (c = [] ∨ ∃ c', c = c' ++ [.shutdown]) ∧ ∀ o ∈ d, o ≠ .shutdown ∧ ∀ q, o ≠ .register q) := by
  induction h : os.length generalizing os with
  | zero => rw [List.length_eq_zero_iff.1 h]; exact ⟨fun p hp => (by cases hp), fun _ => ⟨[], [], rfl, .inl rfl, by simp⟩⟩
  | succ n ih =>
    rcases List.eq_nil_or_concat os with rfl | ⟨l, o, rfl⟩
    · cases h
    rw [List.concat_eq_append] at *
    obtain ⟨ih1, ih2⟩ := ih l (by simpa using h)
    have hr : (Reader.new.run (l ++ [o])).1 = ((Reader.new.run l).1.op o).1 := by rw [run_append]; rfl
    rw [hr]
    generalize (Reader.new.run l).1 = r at ih1 ih2
    have keep1 : o ≠ .shutdown → ∀ p, r.producer = some p → RegisteredFirst (l ++ [o]) p := by
      intro ho p hp
      obtain ⟨c, d, b, rfl, hc, hd, hb⟩ := ih1 p hp
      refine ⟨c, d, b ++ [o], by simp, hc, hd, fun hm => ?_⟩
      rcases List.mem_append.1 hm with hm | hm
      · exact hb hm
      · exact ho (List.mem_singleton.1 hm).symm
    have keep2 : o ≠ .shutdown → (∀ q, o ≠ .register q) → r.producer = none →
        ∃ c d, l ++ [o] = c ++ d ∧ (c = [] ∨ ∃ c', c = c' ++ [.shutdown]) ∧ ∀ o ∈ d, o ≠ .shutdown ∧ ∀ q, o ≠ .register q := by
      intro ho hq hp
      obtain ⟨c, d, rfl, hc, hd⟩ := ih2 hp
      refine ⟨c, d ++ [o], by simp, hc, fun x hx => ?_⟩
      rcases List.mem_append.1 hx with hx | hx
      · exact hd x hx
      · rw [List.mem_singleton.1 hx]; exact ⟨ho, hq⟩
    cases o with
    | register q =>
      simp only [Reader.op]
      cases hp : r.producer with
      | none =>
        refine ⟨fun p h => ?_, nofun⟩
        injection h with h; subst h
        obtain ⟨c, d, rfl, hc, hd⟩ := ih2 hp
        exact ⟨c, d, [], by simp, hc, hd, by simp⟩
      | some q' => exact ⟨fun p h => keep1 nofun p h, fun h => by rw [hp] at h; cases h⟩
    | dropPipeline q => exact ⟨keep1 nofun, keep2 nofun nofun⟩
    | collect =>
      have : (r.op .collect).1 = r := by simp only [Reader.op]; split <;> (try split) <;> rfl
      rw [this]; exact ⟨keep1 nofun, keep2 nofun nofun⟩
    | flush => exact ⟨keep1 nofun, keep2 nofun nofun⟩
    | shutdown => exact ⟨nofun, fun _ => ⟨l ++ [.shutdown], [], by simp, .inr ⟨l, rfl⟩, by simp⟩⟩

/-- **C49 (collection)** After any history a collection returns the data of the pipeline that was registered first since the last shutdown, as long
as that pipeline has not been dropped, and otherwise fails. -/
theorem collect_after_history (os : List Op) (p : Nat) :
    ((Reader.new.run os).1.op .collect).2 = .collected p ↔ RegisteredFirst os p ∧ Op.dropPipeline p ∉ os := by
  rw [collect_iff, alive_run]
  refine and_congr ⟨(producer_run os).1 p, ?_⟩ ⟨fun h => h.2, fun h => ⟨rfl, h⟩⟩
  rintro ⟨c, d, b, rfl, hc, hd, hb⟩
  rw [run_append, run_append]
  have h0 : (Reader.new.run c).1.producer = none := by
    rcases hc with rfl | ⟨c', rfl⟩
    · rfl
    · rw [run_append]; rfl
  have h1 := producer_quiet d _ h0 hd
  refine producer_kept b _ p ?_ hb
  simp [h1]

example : RegisteredFirst [.register 0, .shutdown, .collect, .register 1, .register 2, .flush] 1 ∧
    Op.dropPipeline 1 ∉ [Op.register 0, .shutdown, .collect, .register 1, .register 2, .flush] :=
  ⟨⟨[.register 0, .shutdown], [.collect], [.register 2, .flush], rfl, .inr ⟨[.register 0], rfl⟩, by simp, by simp⟩, by simp⟩

/-- Non-vacuity: a registered reader, dropped later. -/
example : (Reader.new.run [.collect, .register 3, .collect, .register 4, .collect, .dropPipeline 4, .collect, .dropPipeline 3, .collect]).2 =
    [.error, .unit, .collected 3, .unit, .collected 3, .unit, .collected 3, .unit, .error] := by rfl

/-! ## Meters -/

variable {Scope : Type} [DecidableEq Scope]

/-- The map of a provider; meters are numbered. meter_provider.rs:42-45 -/
structure Provider (Scope : Type) where
  meters : List (Scope × Nat)
  next : Nat
  isShutdown : Bool

/-- `meter_with_scope`: `none` is the no-op meter. meter_provider.rs:190-226; the scope's name does not matter. -/
def Provider.meter (p : Provider Scope) (scope : Scope) : Provider Scope × Option Nat :=
  if p.isShutdown then (p, none)
  else match p.meters.lookup scope with
    | some m => (p, some m)
    | none => ({ p with meters := (scope, p.next) :: p.meters, next := p.next + 1 }, some p.next)

/-- A call on the provider. -/
inductive PCall (Scope : Type) where
  | meter (scope : Scope)
  | shutdown
deriving DecidableEq, Repr

/-- A history: the meters handed out, with the scopes asked for. -/
def Provider.run (p : Provider Scope) : List (PCall Scope) → Provider Scope × List (Scope × Option Nat)
  | [] => (p, [])
  | .meter sc :: cs => let (p1, m) := p.meter sc; let (p2, ms) := p1.run cs; (p2, (sc, m) :: ms)
  | .shutdown :: cs => Provider.run { p with isShutdown := true } cs

/-- `SdkMeterProvider` as built. meter_provider.rs:304-326 -/
def Provider.new : Provider Scope where
  meters := []
  next := 0
  isShutdown := false

structure PInv (p : Provider Scope) : Prop where
  lt : ∀ sc m, p.meters.lookup sc = some m → m < p.next
  inj : ∀ sc sc' m, p.meters.lookup sc = some m → p.meters.lookup sc' = some m → sc = sc'

theorem pinv_meter {p : Provider Scope} (h : PInv p) (sc : Scope) : PInv (p.meter sc).1 := by
  simp only [Provider.meter]
  split
  · exact h
  · split
    · exact h
    · constructor
      · intro sc' m hm
        simp only [List.lookup_cons] at hm
        split at hm
        · injection hm with hm; subst hm; exact Nat.lt_succ_self _
        · exact Nat.lt_succ_of_lt (h.lt sc' m hm)
      · intro a b m ha hb
        simp only [List.lookup_cons] at ha hb
        split at ha <;> split at hb
        · rename_i h1 _ h2; simp only [beq_iff_eq] at h1 h2; rw [h1, h2]
        · injection ha with ha; subst ha; exact absurd (h.lt b _ hb) (Nat.lt_irrefl _)
        · injection hb with hb; subst hb; exact absurd (h.lt a _ ha) (Nat.lt_irrefl _)
        · exact h.inj a b m ha hb

theorem meter_lookup {p : Provider Scope} {sc : Scope} {m : Nat} (h : (p.meter sc).2 = some m) : (p.meter sc).1.meters.lookup sc = some m := by
  simp only [Provider.meter] at h ⊢
  split at h
  · cases h
  · rename_i hs
    rw [if_neg hs]
    split at h
    · rename_i m' hm; exact hm.trans h
    · rename_i hn; simp only [List.lookup_cons, beq_self_eq_true]; exact h

theorem meter_grows {p : Provider Scope} {sc sc' : Scope} {m : Nat} (h : p.meters.lookup sc' = some m) :
    (p.meter sc).1.meters.lookup sc' = some m := by
  simp only [Provider.meter]
  split
  · exact h
  · split
    · exact h
    · rename_i hn
      simp only [List.lookup_cons]
      split
      · rename_i he; simp only [beq_iff_eq] at he; rw [he, hn] at h; cases h
      · exact h

theorem run_lookup (p : Provider Scope) (cs : List (PCall Scope)) :
    (∀ sc m, p.meters.lookup sc = some m → (p.run cs).1.meters.lookup sc = some m) ∧
    (∀ sc m, (sc, some m) ∈ (p.run cs).2 → (p.run cs).1.meters.lookup sc = some m) ∧ (PInv p → PInv (p.run cs).1) := by
  induction cs generalizing p with
  | nil => exact ⟨fun _ _ h => h, by simp [Provider.run], fun h => h⟩
  | cons c cs ih =>
    cases c with
    | meter sc =>
      obtain ⟨i1, i2, i3⟩ := ih (p.meter sc).1
      refine ⟨fun sc' m h => i1 sc' m (meter_grows h), fun sc' m h => ?_, fun h => i3 (pinv_meter h sc)⟩
      rcases List.mem_cons.1 (show (sc', some m) ∈ (sc, (p.meter sc).2) :: ((p.meter sc).1.run cs).2 from h) with h | h
      · simp only [Prod.mk.injEq] at h
        obtain ⟨rfl, h⟩ := h
        exact i1 _ _ (meter_lookup h.symm)
      · exact i2 sc' m h
    | shutdown =>
      obtain ⟨i1, i2, i3⟩ := ih { p with isShutdown := true }
      exact ⟨i1, i2, fun h => i3 ⟨h.lt, h.inj⟩⟩

/-- **C49 (meters)** In every history two requests are given the same meter exactly if they ask for the same scope. -/
theorem meters_per_scope (cs : List (PCall Scope)) (sc sc' : Scope) (m m' : Nat)
    (h : (sc, some m) ∈ (Provider.new.run cs).2) (h' : (sc', some m') ∈ (Provider.new.run cs).2) : m = m' ↔ sc = sc' := by
  obtain ⟨_, i2, i3⟩ := run_lookup (Provider.new : Provider Scope) cs
  have hI := i3 ⟨by simp [Provider.new], by simp [Provider.new]⟩
  have l1 := i2 _ _ h
  have l2 := i2 _ _ h'
  constructor
  · rintro rfl; exact hI.inj _ _ _ l1 l2
  · rintro rfl; rw [l1] at l2; injection l2

/-- **C49 (no-op after shutdown)** A meter asked for after `shutdown` is the no-op meter; before, it is not. -/
theorem noop_iff_shutdown (p : Provider Scope) (sc : Scope) : (p.meter sc).2 = none ↔ p.isShutdown = true := by
  simp only [Provider.meter]
  split
  · rename_i h; simp [h]
  · rename_i h; split <;> simp [h]

theorem run_shutdown (p : Provider Scope) (h : p.isShutdown = true) (cs : List (PCall Scope)) : ∀ x ∈ (p.run cs).2, x.2 = none := by
  induction cs generalizing p with
  | nil => simp [Provider.run]
  | cons c cs ih =>
    cases c with
    | meter sc =>
      intro x hx
      have hm : p.meter sc = (p, none) := by simp [Provider.meter, h]
      have hx' : x ∈ (sc, (p.meter sc).2) :: ((p.meter sc).1.run cs).2 := hx
      rw [hm] at hx'
      rcases List.mem_cons.1 hx' with rfl | hx'
      · rfl
      · exact ih p h x hx'
    | shutdown => exact ih _ rfl

/-- **C49 (final)** After `shutdown` every meter handed out is a no-op, in every history. -/
theorem meters_after_shutdown (p : Provider Scope) (cs : List (PCall Scope)) : ∀ x ∈ (p.run (.shutdown :: cs)).2, x.2 = none :=
  run_shutdown _ rfl cs

/-- Non-vacuity. -/
example : (Provider.new.run [.meter "a", .meter "b", .meter "a", .shutdown, .meter "a"]).2 =
    [("a", some 0), ("b", some 1), ("a", some 0), ("a", none)] := by rfl

end Otel.Metrics.Manual
