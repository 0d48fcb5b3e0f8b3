/-!
# The cadence of the periodic reader (C71)

The worker's clock (`opentelemetry-sdk/src/metrics/periodic_reader.rs:162-319`): time is a natural number, an iteration is a wait and a
collection with export. Within the bookkeeping after an export the readings of the clock are equal.
-/

namespace Otel.Metrics.Timing

/-- The worker's variables at the head of the loop, and the time. periodic_reader.rs:162-163 -/
structure Clock where
  now : Nat
  intervalStart : Nat
  remaining : Nat
deriving DecidableEq, Repr

/-- One iteration. -/
inductive Iter where
  /-- a flush request arrives after `wait`, before the time-out; the export takes `took` -/
  | flush (wait took : Nat)
  /-- the wait times out, noticed `slack` late; the export takes `took` -/
  | timer (slack took : Nat)
deriving DecidableEq, Repr

/-- When the thread starts. periodic_reader.rs:162-163 -/
def Clock.start (now interval : Nat) : Clock := ⟨now, now, interval⟩

/-- `Duration - Duration`: panics below zero. -/
def durationSub (a b : Nat) : Option Nat := if b ≤ a then some (a - b) else none

/-- When the iteration collects. -/
def collectAt (c : Clock) : Iter → Nat
  | .flush wait _ => c.now + wait
  | .timer slack _ => c.now + c.remaining + slack

/-- One iteration of the loop; `none` is a panic, or a flush that is said to arrive after the time-out. `Flush`: 174-235, `Timeout`: 278-310 -/
def Clock.iter (interval : Nat) (c : Clock) (i : Iter) : Option Clock :=
  match i with
  | .flush wait took =>
    if wait ≤ c.remaining then
      let now := collectAt c i + took
      let elapsed := now - c.intervalStart
      if elapsed < interval then (durationSub interval elapsed).map (Clock.mk now c.intervalStart)
      else some ⟨now, now, 0⟩
    else none
  | .timer _ took =>
    let now := collectAt c i + took
    if took > interval then some ⟨now, now, 0⟩
    else (durationSub interval took).map (Clock.mk now now)

/-- Every clock of every history. -/
inductive Reach (interval : Nat) : Clock → Prop
  | start (now : Nat) : Reach interval (Clock.start now interval)
  | iter {c c' : Clock} {i : Iter} : Reach interval c → c.iter interval i = some c' → Reach interval c'

structure Inv (interval : Nat) (c : Clock) : Prop where
  past : c.intervalStart ≤ c.now
  rem : c.remaining ≤ interval
  deadline : c.now + c.remaining ≤ c.intervalStart + interval

theorem inv_iter {interval : Nat} {c c' : Clock} {i : Iter} (h : Inv interval c) (hs : c.iter interval i = some c') : Inv interval c' := by
  obtain ⟨h1, h2, h3⟩ := h
  cases i with
  | flush wait took =>
    simp only [Clock.iter, durationSub] at hs
    split at hs
    · split at hs
      · rename_i he
        rw [if_pos (Nat.le_of_lt he)] at hs
        simp only [Option.map_some, Option.some.injEq] at hs; subst hs
        simp only [collectAt] at he ⊢
        constructor <;> simp only <;> omega
      · rename_i he
        injection hs with hs; subst hs
        simp only [collectAt] at he ⊢
        constructor <;> simp only <;> omega
    · cases hs
  | timer slack took =>
    simp only [Clock.iter, collectAt, durationSub] at hs
    split at hs
    · injection hs with hs; subst hs
      constructor <;> simp only <;> omega
    · rw [if_pos (by omega)] at hs
      simp only [Option.map_some, Option.some.injEq] at hs; subst hs
      constructor <;> simp only <;> omega

theorem inv {interval : Nat} {c : Clock} (h : Reach interval c) : Inv interval c := by
  induction h with
  | start now => exact ⟨Nat.le_refl _, Nat.le_refl _, Nat.le_refl _⟩
  | iter _ hs ih => exact inv_iter ih hs

/-- **C71 (no panic)** The worker's arithmetic never panics: every iteration ends, whatever the durations. -/
theorem no_underflow (interval : Nat) (c : Clock) (i : Iter) (hi : ∀ wait took, i = .flush wait took → wait ≤ c.remaining) :
    ∃ c', c.iter interval i = some c' := by
  cases i with
  | flush wait took =>
    simp only [Clock.iter, durationSub, if_pos (hi wait took rfl)]
    split
    · rename_i he; rw [if_pos (Nat.le_of_lt he)]; exact ⟨_, rfl⟩
    · exact ⟨_, rfl⟩
  | timer slack took =>
    simp only [Clock.iter, durationSub]
    split
    · exact ⟨_, rfl⟩
    · rw [if_pos (by omega)]; exact ⟨_, rfl⟩

/-- **C71 (pause)** In every history the next collection begins at most one interval after the last export ended, plus the lateness of the
timer. -/
theorem next_collection_soon (interval : Nat) (c : Clock) (h : Reach interval c) (i : Iter)
    (hi : ∀ wait took, i = .flush wait took → wait ≤ c.remaining) :
    collectAt c i ≤ c.now + interval + (match i with | .timer slack _ => slack | .flush _ _ => 0) := by
  have := (inv h).rem
  cases i with
  | flush wait took => have := hi wait took rfl; simp only [collectAt]; omega
  | timer slack took => simp only [collectAt]; omega

/-- **C71 (cadence)** Without flushes the reader collects at a fixed rate: the next collection begins one interval after the last one began, or when
the last export ended if that took longer. -/
theorem cadence (interval : Nat) (c c' : Clock) (slack took took' : Nat) (hs : c.iter interval (.timer slack took) = some c') :
    collectAt c' (.timer 0 took') = collectAt c (.timer slack took) + max interval took := by
  simp only [Clock.iter, durationSub] at hs
  split at hs
  · injection hs with hs; subst hs
    simp only [collectAt]; omega
  · rw [if_pos (by omega)] at hs
    simp only [Option.map_some, Option.some.injEq] at hs; subst hs
    simp only [collectAt]; omega

/-- **C71 (flush)** A flush does not postpone the next periodic collection beyond one interval after the end of the last periodic export (or the
start), unless the flush itself ends later; then the next one begins at once. -/
theorem flush_keeps_deadline (interval : Nat) (c c' : Clock) (h : Reach interval c) (wait took took' : Nat)
    (hs : c.iter interval (.flush wait took) = some c') :
    collectAt c' (.timer 0 took') = max (c.intervalStart + interval) (c.now + wait + took) := by
  have hI := inv h
  have h1 := hI.past
  simp only [Clock.iter, durationSub] at hs
  split at hs
  · split at hs
    · rename_i he
      rw [if_pos (Nat.le_of_lt he)] at hs
      simp only [Option.map_some, Option.some.injEq] at hs; subst hs
      simp only [collectAt] at he ⊢; omega
    · rename_i he
      injection hs with hs; subst hs
      simp only [collectAt] at he ⊢; omega
  · cases hs

/-- **C71 (flushes)** Flushes made within the interval do not accumulate: however many there were, the next periodic collection still begins one
interval after the end of the last periodic export (or the start), or when the last of the flushes ends if that is later. -/
theorem flushes_keep_deadline (interval : Nat) (c c' c'' : Clock) (h : Reach interval c) (fs : List (Nat × Nat)) (wait took took' : Nat)
    (hin : c.now + (fs.map fun f => f.1 + f.2).sum < c.intervalStart + interval)
    (hs : fs.foldlM (fun c f => c.iter interval (.flush f.1 f.2)) c = some c') (hl : c'.iter interval (.flush wait took) = some c'') :
    collectAt c'' (.timer 0 took') = max (c.intervalStart + interval) (c.now + (fs.map fun f => f.1 + f.2).sum + wait + took) := by
  induction fs generalizing c with
  | nil =>
    simp only [List.foldlM_nil] at hs
    have hs : c = c' := Option.some.inj hs
    subst hs
    have := flush_keeps_deadline interval c c'' h wait took took' hl
    simpa using this
  | cons f fs ih =>
    simp only [List.foldlM_cons] at hs
    obtain ⟨c1, h1, h2⟩ := Option.bind_eq_some_iff.1 hs
    simp only [List.map_cons, List.sum_cons] at hin ⊢
    have hp := (inv h).past
    have hc : c1.intervalStart = c.intervalStart ∧ c1.now = c.now + f.1 + f.2 := by
      simp only [Clock.iter, durationSub, collectAt] at h1
      split at h1
      · have e1 : c.now + f.1 + f.2 - c.intervalStart < interval := by omega
        simp only [e1, if_true, Nat.le_of_lt e1] at h1
        simp only [Option.map_some, Option.some.injEq] at h1; subst h1
        exact ⟨rfl, rfl⟩
      · cases h1
    have := ih c1 (h.iter h1) (by omega) h2
    rw [this]
    omega

/-- **C71 (flushes, where it fails)** After a flush that ends past the end of the interval, a second flush puts the periodic collection off by a
whole interval: with an interval of 10, a flush from 9 to 12 and another from 12 to 13 leave the next periodic collection at 22, not at 13. -/
theorem late_flushes_postpone_violated :
    ((Clock.start 0 10).iter 10 (.flush 9 3) >>= fun c => c.iter 10 (.flush 0 1)).map (fun c => collectAt c (.timer 0 0)) = some 22 := by rfl

/-- Non-vacuity: an interval of 10, a periodic export of 3, a flush of 2 after 4, and the next periodic collection at 23. -/
example : ((Clock.start 0 10).iter 10 (.timer 0 3) >>= fun c => c.iter 10 (.flush 4 2)).map (fun c => (c, collectAt c (.timer 0 0))) =
    some (⟨19, 13, 4⟩, 23) := by rfl

end Otel.Metrics.Timing
