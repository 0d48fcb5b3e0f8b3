import Mathlib.Tactic.Common
/-!
# C118: the ticks of the batch processors and the periodic reader on an async runtime

`to_interval_stream` (`opentelemetry-sdk/src/runtime.rs:43-58`) and what the three tasks make of it: `.skip(1)`
(`trace/span_processor_with_async_runtime.rs:359-361`, `logs/log_processor_with_async_runtime.rs:132-134`,
`metrics/periodic_reader_with_async_runtime.rs:115-117`). Time is a natural number. A delay starts when the stream is polled for the next item, which the
task does `late` after the item before (it was busy), and ends after exactly `interval`.
-/

namespace Otel.Async.Ticker

/-- The times of the items of the stream made at `now`: `unfold` awaits the delay before it gives an item, the first one too. runtime.rs:50-57 -/
def intervalStream (interval : Nat) : Nat → List Nat → List Nat
  | _, [] => []
  | now, late :: ls => (now + late + interval) :: intervalStream interval (now + late + interval) ls

/-- The ticks of the task. span_processor_with_async_runtime.rs:359-361 -/
def ticks (interval now : Nat) (lates : List Nat) : List Nat := (intervalStream interval now lates).drop 1

/-- Each time in the list is at least `d` after the one before. -/
def Apart (d : Nat) : List Nat → Prop
  | a :: b :: l => a + d ≤ b ∧ Apart d (b :: l)
  | _ => True

/-- Each time in the list is at most `d` after the one before. -/
def Within (d : Nat) : List Nat → Prop
  | a :: b :: l => b ≤ a + d ∧ Within d (b :: l)
  | _ => True

theorem stream_apart (interval now : Nat) (lates : List Nat) : Apart interval (now :: intervalStream interval now lates) := by
  induction lates generalizing now with
  | nil => trivial
  | cons l ls ih => exact ⟨by omega, ih _⟩

theorem stream_within (interval busy now : Nat) (lates : List Nat) (h : ∀ l ∈ lates, l ≤ busy) :
    Within (interval + busy) (now :: intervalStream interval now lates) := by
  induction lates generalizing now with
  | nil => trivial
  | cons l ls ih =>
    have := h l List.mem_cons_self
    exact ⟨by omega, ih _ (fun l' hl => h l' (List.mem_cons_of_mem _ hl))⟩

/-- **C118 (partial)** Ticks are never closer than the interval, and no further apart than the interval and the time the task is busy. Missing: the
first tick, see `first_tick_two_intervals_violated`. -/
theorem ticks_regular_partial (interval busy now : Nat) (lates : List Nat) (h : ∀ l ∈ lates, l ≤ busy) :
    Apart interval (ticks interval now lates) ∧ Within (interval + busy) (ticks interval now lates) := by
  cases lates with
  | nil => exact ⟨trivial, trivial⟩
  | cons l ls =>
    have h' : ∀ l' ∈ ls, l' ≤ busy := fun l' hl => h l' (List.mem_cons_of_mem _ hl)
    cases ls with
    | nil => exact ⟨trivial, trivial⟩
    | cons l2 ls =>
      have h1 := stream_apart interval (now + l + interval) (l2 :: ls)
      have h2 := stream_within interval busy (now + l + interval) (l2 :: ls) h'
      exact ⟨h1.2, h2.2⟩

/-- **C118, false as it stands** The comment at `.skip(1)` says that the ticker fires immediately; it does not. The first tick, and with it the first
export a timer makes, comes no sooner than two intervals after the start, whatever the task does meanwhile. -/
theorem first_tick_two_intervals_violated (interval now : Nat) (lates : List Nat) (t : Nat) (h : (ticks interval now lates).head? = some t) :
    now + 2 * interval ≤ t := by
  cases lates with
  | nil => cases h
  | cons l ls =>
    cases ls with
    | nil => cases h
    | cons l2 ls =>
      simp only [ticks, intervalStream, List.drop_succ_cons, List.drop_zero, List.head?_cons, Option.some.injEq] at h
      omega

/-- A task that is never busy, interval 5: the ticks are at 10, 15 and 20. -/
example : ticks 5 0 [0, 0, 0, 0] = [10, 15, 20] ∧ (ticks 5 0 [0, 0, 0, 0]).head? = some 10 := by decide

end Otel.Async.Ticker
