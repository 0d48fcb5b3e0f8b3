/-! # Re-entrancy of the current context (C62)

The thread-local context stack is in a `RefCell`. `map_current` holds a shared borrow while its closure runs
(`/repo/opentelemetry/src/context.rs:145-147`); `attach` and the drop of a guard hold an exclusive one
(`326-333`, `463-470`). Dropping a guard can drop the last reference to a context, and with it the last reference to a span,
inside the exclusive borrow (`pop_id`, `571-573`): the span then ends and its processors run there. Starting a span runs the
sampler and the processors inside `map_current` (`/repo/opentelemetry/src/trace/tracer.rs:138, 171`). -/

namespace Otel.Ctx.Reentrancy

/-- What code does with the current context; what it does otherwise does not matter here. -/
inductive Cmd where
  /-- `Context::map_current(|cx| body)`: also `current`, `with_baggage` on the current context, starting a span, emitting a log. -/
  | read (body : List Cmd)
  /-- `Context::attach`. -/
  | attach
  /-- Dropping a guard; `fin` is what runs because the popped context is destroyed (empty if it lives on elsewhere). -/
  | dropGuard (fin : List Cmd)

mutual
/-- Runs a command under `readers` shared borrows and possibly an exclusive one; `false` is a `BorrowError` panic.
`RefCell::borrow` panics under an exclusive borrow, `borrow_mut` under any. `context.rs:146, 328, 467` -/
def exec (readers : Nat) (writer : Bool) : Cmd → Bool
  | .read body => !writer && execAll (readers + 1) writer body
  | .attach => !writer && readers == 0
  | .dropGuard fin => !writer && readers == 0 && execAll readers true fin
/-- Runs commands in sequence. -/
def execAll (readers : Nat) (writer : Bool) : List Cmd → Bool
  | [] => true
  | c :: cs => exec readers writer c && execAll readers writer cs
end

/-! ## Specification -/

mutual
/-- Only reads, at any depth. -/
inductive ReadsOnly : Cmd → Prop where
  | read {body} : AllReadsOnly body → ReadsOnly (.read body)
/-- All of them only read. -/
inductive AllReadsOnly : List Cmd → Prop where
  | nil : AllReadsOnly []
  | cons {c cs} : ReadsOnly c → AllReadsOnly cs → AllReadsOnly (c :: cs)
end

/-- Callbacks run while the context is read do not attach or drop guards, and what runs when a context is destroyed does not
touch the current context at all. -/
def WellBehaved : Cmd → Prop
  | .read body => AllReadsOnly body
  | .attach => True
  | .dropGuard fin => fin = []

/-! ## Theorems -/

theorem execAll_writer (readers : Nat) (cs : List Cmd) : execAll readers true cs = true ↔ cs = [] := by
  cases cs with
  | nil => simp [execAll]
  | cons c cs => cases c <;> simp [execAll, exec]

mutual
theorem exec_reads (readers : Nat) (c : Cmd) : exec (readers + 1) false c = true ↔ ReadsOnly c := by
  cases c with
  | read body =>
    rw [exec]
    simp only [Bool.not_false, Bool.true_and]
    rw [execAll_reads (readers + 1) body]
    exact ⟨.read, fun h => by cases h; assumption⟩
  | attach => simp only [exec]; exact ⟨fun h => by simp at h, fun h => by cases h⟩
  | dropGuard fin => simp only [exec]; exact ⟨fun h => by simp at h, fun h => by cases h⟩
theorem execAll_reads (readers : Nat) (cs : List Cmd) : execAll (readers + 1) false cs = true ↔ AllReadsOnly cs := by
  cases cs with
  | nil => simp only [execAll]; exact ⟨fun _ => .nil, fun _ => trivial⟩
  | cons c cs =>
    rw [execAll, Bool.and_eq_true, exec_reads readers c, execAll_reads readers cs]
    exact ⟨fun h => .cons h.1 h.2, fun h => by cases h; constructor <;> assumption⟩
end

/-- **C62, exactly.** A program of any length and nesting runs without panic precisely when code called back while the
context is read only reads, and code run by the destruction of a context does not touch the current context. -/
theorem no_panic_iff (cs : List Cmd) : execAll 0 false cs = true ↔ ∀ c ∈ cs, WellBehaved c := by
  induction cs with
  | nil => simp [execAll]
  | cons c cs ih =>
    rw [execAll, Bool.and_eq_true, ih]
    have : exec 0 false c = true ↔ WellBehaved c := by
      cases c with
      | read body => simp only [exec, WellBehaved]; simpa using execAll_reads 0 body
      | attach => simp [exec, WellBehaved]
      | dropGuard fin => simp only [exec, WellBehaved]; simpa using execAll_writer 0 fin
    rw [this]; simp

/-- **C62, the part that holds.** Code that only reads the current context can do so from within any callback of a read
(span processors' `on_start`, samplers), to any depth; and guards whose context outlives them can be dropped. -/
theorem reads_nest_partial (cs : List Cmd) (h : AllReadsOnly cs) : execAll 0 false (.read cs :: [.attach, .dropGuard []]) = true := by
  rw [no_panic_iff]
  intro c hc
  simp only [List.mem_cons, List.not_mem_nil, or_false] at hc
  rcases hc with rfl | rfl | rfl
  · exact h
  · trivial
  · rfl

example : AllReadsOnly [.read [.read []], .read []] :=
  .cons (.read (.cons (.read .nil) .nil)) (.cons (.read .nil) .nil)

/-- C62 in full: no use of the current context panics, from whatever callback. -/
def NeverPanics : Prop := ∀ cs : List Cmd, execAll 0 false cs = true

/-- **C62 is violated.** (1) A span processor that reads the current context in `on_end` (emitting a log record does) panics
when the span ends because the guard holding its context is dropped. (2) A span processor or sampler that attaches a context
while a span is started on the current context panics. -/
theorem never_panics_violated :
    execAll 0 false [.attach, .dropGuard [.read []]] = false ∧ execAll 0 false [.read [.attach, .dropGuard []]] = false ∧ ¬ NeverPanics :=
  ⟨by decide, by decide, fun h => absurd (h [.read [.attach]]) (by decide)⟩

end Otel.Ctx.Reentrancy
