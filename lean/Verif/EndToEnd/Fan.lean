import Mathlib.Logic.Function.Basic
import Mathlib.Data.List.Perm.Subperm
import Mathlib.Data.List.Nodup
/-!
# Several processors (C112)

A tracer or logger provider with any number of processors of any kind: a finished span, or an emitted record, is handed to one processor after the other; `force_flush` and
`shutdown` of the provider ask one after the other. opentelemetry-sdk/src/trace/{span,provider}.rs, opentelemetry-sdk/src/logs/{logger,logger_provider}.rs. Here the
processors are abstract; `Processors.lean` puts in those of C26, C33 and C76.
-/

set_option linter.unusedSectionVars false

namespace Otel.EndToEnd.Fan

/-- A processor for items `X`, with what is behind it. -/
structure Part (X : Type) where
  /-- its states -/
  S : Type
  init : S
  /-- what is known of those that occur -/
  Run : S → Prop
  /-- thread `t` calls `on_end` or `emit` -/
  enter : Nat → X → S → S → Prop
  /-- thread `t` goes on with this call -/
  thread : Nat → S → S → Prop
  /-- thread `t` is in no call -/
  free : S → Nat → Prop
  /-- anything else, among it the steps of flushing threads -/
  own : S → S → Prop
  /-- thread `u` calls `force_flush` (`true`) or `shutdown`; the call is known by a number -/
  ask : Nat → Bool → Nat → S → S → Prop
  /-- the call has returned, `Ok` if `true` -/
  said : S → Nat → Bool → Prop
  /-- ghost: the items with which it has done what it does with items -/
  given : S → List X
  /-- ghost: the item of the thread's call if that has not happened yet -/
  undecided : S → Nat → Option X
  /-- ghost: the number belongs to a call -/
  Live : S → Nat → Prop
  /-- ghost: the items that the call is to cover -/
  covers : S → Nat → List X

variable {X : Type}

/-- Any step. -/
inductive Part.Step (p : Part X) : p.S → p.S → Prop
  | enter {s s'} (t : Nat) (x : X) : p.enter t x s s' → p.Step s s'
  | thread {s s'} (t : Nat) : p.thread t s s' → p.Step s s'
  | own {s s'} : p.own s s' → p.Step s s'
  | ask {s s'} (u : Nat) (b : Bool) (tok : Nat) : p.ask u b tok s s' → p.Step s s'

/-- What is asked of a processor. -/
structure Part.Lawful (p : Part X) : Prop where
  run_init : p.Run p.init
  run_step : ∀ {s s'}, p.Run s → p.Step s s' → p.Run s'
  given_init : p.given p.init = []
  /-- a call takes its item with it, or deals with it at once -/
  enter : ∀ {s s' t x}, p.Run s → p.enter t x s s' → (∀ u, u ≠ t → p.undecided s' u = p.undecided s u) ∧
    ((p.given s' = p.given s ∧ p.undecided s' t = some x) ∨ ((p.given s').Perm (x :: p.given s) ∧ p.undecided s' t = none))
  /-- and deals with it once -/
  thread : ∀ {s s' t}, p.Run s → p.thread t s s' → (∀ u, u ≠ t → p.undecided s' u = p.undecided s u) ∧
    ((p.given s' = p.given s ∧ p.undecided s' t = p.undecided s t) ∨ ∃ x, p.undecided s t = some x ∧ p.undecided s' t = none ∧ (p.given s').Perm (x :: p.given s))
  free : ∀ {s t}, p.free s t → p.undecided s t = none
  own : ∀ {s s'}, p.Run s → p.own s s' → p.given s' = p.given s ∧ p.undecided s' = p.undecided s
  ask : ∀ {s s' u b tok}, p.Run s → p.ask u b tok s s' → p.given s' = p.given s ∧ p.undecided s' = p.undecided s ∧ p.Live s' tok ∧ (p.given s).Subperm (p.covers s' tok)
  grow : ∀ {s s' tok}, p.Run s → p.Step s s' → p.Live s tok → p.Live s' tok ∧ (p.covers s tok).Subperm (p.covers s' tok) ∧ ∀ r, p.said s tok r → p.said s' tok r

variable {I : Type} [DecidableEq I]

/-- A call that has not returned: its item, the processors it is still to be handed to, and the one that has it. -/
structure Frame (I X : Type) where
  x : X
  rest : List I
  inside : Option I

/-- A call of `force_flush` or `shutdown` of the provider: the processors still to be asked, the one that was asked and the number of that call, whether all have answered `Ok`.
Ghost: the items whose calls had returned when it was called; the answers. -/
structure Asking (I X : Type) where
  isFlush : Bool
  rest : List I
  waiting : Option (I × Nat)
  ok : Bool
  start : List X
  answers : List (I × Nat × Bool)

/-- What came of it. -/
structure Outcome (I X : Type) where
  start : List X
  asked : Bool
  answers : List (I × Nat × Bool)
  ok : Bool

/-- The processors, the calls underway, the provider's `is_shutdown`. Ghost: the items of all calls, of those that have returned, of those that were not handed to anyone as the
provider had been shut down; the outcomes. -/
structure Sys (p : I → Part X) where
  side : (i : I) → (p i).S
  frames : List (Nat × Frame I X)
  begun : List X
  finished : List X
  skipped : List X
  asking : List (Nat × Asking I X)
  isShutdown : Bool
  results : List (Outcome I X)

variable {p : I → Part X}

/-- Replace the state of one processor. -/
def Sys.with (g : Sys p) (i : I) (q : (p i).S) : Sys p := { g with side := Function.update g.side i q }

/-- A new provider. -/
def Sys.init (p : I → Part X) : Sys p := ⟨fun i => (p i).init, [], [], [], [], [], false, []⟩

/-- Every schedule. `gate`: is the provider's `is_shutdown` looked at first? That is so of spans, not of records. -/
inductive Reach (p : I → Part X) (gate : Bool) (order : List I) : Sys p → Prop
  | init : Reach p gate order (.init p)
  /-- a span ends, or a record is emitted. span.rs:200-220, logger.rs:30-50 -/
  | call {g} (t : Nat) (x : X) : Reach p gate order g → t ∉ g.frames.map Prod.fst → (gate = true → g.isShutdown = false) →
      Reach p gate order { g with frames := (t, ⟨x, order, none⟩) :: g.frames, begun := g.begun ++ [x] }
  /-- a span ends after `shutdown`. span.rs:209-211 -/
  | skip {g} (x : X) : Reach p gate order g → gate = true → g.isShutdown = true → Reach p gate order { g with skipped := g.skipped ++ [x] }
  /-- the next processor gets it. span.rs:222-237, logger.rs:52-54 -/
  | enter {g} (t : Nat) (f : Frame I X) (i : I) (rest : List I) (l1 l2 : List (Nat × Frame I X)) (s' : (p i).S) : Reach p gate order g →
      g.frames = l1 ++ (t, f) :: l2 → f.inside = none → f.rest = i :: rest → (p i).enter t f.x (g.side i) s' →
      Reach p gate order { g.with i s' with frames := l1 ++ (t, { f with rest := rest, inside := some i }) :: l2 }
  | inner {g} (t : Nat) (f : Frame I X) (i : I) (s' : (p i).S) : Reach p gate order g → (t, f) ∈ g.frames → f.inside = some i → (p i).thread t (g.side i) s' →
      Reach p gate order (g.with i s')
  | leave {g} (t : Nat) (f : Frame I X) (i : I) (l1 l2 : List (Nat × Frame I X)) : Reach p gate order g → g.frames = l1 ++ (t, f) :: l2 → f.inside = some i →
      (p i).free (g.side i) t → Reach p gate order { g with frames := l1 ++ (t, { f with inside := none }) :: l2 }
  /-- the call returns -/
  | ret {g} (t : Nat) (f : Frame I X) (l1 l2 : List (Nat × Frame I X)) : Reach p gate order g → g.frames = l1 ++ (t, f) :: l2 → f.inside = none → f.rest = [] →
      Reach p gate order { g with frames := l1 ++ l2, finished := g.finished ++ [f.x] }
  /-- a processor does something -/
  | own {g} (i : I) (s' : (p i).S) : Reach p gate order g → (p i).own (g.side i) s' → Reach p gate order (g.with i s')
  /-- `force_flush` of the provider, or the first `shutdown`. provider.rs:226-231, 242-250, logger_provider.rs:84-90, 101-114 -/
  | flush {g} (u : Nat) (isFlush : Bool) : Reach p gate order g → u ∉ g.asking.map Prod.fst → (isFlush = false → g.isShutdown = false) →
      Reach p gate order { g with asking := (u, ⟨isFlush, order, none, true, g.finished, []⟩) :: g.asking, isShutdown := g.isShutdown || !isFlush }
  /-- another `shutdown`. provider.rs:263-265, logger_provider.rs:124-126 -/
  | late {g} : Reach p gate order g → g.isShutdown = true → Reach p gate order { g with results := g.results ++ [⟨g.finished, false, [], false⟩] }
  /-- the next processor is asked. provider.rs:229-231, 116-127 -/
  | ask {g} (u : Nat) (f : Asking I X) (i : I) (rest : List I) (l1 l2 : List (Nat × Asking I X)) (tok : Nat) (s' : (p i).S) : Reach p gate order g →
      g.asking = l1 ++ (u, f) :: l2 → f.waiting = none → f.rest = i :: rest → (p i).ask u f.isFlush tok (g.side i) s' →
      Reach p gate order { g.with i s' with asking := l1 ++ (u, { f with rest := rest, waiting := some (i, tok) }) :: l2 }
  /-- and has answered -/
  | hear {g} (u : Nat) (f : Asking I X) (i : I) (tok : Nat) (r : Bool) (l1 l2 : List (Nat × Asking I X)) : Reach p gate order g → g.asking = l1 ++ (u, f) :: l2 →
      f.waiting = some (i, tok) → (p i).said (g.side i) tok r →
      Reach p gate order { g with asking := l1 ++ (u, { f with waiting := none, ok := f.ok && r, answers := f.answers ++ [(i, tok, r)] }) :: l2 }
  /-- the call returns. provider.rs:232-236, 252-262, logger_provider.rs:91-95, 115-123 -/
  | result {g} (u : Nat) (f : Asking I X) (l1 l2 : List (Nat × Asking I X)) : Reach p gate order g → g.asking = l1 ++ (u, f) :: l2 → f.waiting = none → f.rest = [] →
      Reach p gate order { g with asking := l1 ++ l2, results := g.results ++ [⟨f.start, true, f.answers, f.ok⟩] }

/-! ## Lemmas -/

theorem with_same (g : Sys p) (i : I) (q : (p i).S) : (g.with i q).side i = q := by simp [Sys.with]

theorem with_other (g : Sys p) {i j : I} (q : (p i).S) (h : j ≠ i) : (g.with i q).side j = g.side j := by simp [Sys.with, h]

theorem with_run (hl : ∀ i, (p i).Lawful) {g : Sys p} (h : ∀ j, (p j).Run (g.side j)) {i : I} {q : (p i).S} (hq : (p i).Step (g.side i) q) : ∀ j, (p j).Run ((g.with i q).side j) := by
  intro j
  by_cases e : j = i
  · subst e; rw [with_same]; exact (hl j).run_step (h j) hq
  · rw [with_other g q e]; exact h j

/-- **C112** Every processor behaves as it does alone. -/
theorem each_alone (hl : ∀ i, (p i).Lawful) {gate : Bool} {order : List I} {g : Sys p} (h : Reach p gate order g) : ∀ i, (p i).Run (g.side i) := by
  induction h with
  | init => exact fun i => (hl i).run_init
  | call t x _ _ _ ih => exact ih
  | skip x _ _ _ ih => exact ih
  | enter t f i rest l1 l2 s' _ _ _ _ hs ih => exact with_run hl ih (.enter t _ hs)
  | inner t f i s' _ _ _ hs ih => exact with_run hl ih (.thread t hs)
  | leave t f i l1 l2 _ _ _ _ ih => exact ih
  | ret t f l1 l2 _ _ _ _ ih => exact ih
  | own i s' _ hs ih => exact with_run hl ih (.own hs)
  | flush u b _ _ _ ih => exact ih
  | late _ _ ih => exact ih
  | ask u f i rest l1 l2 tok s' _ _ _ _ hs ih => exact with_run hl ih (.ask u _ tok hs)
  | hear u f i tok r l1 l2 _ _ _ _ ih => exact ih
  | result u f l1 l2 _ _ _ _ ih => exact ih

/-- The processor has dealt with the item of this call. -/
def passed (g : Sys p) (i : I) (e : Nat × Frame I X) : Bool :=
  decide (i ∉ e.2.rest) && (decide (e.2.inside ≠ some i) || ((p i).undecided (g.side i) e.1).isNone)

/-- Who has dealt with what. -/
structure Acc (order : List I) (g : Sys p) : Prop where
  keys : (g.frames.map Prod.fst).Nodup
  rest : ∀ e ∈ g.frames, e.2.rest <:+ order
  inside : ∀ e ∈ g.frames, ∀ i, e.2.inside = some i → i ∈ order ∧ i ∉ e.2.rest ∧ ∀ x, (p i).undecided (g.side i) e.1 = some x → x = e.2.x
  begun : g.begun.Perm (g.finished ++ g.frames.map fun e => e.2.x)
  taken : ∀ i ∈ order, ((p i).given (g.side i)).Perm (g.finished ++ (g.frames.filter (passed g i)).map fun e => e.2.x)

theorem acc_reach (hl : ∀ i, (p i).Lawful) {gate : Bool} {order : List I} (hn : order.Nodup) {g : Sys p} (h : Reach p gate order g) : Acc order g := by
  -- a step of one processor that changes neither the calls nor what it has dealt with
  have quiet : ∀ {g : Sys p} {i : I} {q : (p i).S}, Acc order g → (p i).given q = (p i).given (g.side i) → (p i).undecided q = (p i).undecided (g.side i) →
      Acc order (g.with i q) := by
    intro g i q ih h1 h2
    have hp : ∀ j, passed (g.with i q) j = passed g j := by
      intro j
      funext e
      by_cases e' : j = i
      · subst e'; simp only [passed, with_same, h2]
      · simp only [passed, with_other g q e']
    refine ⟨ih.keys, ih.rest, fun e he j hj => ?_, ih.begun, fun j hj => ?_⟩
    · obtain ⟨a1, a2, a3⟩ := ih.inside e he j hj
      refine ⟨a1, a2, ?_⟩
      by_cases e' : j = i
      · subst e'; rw [with_same, h2]; exact a3
      · rw [with_other g q e']; exact a3
    · have ht := ih.taken j hj
      rw [hp]
      by_cases e' : j = i
      · subst e'; rw [with_same, h1]; exact ht
      · rw [with_other g q e']; exact ht
  induction h with
  | init => exact ⟨by simp [Sys.init], by simp [Sys.init], by simp [Sys.init], by simp [Sys.init], fun i _ => by simp [Sys.init, (hl i).given_init]⟩
  | @call g t x _ ht _ ih =>
    refine ⟨?_, fun e he => ?_, fun e he i hi => ?_, ?_, fun i hi => ?_⟩
    · rw [List.map_cons, List.nodup_cons]; exact ⟨ht, ih.keys⟩
    · rcases List.mem_cons.1 he with rfl | he
      · exact List.suffix_refl _
      · exact ih.rest e he
    · rcases List.mem_cons.1 he with rfl | he
      · cases hi
      · exact ih.inside e he i hi
    · show (g.begun ++ [x]).Perm (g.finished ++ x :: g.frames.map fun e => e.2.x)
      exact (ih.begun.append_right _).trans (by rw [List.append_assoc]; exact List.Perm.append_left _ (List.perm_append_singleton _ _))
    · show ((p i).given (g.side i)).Perm (g.finished ++ (((t, (⟨x, order, none⟩ : Frame I X)) :: g.frames).filter (passed g i)).map fun e => e.2.x)
      have : passed g i (t, (⟨x, order, none⟩ : Frame I X)) = false := by simp [passed, hi]
      rw [List.filter_cons, this]
      exact ih.taken i hi
  | skip x _ _ _ ih => exact ⟨ih.keys, ih.rest, ih.inside, ih.begun, ih.taken⟩
  | @enter g t f i rest l1 l2 s' h0 hf hin hrest hs ih =>
    obtain ⟨h3, h4⟩ := (hl i).enter (each_alone hl h0 i) hs
    have hmem : (t, f) ∈ g.frames := by rw [hf]; simp
    have hsuf := ih.rest _ hmem
    simp only [hrest] at hsuf
    have hnd := hn.sublist hsuf.sublist
    rw [List.nodup_cons] at hnd
    have hio : i ∈ order := hsuf.subset List.mem_cons_self
    have hk := ih.keys
    rw [hf] at hk
    have hother : ∀ e ∈ l1 ++ l2, e.1 ≠ t := by
      intro e he h
      rw [List.map_append, List.map_cons, List.nodup_middle, List.nodup_cons] at hk
      exact hk.1 (by rw [← List.map_append]; exact h ▸ List.mem_map.2 ⟨e, he, rfl⟩)
    have hpo : ∀ j e, e ∈ l1 ++ l2 → passed (g.with i s') j e = passed g j e := by
      intro j e he
      by_cases e' : j = i
      · subst e'; simp only [passed, with_same, h3 _ (hother e he)]
      · simp only [passed, with_other g s' e']
    have hsplit : ∀ e, e ∈ l1 ++ (t, { f with rest := rest, inside := some i }) :: l2 → e = (t, { f with rest := rest, inside := some i }) ∨ (e ∈ g.frames ∧ e.1 ≠ t) := by
      intro e he
      rw [List.mem_append, List.mem_cons] at he
      rcases he with he | he | he
      · exact .inr ⟨by rw [hf]; simp [he], hother e (by simp [he])⟩
      · exact .inl he
      · exact .inr ⟨by rw [hf]; simp [he], hother e (by simp [he])⟩
    refine ⟨by simpa using hk, fun e he => ?_, fun e he j hj => ?_, ?_, fun j hj => ?_⟩
    · rcases hsplit e he with rfl | ⟨he, _⟩
      · exact (List.suffix_cons i rest).trans hsuf
      · exact ih.rest e he
    · rcases hsplit e he with rfl | ⟨he, hne⟩
      · simp only [Option.some.injEq] at hj
        subst hj
        refine ⟨hio, hnd.1, fun x hx => ?_⟩
        have hx : (p i).undecided ((g.with i s').side i) t = some x := hx
        rw [with_same] at hx
        rcases h4 with ⟨_, h4⟩ | ⟨_, h4⟩ <;> rw [hx] at h4 <;> simp at h4
        exact h4
      · obtain ⟨a1, a2, a3⟩ := ih.inside e he j hj
        refine ⟨a1, a2, fun x hx => ?_⟩
        have hx : (p j).undecided ((g.with i s').side j) e.1 = some x := hx
        by_cases e' : j = i
        · subst e'; rw [with_same, h3 _ hne] at hx; exact a3 x hx
        · rw [with_other g _ e'] at hx; exact a3 x hx
    · have := ih.begun
      rw [hf] at this
      simpa [Sys.with] using this
    · have ht := ih.taken j hj
      show ((p j).given ((g.with i s').side j)).Perm (g.finished ++ ((l1 ++ (t, { f with rest := rest, inside := some i }) :: l2).filter (passed (g.with i s') j)).map fun e => e.2.x)
      rw [hf, List.filter_append, List.filter_cons] at ht
      rw [List.filter_append, List.filter_cons, List.filter_congr (fun e he => hpo j e (List.mem_append_left _ he)), List.filter_congr (fun e he => hpo j e (List.mem_append_right _ he))]
      by_cases e' : j = i
      · subst e'
        rw [with_same]
        have p0 : passed g j (t, f) = false := by simp [passed, hrest]
        rw [p0] at ht
        simp only [Bool.false_eq_true, if_false] at ht
        rcases h4 with ⟨h4, h5⟩ | ⟨h4, h5⟩
        · have p1 : passed (g.with j s') j (t, { f with rest := rest, inside := some j }) = false := by simp [passed, with_same, h5]
          rw [p1, h4]
          exact ht
        · have p1 : passed (g.with j s') j (t, { f with rest := rest, inside := some j }) = true := by simp [passed, with_same, h5, hnd.1]
          rw [p1]
          simp only [if_true, List.map_append, List.map_cons] at ht ⊢
          refine h4.trans ((ht.cons f.x).trans ?_)
          rw [← List.append_assoc, ← List.append_assoc]
          exact List.perm_middle.symm
      · rw [with_other g _ e']
        have p1 : passed (g.with i s') j (t, { f with rest := rest, inside := some i }) = passed g j (t, f) := by
          have hne : i ≠ j := fun h => e' h.symm
          simp [passed, hin, hrest, e', hne]
        rw [p1]
        cases hb : passed g j (t, f) <;> rw [hb] at ht <;> simpa using ht
  | @inner g t f i s' h0 hmem hin hs ih =>
    obtain ⟨h3, h4⟩ := (hl i).thread (each_alone hl h0 i) hs
    rcases h4 with ⟨h4, h5⟩ | ⟨x, h5, h6, h4⟩
    · refine quiet ih h4 (funext fun u => ?_)
      by_cases e : u = t
      · rw [e, h5]
      · exact h3 u e
    · obtain ⟨b1, b2, b3⟩ := ih.inside _ hmem i hin
      have hx : x = f.x := b3 x h5
      obtain ⟨l1, l2, hf⟩ := List.append_of_mem hmem
      have hk := ih.keys
      rw [hf] at hk
      have hother : ∀ e ∈ l1 ++ l2, e.1 ≠ t := by
        intro e he h
        rw [List.map_append, List.map_cons, List.nodup_middle, List.nodup_cons] at hk
        exact hk.1 (by rw [← List.map_append]; exact h ▸ List.mem_map.2 ⟨e, he, rfl⟩)
      refine ⟨ih.keys, ih.rest, fun e he j hj => ?_, ih.begun, fun j hj => ?_⟩
      · obtain ⟨a1, a2, a3⟩ := ih.inside e he j hj
        refine ⟨a1, a2, fun y hy => ?_⟩
        by_cases e' : j = i
        · subst e'
          rw [with_same] at hy
          by_cases et : e.1 = t
          · rw [et, h6] at hy; cases hy
          · rw [h3 _ et] at hy; exact a3 y hy
        · rw [with_other g _ e'] at hy; exact a3 y hy
      · have ht := ih.taken j hj
        show ((p j).given ((g.with i s').side j)).Perm (g.finished ++ (g.frames.filter (passed (g.with i s') j)).map fun e => e.2.x)
        by_cases e' : j = i
        · subst e'
          rw [with_same]
          have hpo : ∀ e, e ∈ l1 ++ l2 → passed (g.with j s') j e = passed g j e := by
            intro e he
            simp only [passed, with_same, h3 _ (hother e he)]
          have p0 : passed g j (t, f) = false := by simp [passed, hin, h5]
          have p1 : passed (g.with j s') j (t, f) = true := by simp [passed, with_same, h6, b2]
          rw [hf, List.filter_append, List.filter_cons, p0] at ht
          rw [hf, List.filter_append, List.filter_cons, p1, List.filter_congr (fun e he => hpo e (List.mem_append_left _ he)),
            List.filter_congr (fun e he => hpo e (List.mem_append_right _ he))]
          simp only [Bool.false_eq_true, if_false, if_true, List.map_append, List.map_cons] at ht ⊢
          refine h4.trans ((ht.cons x).trans ?_)
          rw [hx, ← List.append_assoc, ← List.append_assoc]
          exact List.perm_middle.symm
        · rw [with_other g _ e']
          have : passed (g.with i s') j = passed g j := by funext e; simp only [passed, with_other g s' e']
          rw [this]
          exact ht
  | @leave g t f i l1 l2 h0 hf hin hfree ih =>
    have hu := (hl i).free hfree
    have hmem : (t, f) ∈ g.frames := by rw [hf]; simp
    obtain ⟨b1, b2, b3⟩ := ih.inside _ hmem i hin
    have hsplit : ∀ e, e ∈ l1 ++ (t, { f with inside := none }) :: l2 → e = (t, { f with inside := none }) ∨ e ∈ g.frames := by
      intro e he
      rw [List.mem_append, List.mem_cons] at he
      rcases he with he | he | he
      · exact .inr (by rw [hf]; simp [he])
      · exact .inl he
      · exact .inr (by rw [hf]; simp [he])
    have hk := ih.keys
    rw [hf] at hk
    refine ⟨by simpa using hk, fun e he => ?_, fun e he j hj => ?_, ?_, fun j hj => ?_⟩
    · rcases hsplit e he with rfl | he
      · exact ih.rest (t, f) hmem
      · exact ih.rest e he
    · rcases hsplit e he with rfl | he
      · cases hj
      · exact ih.inside e he j hj
    · have := ih.begun
      rw [hf] at this
      simpa using this
    · have ht := ih.taken j hj
      show ((p j).given (g.side j)).Perm (g.finished ++ ((l1 ++ (t, { f with inside := none }) :: l2).filter (passed g j)).map fun e => e.2.x)
      have hp : passed g j (t, { f with inside := none }) = passed g j (t, f) := by
        simp only [passed, hin]
        by_cases e' : j = i
        · subst e'; simp [hu]
        · have : i ≠ j := fun h => e' h.symm
          simp [this]
      rw [hf, List.filter_append, List.filter_cons] at ht
      rw [List.filter_append, List.filter_cons, hp]
      cases hb : passed g j (t, f) <;> rw [hb] at ht <;> simpa using ht
  | @ret g t f l1 l2 _ hf hin hrest ih =>
    have hk := ih.keys
    rw [hf] at hk
    rw [List.map_append, List.map_cons, List.nodup_middle, List.nodup_cons, ← List.map_append] at hk
    have hsub : ∀ e ∈ l1 ++ l2, e ∈ g.frames := by
      intro e he
      rw [hf]
      rcases List.mem_append.1 he with he | he <;> simp [he]
    refine ⟨hk.2, fun e he => ih.rest e (hsub e he), fun e he => ih.inside e (hsub e he), ?_, fun i hi => ?_⟩
    · have := ih.begun
      rw [hf] at this
      refine this.trans ?_
      simp only [List.map_append, List.map_cons, List.append_assoc]
      exact List.Perm.append_left _ List.perm_middle
    · have ht := ih.taken i hi
      have p1 : passed g i (t, f) = true := by simp [passed, hin, hrest]
      show ((p i).given (g.side i)).Perm ((g.finished ++ [f.x]) ++ ((l1 ++ l2).filter (passed g i)).map fun e => e.2.x)
      rw [hf, List.filter_append, List.filter_cons, p1] at ht
      simp only [if_true] at ht
      refine ht.trans ?_
      rw [List.filter_append]
      simp only [List.map_append, List.map_cons, List.append_assoc]
      exact List.Perm.append_left _ List.perm_middle
  | @own g i s' h0 hs ih =>
    obtain ⟨h1, h2⟩ := (hl i).own (each_alone hl h0 i) hs
    exact quiet ih h1 h2
  | flush u b _ _ _ ih => exact ⟨ih.keys, ih.rest, ih.inside, ih.begun, ih.taken⟩
  | late _ _ ih => exact ⟨ih.keys, ih.rest, ih.inside, ih.begun, ih.taken⟩
  | @ask g u f i rest l1 l2 tok s' h0 _ _ _ hs ih =>
    obtain ⟨h1, h2, _⟩ := (hl i).ask (each_alone hl h0 i) hs
    have := quiet ih h1 h2
    exact ⟨this.keys, this.rest, this.inside, this.begun, this.taken⟩
  | hear u f i tok r l1 l2 _ _ _ _ ih => exact ⟨ih.keys, ih.rest, ih.inside, ih.begun, ih.taken⟩
  | result u f l1 l2 _ _ _ _ ih => exact ⟨ih.keys, ih.rest, ih.inside, ih.begun, ih.taken⟩

/-- **C112** Every processor gets every item once: at any time it has dealt with those of the calls that have returned, and otherwise only with those of calls that have begun.
When no call is underway, exactly with these. -/
theorem every_part_given (hl : ∀ i, (p i).Lawful) {gate : Bool} {order : List I} (hn : order.Nodup) {g : Sys p} (h : Reach p gate order g) {i : I} (hi : i ∈ order) :
    g.finished.Subperm ((p i).given (g.side i)) ∧ ((p i).given (g.side i)).Subperm g.begun ∧ g.finished.Subperm g.begun ∧
      (g.frames = [] → g.finished.Perm g.begun ∧ ((p i).given (g.side i)).Perm g.finished) := by
  have ha := acc_reach hl hn h
  have ht := ha.taken i hi
  refine ⟨(List.sublist_append_left _ _).subperm.trans ht.symm.subperm, ?_, (List.sublist_append_left _ _).subperm.trans ha.begun.symm.subperm, fun hf => ?_⟩
  · refine ht.subperm.trans (List.Subperm.trans ?_ ha.begun.symm.subperm)
    exact List.Sublist.subperm (List.Sublist.append (List.Sublist.refl _) (List.Sublist.map _ List.filter_sublist))
  · have hb := ha.begun
    rw [hf] at ht hb
    simp only [List.filter_nil, List.map_nil, List.append_nil] at ht hb
    exact ⟨hb.symm, ht⟩

/-! ### The provider's `force_flush` and `shutdown` -/

/-- The processor was asked after these items. -/
def After (q : Part X) (start : List X) (s : q.S) (tok : Nat) : Prop := q.Live s tok ∧ start.Subperm (q.covers s tok)

/-- Nothing of what was said is taken back. -/
def Grow (q : Part X) (s s' : q.S) : Prop := ∀ tok, q.Live s tok → q.Live s' tok ∧ (q.covers s tok).Subperm (q.covers s' tok) ∧ ∀ r, q.said s tok r → q.said s' tok r

theorem Grow.refl (q : Part X) (s : q.S) : Grow q s s := fun _ h => ⟨h, List.Subperm.refl _, fun _ h => h⟩

theorem After.grow {q : Part X} {start : List X} {s s' : q.S} {tok : Nat} (h : After q start s tok) (hg : Grow q s s') : After q start s' tok :=
  ⟨(hg tok h.1).1, h.2.trans (hg tok h.1).2.1⟩

theorem with_grow (hl : ∀ i, (p i).Lawful) {g : Sys p} {i : I} {q : (p i).S} (hr : (p i).Run (g.side i)) (h : (p i).Step (g.side i) q) : ∀ j, Grow (p j) (g.side j) ((g.with i q).side j) := by
  intro j
  by_cases e : j = i
  · subst e; rw [with_same]; exact fun tok ht => (hl j).grow hr h ht
  · rw [with_other g q e]; exact Grow.refl _ _

/-- These are answers to calls made after these items. -/
def Heard (start : List X) (side : (i : I) → (p i).S) (l : List (I × Nat × Bool)) : Prop :=
  ∀ i tok r, (i, tok, r) ∈ l → (p i).said (side i) tok r ∧ After (p i) start (side i) tok

theorem Heard.grow {start : List X} {side side' : (i : I) → (p i).S} {l : List (I × Nat × Bool)} (h : Heard start side l) (hg : ∀ i, Grow (p i) (side i) (side' i)) :
    Heard start side' l := fun i tok r hm => ⟨(hg i tok (h i tok r hm).2.1).2.2 r (h i tok r hm).1, (h i tok r hm).2.grow (hg i)⟩

/-- One of the provider's calls. -/
structure One (order : List I) (side : (i : I) → (p i).S) (finished : List X) (f : Asking I X) : Prop where
  start : f.start <+: finished
  rest : f.rest <:+ order
  waiting : ∀ i tok, f.waiting = some (i, tok) → After (p i) f.start (side i) tok
  heard : Heard f.start side f.answers
  done : ∀ i ∈ order, i ∉ f.rest → (∀ tok, f.waiting ≠ some (i, tok)) → ∃ tok r, (i, tok, r) ∈ f.answers
  ok : f.ok = f.answers.all fun e => e.2.2

/-- What is known of an outcome. -/
structure Known (order : List I) (side : (i : I) → (p i).S) (finished : List X) (r : Outcome I X) : Prop where
  start : r.start <+: finished
  heard : Heard r.start side r.answers
  all : r.asked = true → ∀ i ∈ order, ∃ tok a, (i, tok, a) ∈ r.answers
  ok : r.ok = (r.asked && r.answers.all fun e => e.2.2)

/-- All of them. -/
structure Asks (order : List I) (g : Sys p) : Prop where
  asking : ∀ e ∈ g.asking, One order g.side g.finished e.2
  results : ∀ r ∈ g.results, Known order g.side g.finished r

theorem One.grow {order : List I} {side side' : (i : I) → (p i).S} {fin fin' : List X} {f : Asking I X} (h : One order side fin f) (hg : ∀ i, Grow (p i) (side i) (side' i))
    (hf : fin <+: fin') : One order side' fin' f := ⟨h.start.trans hf, h.rest, fun i tok hw => (h.waiting i tok hw).grow (hg i), h.heard.grow hg, h.done, h.ok⟩

theorem Asks.grow {order : List I} {g g' : Sys p} (h : Asks order g) (hg : ∀ i, Grow (p i) (g.side i) (g'.side i)) (hf : g.finished <+: g'.finished) (ha : g'.asking = g.asking)
    (hres : g'.results = g.results) : Asks order g' :=
  ⟨fun e he => (h.asking e (ha ▸ he)).grow hg hf, fun r hs =>
    ⟨(h.results r (hres ▸ hs)).start.trans hf, (h.results r (hres ▸ hs)).heard.grow hg, (h.results r (hres ▸ hs)).all, (h.results r (hres ▸ hs)).ok⟩⟩

theorem asks_reach (hl : ∀ i, (p i).Lawful) {gate : Bool} {order : List I} (hn : order.Nodup) {g : Sys p} (h : Reach p gate order g) : Asks order g := by
  induction h with
  | init => exact ⟨by simp [Sys.init], by simp [Sys.init]⟩
  | call t x _ _ _ ih => exact ih.grow (fun i => Grow.refl _ _) (List.prefix_refl _) rfl rfl
  | skip x _ _ _ ih => exact ih.grow (fun i => Grow.refl _ _) (List.prefix_refl _) rfl rfl
  | enter t f i rest l1 l2 s' h0 _ _ _ hs ih => exact ih.grow (with_grow hl (each_alone hl h0 i) (.enter t _ hs)) (List.prefix_refl _) rfl rfl
  | inner t f i s' h0 _ _ hs ih => exact ih.grow (with_grow hl (each_alone hl h0 i) (.thread t hs)) (List.prefix_refl _) rfl rfl
  | leave t f i l1 l2 h0 _ _ _ ih => exact ih.grow (fun i => Grow.refl _ _) (List.prefix_refl _) rfl rfl
  | ret t f l1 l2 h0 _ _ _ ih => exact ih.grow (fun i => Grow.refl _ _) (List.prefix_append _ _) rfl rfl
  | own i s' h0 hs ih => exact ih.grow (with_grow hl (each_alone hl h0 i) (.own hs)) (List.prefix_refl _) rfl rfl
  | @flush g u b h0 _ _ ih =>
    refine ⟨fun e he => ?_, ih.results⟩
    rcases List.mem_cons.1 he with rfl | he
    · exact ⟨List.prefix_refl _, List.suffix_refl _, fun i tok hw => (by cases hw), fun i tok r hm => (by cases hm), fun i hi h1 _ => absurd hi h1, rfl⟩
    · exact ih.asking e he
  | @late g h0 _ ih =>
    refine ⟨ih.asking, fun r hs => ?_⟩
    rcases List.mem_append.1 hs with hs | hs
    · exact ih.results r hs
    · rw [List.mem_singleton] at hs
      subst hs
      exact ⟨List.prefix_refl _, fun i tok r hm => (by cases hm), fun h => (by cases h), rfl⟩
  | @ask g u f i rest l1 l2 tok s' h0 hf hw hrest hs ih =>
    have hrun := each_alone hl h0
    have h1 := ih.grow (g' := g.with i s') (with_grow hl (hrun i) (.ask u _ tok hs)) (List.prefix_refl _) rfl rfl
    have hmem : (u, f) ∈ g.asking := by rw [hf]; simp
    refine ⟨fun e he => ?_, h1.results⟩
    rw [List.mem_append, List.mem_cons] at he
    rcases he with he | rfl | he
    · exact h1.asking e (by show e ∈ g.asking; rw [hf]; simp [he])
    · have ho := h1.asking (u, f) hmem
      have hsuf := ho.rest
      simp only [hrest] at hsuf
      refine ⟨ho.start, (List.suffix_cons i rest).trans hsuf, fun j tok' hj => ?_, ho.heard, fun j hj hnr hnw => ?_, ho.ok⟩
      · simp only [Option.some.injEq, Prod.mk.injEq] at hj
        obtain ⟨rfl, rfl⟩ := hj
        show After (p i) f.start ((g.with i s').side i) _
        rw [with_same]
        obtain ⟨_, _, h3, h4⟩ := (hl i).ask (hrun i) hs
        exact ⟨h3, ho.start.sublist.subperm.trans ((every_part_given hl hn h0 (hsuf.subset List.mem_cons_self)).1.trans h4)⟩
      · have hne : j ≠ i := fun e => hnw tok (by rw [e])
        refine ho.done j hj ?_ (fun tok => by rw [hw]; simp)
        show j ∉ f.rest
        rw [hrest, List.mem_cons]
        exact fun e => e.elim hne hnr
    · exact h1.asking e (by show e ∈ g.asking; rw [hf]; simp [he])
  | @hear g u f i tok r l1 l2 h0 hf hw hr ih =>
    refine ⟨fun e he => ?_, ih.results⟩
    rw [List.mem_append, List.mem_cons] at he
    have hmem : (u, f) ∈ g.asking := by rw [hf]; simp
    rcases he with he | rfl | he
    · exact ih.asking e (by rw [hf]; simp [he])
    · have ho := ih.asking (u, f) hmem
      refine ⟨ho.start, ho.rest, fun j tok hj => (by cases hj), fun j tok' r' hm => ?_, fun j hj hnr _ => ?_, ?_⟩
      · rcases List.mem_append.1 hm with hm | hm
        · exact ho.heard j tok' r' hm
        · simp only [List.mem_singleton, Prod.mk.injEq] at hm
          obtain ⟨rfl, rfl, rfl⟩ := hm
          exact ⟨hr, ho.waiting j tok' hw⟩
      · by_cases e : j = i
        · subst e
          exact ⟨tok, r, by simp⟩
        · obtain ⟨tok', r', hm⟩ := ho.done j hj hnr fun tok' h' => by
            rw [hw] at h'
            simp only [Option.some.injEq, Prod.mk.injEq] at h'
            exact e h'.1.symm
          exact ⟨tok', r', List.mem_append_left _ hm⟩
      · have := ho.ok
        simp only at this
        simp [this]
    · exact ih.asking e (by rw [hf]; simp [he])
  | @result g u f l1 l2 h0 hf hw hrest ih =>
    have hmem : (u, f) ∈ g.asking := by rw [hf]; simp
    refine ⟨fun e he => ih.asking e (by rw [hf]; rcases List.mem_append.1 he with he | he <;> simp [he]), fun r hs => ?_⟩
    rcases List.mem_append.1 hs with hs | hs
    · exact ih.results r hs
    · rw [List.mem_singleton] at hs
      subst hs
      have ho := ih.asking (u, f) hmem
      refine ⟨ho.start, ho.heard, fun _ i hi => ho.done i hi (by show i ∉ f.rest; rw [hrest]; simp) fun tok => by rw [hw]; simp, ?_⟩
      have := ho.ok
      simpa using this

/-- **C112** `force_flush` and `shutdown` of the provider ask every processor, also after one that fails, and each after all the items whose calls had returned when the provider
was called; they return `Ok` exactly if all processors answer `Ok`. Only a `shutdown` after another asks none, and that is an error. -/
theorem provider_asks_all (hl : ∀ i, (p i).Lawful) {gate : Bool} {order : List I} (hn : order.Nodup) {g : Sys p} (h : Reach p gate order g) {r : Outcome I X} (hr : r ∈ g.results) :
    r.start <+: g.finished ∧ (r.asked = true → ∀ i ∈ order, ∃ tok a, (i, tok, a) ∈ r.answers) ∧ (r.ok = true ↔ r.asked = true ∧ ∀ i tok a, (i, tok, a) ∈ r.answers → a = true) ∧
      ∀ i tok a, (i, tok, a) ∈ r.answers → (p i).said (g.side i) tok a ∧ r.start.Subperm ((p i).covers (g.side i) tok) := by
  have hk := (asks_reach hl hn h).results r hr
  refine ⟨hk.start, hk.all, ?_, fun i tok a hm => ⟨(hk.heard i tok a hm).1, (hk.heard i tok a hm).2.2⟩⟩
  rw [hk.ok]
  simp only [Bool.and_eq_true, List.all_eq_true, Prod.forall]

/-- **C112** So after an `Ok` every processor has answered `Ok`. -/
theorem provider_ok_all (hl : ∀ i, (p i).Lawful) {gate : Bool} {order : List I} (hn : order.Nodup) {g : Sys p} (h : Reach p gate order g) {r : Outcome I X} (hr : r ∈ g.results)
    (hok : r.ok = true) : ∀ i ∈ order, ∃ tok, (i, tok, true) ∈ r.answers := by
  obtain ⟨_, h2, h3, _⟩ := provider_asks_all hl hn h hr
  intro i hi
  obtain ⟨tok, a, hm⟩ := h2 (h3.1 hok).1 i hi
  obtain rfl := (h3.1 hok).2 i tok a hm
  exact ⟨tok, hm⟩

end Otel.EndToEnd.Fan
