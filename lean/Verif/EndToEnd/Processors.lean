import Verif.EndToEnd.Fan
import Verif.EndToEnd.Delivery
import Verif.EndToEnd.AsyncDelivery
/-!
# The processors of a provider (C112)

The batch processors of C26 and C33, those of C76 and the simple ones, each with an OTLP exporter behind it (C91, C108), as processors in the sense of `Fan.lean`.
-/

set_option linter.unusedSectionVars false

namespace Otel.EndToEnd.Fan
open Rust Otel.Otlp
open Common (Val Scope)

variable {X R M Y O : Type}

/-! ## Processors with a thread of their own -/

/-- The steps of a processor, sorted; the `Bool` is the answer of the exporter if the step asks it. The rest is as in `Part`. -/
structure Base (p : Proc X) where
  enter : Nat → X → p.S → Bool → p.S → Prop
  thread : Nat → p.S → Bool → p.S → Prop
  free : p.S → Nat → Prop
  own : p.S → Bool → p.S → Prop
  ask : Nat → Bool → Nat → p.S → Bool → p.S → Prop
  said : p.S → Nat → Bool → Prop
  given : p.S → List X
  undecided : p.S → Nat → Option X
  Live : p.S → Nat → Prop
  covers : p.S → Nat → List X

/-- What occurs. -/
inductive Runs (p : Proc X) : p.S → Prop
  | init : Runs p p.init
  | step {s s' ok} : Runs p s → p.step s ok s' → Runs p s'

/-- As `Part.Lawful`. -/
structure Base.Lawful {p : Proc X} (b : Base p) : Prop where
  given_init : b.given p.init = []
  enter_le : ∀ {t x s ok s'}, b.enter t x s ok s' → p.step s ok s'
  thread_le : ∀ {t s ok s'}, b.thread t s ok s' → p.step s ok s'
  own_le : ∀ {s ok s'}, b.own s ok s' → p.step s ok s'
  ask_le : ∀ {u f tok s ok s'}, b.ask u f tok s ok s' → p.step s ok s'
  enter : ∀ {s s' ok t x}, Runs p s → b.enter t x s ok s' → (∀ u, u ≠ t → b.undecided s' u = b.undecided s u) ∧
    ((b.given s' = b.given s ∧ b.undecided s' t = some x) ∨ ((b.given s').Perm (x :: b.given s) ∧ b.undecided s' t = none))
  thread : ∀ {s s' ok t}, Runs p s → b.thread t s ok s' → (∀ u, u ≠ t → b.undecided s' u = b.undecided s u) ∧
    ((b.given s' = b.given s ∧ b.undecided s' t = b.undecided s t) ∨ ∃ x, b.undecided s t = some x ∧ b.undecided s' t = none ∧ (b.given s').Perm (x :: b.given s))
  free : ∀ {s t}, b.free s t → b.undecided s t = none
  own : ∀ {s s' ok}, Runs p s → b.own s ok s' → b.given s' = b.given s ∧ b.undecided s' = b.undecided s
  ask : ∀ {s s' ok u f tok}, Runs p s → b.ask u f tok s ok s' → b.given s' = b.given s ∧ b.undecided s' = b.undecided s ∧ b.Live s' tok ∧ (b.given s).Subperm (b.covers s' tok)
  grow : ∀ {s s' ok tok}, Runs p s → p.step s ok s' → b.Live s tok → b.Live s' tok ∧ (b.covers s tok).Subperm (b.covers s' tok) ∧ ∀ r, b.said s tok r → b.said s' tok r

/-- The state of a processor, of its exporter, and what was sent. -/
abbrev Full (p : Proc X) (R Y : Type) := p.S × Exporter.St R × List (Sending Y)

/-- A step of the processor that is one of `stp`, together with the exporter: as in `Pipe`. -/
inductive Goes {p : Proc X} (c : O → Exporter.Cfg R (List X) M Y) (stp : p.S → Bool → p.S → Prop) : Full p R Y → Full p R Y → Prop
  | quiet {s s' e log} (ok : Bool) : stp s ok s' → p.exported s' = p.exported s → p.shutdowns s' = p.shutdowns s → Goes c stp (s, e, log) (s', e, log)
  | export {s s' e log} (b : List X) (w : Exporter.World) (o : O) : stp s (decide ((Exporter.doExport (c o) e b w).1 = .ok)) s' → p.exported s' = p.exported s ++ [b] →
      Goes c stp (s, e, log) (s', e, log ++ [⟨w, (Exporter.doExport (c o) e b w).1, (Exporter.doExport (c o) e b w).2⟩])
  | shut {s s' e log} (ok : Bool) (o : O) : stp s ok s' → p.exported s' = p.exported s → p.shutdowns s' = p.shutdowns s + 1 →
      Goes c stp (s, e, log) (s', (Exporter.shutdown (c o) e).2, log)

/-- The processor with its exporter. -/
def Base.part {p : Proc X} (b : Base p) (c : O → Exporter.Cfg R (List X) M Y) (res : R) : Part X where
  S := Full p R Y
  init := (p.init, ⟨true, res⟩, [])
  Run q := Pipe p c res q.1 q.2.1 q.2.2
  enter t x := Goes c (b.enter t x)
  thread t := Goes c (b.thread t)
  free q := b.free q.1
  own := Goes c b.own
  ask u f tok := Goes c (b.ask u f tok)
  said q := b.said q.1
  given q := b.given q.1
  undecided q := b.undecided q.1
  Live q := b.Live q.1
  covers q := b.covers q.1

theorem Goes.step {p : Proc X} {c : O → Exporter.Cfg R (List X) M Y} {stp : p.S → Bool → p.S → Prop} {q q' : Full p R Y} (h : Goes c stp q q') : ∃ ok, stp q.1 ok q'.1 := by
  cases h with
  | quiet ok h _ _ => exact ⟨ok, h⟩
  | «export» b w o h _ => exact ⟨_, h⟩
  | shut ok o h _ _ => exact ⟨ok, h⟩

theorem Goes.pipe {p : Proc X} {c : O → Exporter.Cfg R (List X) M Y} {res : R} {stp : p.S → Bool → p.S → Prop} (hle : ∀ {s ok s'}, stp s ok s' → p.step s ok s')
    {q q' : Full p R Y} (h0 : Pipe p c res q.1 q.2.1 q.2.2) (h : Goes c stp q q') : Pipe p c res q'.1 q'.2.1 q'.2.2 := by
  cases h with
  | quiet ok h h1 h2 => exact .quiet ok h0 (hle h) h1 h2
  | «export» b w o h h1 => exact .export b w o h0 (hle h) h1
  | shut ok o h h1 h2 => exact .shut ok o h0 (hle h) h1 h2

theorem pipe_runs {p : Proc X} {c : O → Exporter.Cfg R (List X) M Y} {res : R} {s : p.S} {e : Exporter.St R} {log : List (Sending Y)} (h : Pipe p c res s e log) : Runs p s := by
  induction h with
  | init => exact .init
  | quiet ok _ h _ _ ih => exact .step ih h
  | «export» b w o _ h _ ih => exact .step ih h
  | shut ok o _ h _ _ ih => exact .step ih h

theorem Base.part_lawful {p : Proc X} {b : Base p} (hb : b.Lawful) (c : O → Exporter.Cfg R (List X) M Y) (res : R) : (b.part c res).Lawful where
  run_init := .init
  run_step := by
    intro s s' h hs
    cases hs with
    | enter t x hs => exact Goes.pipe hb.enter_le h hs
    | thread t hs => exact Goes.pipe hb.thread_le h hs
    | own hs => exact Goes.pipe hb.own_le h hs
    | ask u f tok hs => exact Goes.pipe hb.ask_le h hs
  given_init := hb.given_init
  enter := fun h hs => let ⟨_, hs⟩ := Goes.step hs; hb.enter (pipe_runs h) hs
  thread := fun h hs => let ⟨_, hs⟩ := Goes.step hs; hb.thread (pipe_runs h) hs
  free := hb.free
  own := fun h hs => let ⟨_, hs⟩ := Goes.step hs; hb.own (pipe_runs h) hs
  ask := fun h hs => let ⟨_, hs⟩ := Goes.step hs; hb.ask (pipe_runs h) hs
  grow := by
    intro s s' tok h hs
    have : ∃ ok, p.step s.1 ok s'.1 := by
      cases hs with
      | enter t x hs => obtain ⟨ok, hs⟩ := Goes.step hs; exact ⟨ok, hb.enter_le hs⟩
      | thread t hs => obtain ⟨ok, hs⟩ := Goes.step hs; exact ⟨ok, hb.thread_le hs⟩
      | own hs => obtain ⟨ok, hs⟩ := Goes.step hs; exact ⟨ok, hb.own_le hs⟩
      | ask u f tok hs => obtain ⟨ok, hs⟩ := Goes.step hs; exact ⟨ok, hb.ask_le hs⟩
    obtain ⟨ok, hs⟩ := this
    exact hb.grow (pipe_runs h) hs

/-! ### Spans -/

section Span
open Sdk.Bsp

/-- In `on_end`. -/
def inEnd : Pc X → Bool
  | .onEnd0 _ => true
  | .onEnd1 _ => true
  | .onEnd2 _ => true
  | .onEnd3 _ => true
  | .onEnd4 _ => true
  | .onEnd5 _ => true
  | .onEnd6 _ => true
  | _ => false

/-- The span of a call that has not been put in the queue, refused or ignored. -/
def carried : Pc X → Option X
  | .onEnd0 x => some x
  | .onEnd1 x => some x
  | _ => none

/-- Steps of others than ending threads and the provider. -/
def isOwn (s : State X) : Action X → Prop
  | .call _ _ => False
  | .thread t => inEnd (s.threads t) = false
  | _ => True

/-- The step is by such an action. -/
def By (cfg : Cfg) (P : State X → Action X → Prop) (s : State X) (ok : Bool) (s' : State X) : Prop :=
  ∃ a, P s a ∧ Sdk.Bsp.step cfg s a = some s' ∧ ∀ b, a = .work b → b = ok

/-- The batch span processor. A call is known by its number; it covers the spans that were accepted before, and those that were refused or ignored. -/
def spanBase (cfg : Cfg) (X : Type) : Base (spanProc cfg X) where
  enter t x := By cfg fun _ a => a = .call t (.onEnd x)
  thread t := By cfg fun s a => a = .thread t ∧ inEnd (s.threads t) = true
  free s t := s.threads t = .idle
  own := By cfg isOwn
  ask u f tok := By cfg fun s a => tok = s.nextTok ∧ a = .call u (if f then .forceFlush else .shutdown)
  said s tok r := ∃ ret, (tok, ret) ∈ s.returned ∧ (r = true ↔ ret = .result .ok)
  given s := s.accepted ++ s.refused ++ s.ignored
  undecided s t := carried (s.threads t)
  Live s tok := tok < s.nextTok
  covers s tok := s.accepted.take (s.atCall tok).1 ++ s.refused ++ s.ignored

theorem span_runs {cfg : Cfg} {s : (spanProc cfg X).S} (h : Runs (spanProc cfg X) s) : Reachable cfg s := by
  induction h with
  | init => exact .init
  | step _ hs ih => obtain ⟨a, ha, _⟩ := hs; exact .step ih ha

theorem perm_first (a b d : List X) (x : X) : (a ++ [x] ++ b ++ d).Perm (x :: (a ++ b ++ d)) := by
  simp only [List.append_assoc, List.singleton_append]
  exact List.perm_middle

theorem perm_second (a b d : List X) (x : X) : (a ++ (b ++ [x]) ++ d).Perm (x :: (a ++ b ++ d)) := by
  simp only [List.append_assoc, List.singleton_append]
  rw [← List.append_assoc, ← List.append_assoc]
  exact List.perm_middle

theorem perm_third (a b d : List X) (x : X) : (a ++ b ++ (d ++ [x])).Perm (x :: (a ++ b ++ d)) := by
  rw [← List.append_assoc]
  exact List.perm_append_singleton _ _

theorem span_thread {cfg : Cfg} {s s' : State X} {t : Nat} (hs : threadStep cfg s t = some s') : (∀ u, u ≠ t → s'.threads u = s.threads u) ∧
    ((s'.accepted ++ s'.refused ++ s'.ignored = s.accepted ++ s.refused ++ s.ignored ∧ carried (s'.threads t) = carried (s.threads t)) ∨
      (inEnd (s.threads t) = true ∧ ∃ x, carried (s.threads t) = some x ∧ carried (s'.threads t) = none ∧
        (s'.accepted ++ s'.refused ++ s'.ignored).Perm (x :: (s.accepted ++ s.refused ++ s.ignored)))) := by
  unfold threadStep at hs
  cases_step hs
  all_goals first
    | (cases hs; done)
    | (injection hs with hs
       subst hs
       refine ⟨fun u hu => by simp [State.goto, State.ret, Sdk.Bsp.set, hu], ?_⟩
       first
       | (left; simp [State.goto, State.ret, Sdk.Bsp.set, carried, *]; done)
       | (right
          refine ⟨by simp [inEnd, *], ?_⟩
          simp only [State.goto, Sdk.Bsp.set, *, if_true]
          exact ⟨_, rfl, rfl, by first | exact perm_first _ _ _ _ | exact perm_second _ _ _ _ | exact perm_third _ _ _ _⟩))

theorem span_grow {cfg : Cfg} {s s' : State X} {a : Action X} (hs : Sdk.Bsp.step cfg s a = some s') : s.accepted <+: s'.accepted ∧ s.refused <+: s'.refused ∧ s.ignored <+: s'.ignored ∧
    s.returned <+: s'.returned ∧ s.nextTok ≤ s'.nextTok ∧ ∀ tok, tok < s.nextTok → s'.atCall tok = s.atCall tok := by
  cases a with
  | call t c =>
    simp only [Sdk.Bsp.step, callStep] at hs
    cases_step hs
    all_goals first
      | (cases hs; done)
      | (injection hs with hs; subst hs
         refine ⟨List.prefix_refl _, List.prefix_refl _, List.prefix_refl _, List.prefix_refl _, by simp [State.goto], fun tok ht => ?_⟩
         first | rfl | (have : tok ≠ s.nextTok := by omega
                        simp [State.goto, Sdk.Bsp.set, this]))
  | thread t =>
    simp only [Sdk.Bsp.step, threadStep] at hs
    cases_step hs
    all_goals first
      | (cases hs; done)
      | (injection hs with hs; subst hs
         refine ⟨?_, ?_, ?_, ?_, Nat.le_refl _, fun _ _ => rfl⟩ <;> first | exact List.prefix_refl _ | exact List.prefix_append _ _)
  | timeout t =>
    simp only [Sdk.Bsp.step, timeoutStep] at hs
    cases_step hs
    all_goals first
      | (cases hs; done)
      | (injection hs with hs; subst hs
         refine ⟨?_, ?_, ?_, ?_, Nat.le_refl _, fun _ _ => rfl⟩ <;> first | exact List.prefix_refl _ | exact List.prefix_append _ _)
  | take =>
    simp only [Sdk.Bsp.step, takeStep] at hs
    cases_step hs
    all_goals first
      | (cases hs; done)
      | (injection hs with hs; subst hs
         exact ⟨List.prefix_refl _, List.prefix_refl _, List.prefix_refl _, List.prefix_refl _, Nat.le_refl _, fun _ _ => rfl⟩)
  | timer =>
    simp only [Sdk.Bsp.step, timerStep] at hs
    cases_step hs
    all_goals first
      | (cases hs; done)
      | (injection hs with hs; subst hs
         exact ⟨List.prefix_refl _, List.prefix_refl _, List.prefix_refl _, List.prefix_refl _, Nat.le_refl _, fun _ _ => rfl⟩)
  | work ok =>
    simp only [Sdk.Bsp.step, workStep] at hs
    cases_step hs
    all_goals first
      | (cases hs; done)
      | (injection hs with hs; subst hs
         exact ⟨List.prefix_refl _, List.prefix_refl _, List.prefix_refl _, List.prefix_refl _, Nat.le_refl _, fun _ _ => rfl⟩)
  | setResource r =>
    injection hs with hs; subst hs
    unfold setResourceStep
    split <;> exact ⟨List.prefix_refl _, List.prefix_refl _, List.prefix_refl _, List.prefix_refl _, Nat.le_refl _, fun _ _ => rfl⟩

/-- Steps by neither an ending thread nor the provider leave all this alone. -/
theorem span_own {cfg : Cfg} {s s' : State X} {a : Action X} (ho : isOwn s a) (hs : Sdk.Bsp.step cfg s a = some s') :
    s'.accepted ++ s'.refused ++ s'.ignored = s.accepted ++ s.refused ++ s.ignored ∧ ∀ u, carried (s'.threads u) = carried (s.threads u) := by
  cases a with
  | call t c => exact absurd ho id
  | thread t =>
    obtain ⟨h1, h2 | ⟨h2, _⟩⟩ := span_thread (cfg := cfg) hs
    · refine ⟨h2.1, fun u => ?_⟩
      by_cases e : u = t
      · rw [e]; exact h2.2
      · rw [h1 u e]
    · have ho : inEnd (s.threads t) = false := ho
      rw [ho] at h2; cases h2
  | timeout t =>
    simp only [Sdk.Bsp.step, timeoutStep] at hs
    cases_step hs
    all_goals first
      | (cases hs; done)
      | (injection hs with hs; subst hs
         refine ⟨rfl, fun u => ?_⟩
         by_cases e : u = t
         · simp [State.ret, Sdk.Bsp.set, e, carried, *]
         · simp [State.ret, Sdk.Bsp.set, e])
  | take =>
    simp only [Sdk.Bsp.step, takeStep] at hs
    cases_step hs
    all_goals first
      | (cases hs; done)
      | (injection hs with hs; subst hs; exact ⟨rfl, fun _ => rfl⟩)
  | timer =>
    simp only [Sdk.Bsp.step, timerStep] at hs
    cases_step hs
    all_goals first
      | (cases hs; done)
      | (injection hs with hs; subst hs; exact ⟨rfl, fun _ => rfl⟩)
  | work ok =>
    simp only [Sdk.Bsp.step, workStep] at hs
    cases_step hs
    all_goals first
      | (cases hs; done)
      | (injection hs with hs; subst hs; exact ⟨rfl, fun _ => rfl⟩)
  | setResource r =>
    injection hs with hs; subst hs
    unfold setResourceStep
    split <;> exact ⟨rfl, fun _ => rfl⟩

/-- Three lists that grow, the first up to a mark. -/
theorem covers_grow {a a' b b' d d' : List X} {n : Nat} (hn : n ≤ a.length) (h1 : a <+: a') (h2 : b <+: b') (h3 : d <+: d') : (a.take n ++ b ++ d).Subperm (a'.take n ++ b' ++ d') := by
  have : a'.take n = a.take n := by
    obtain ⟨r, rfl⟩ := h1
    rw [List.take_append_of_le_length hn]
  rw [this]
  exact (List.Sublist.append (List.Sublist.append (List.Sublist.refl _) h2.sublist) h3.sublist).subperm

theorem spanBase_lawful (cfg : Cfg) : (spanBase cfg X).Lawful where
  given_init := rfl
  enter_le := fun ⟨a, _, h⟩ => ⟨a, h⟩
  thread_le := fun ⟨a, _, h⟩ => ⟨a, h⟩
  own_le := fun ⟨a, _, h⟩ => ⟨a, h⟩
  ask_le := fun ⟨a, _, h⟩ => ⟨a, h⟩
  enter := by
    rintro s s' ok t x _ ⟨a, rfl, hs, _⟩
    simp only [Sdk.Bsp.step, callStep] at hs
    split at hs
    · injection hs with hs; subst hs
      exact ⟨fun u hu => by simp [spanBase, State.goto, Sdk.Bsp.set, hu], .inl ⟨rfl, by simp [spanBase, State.goto, Sdk.Bsp.set, carried]⟩⟩
    · cases hs
  thread := by
    rintro s s' ok t _ ⟨a, ⟨rfl, _⟩, hs, _⟩
    obtain ⟨h1, h2⟩ := span_thread (cfg := cfg) hs
    refine ⟨fun u hu => by simp only [spanBase, h1 u hu], ?_⟩
    rcases h2 with h2 | ⟨_, h2⟩
    · exact .inl h2
    · exact .inr h2
  free := fun h => by simp only [spanBase] at h ⊢; rw [h]; rfl
  own := by
    rintro s s' ok _ ⟨a, ho, hs, _⟩
    obtain ⟨h1, h2⟩ := span_own ho hs
    exact ⟨h1, funext h2⟩
  ask := by
    rintro s s' ok u f tok _ ⟨a, ⟨rfl, rfl⟩, hs, _⟩
    simp only [Sdk.Bsp.step, callStep] at hs
    split at hs
    · rename_i hidle
      cases f
      all_goals
        simp only [Bool.false_eq_true, if_false, if_true] at hs
        injection hs with hs; subst hs
        refine ⟨rfl, funext fun v => ?_, ?_, ?_⟩
        · by_cases e : v = u
          · subst e; simp [spanBase, State.goto, Sdk.Bsp.set, carried, hidle]
          · simp [spanBase, State.goto, Sdk.Bsp.set, e]
        · show s.nextTok < s.nextTok + 1
          omega
        · simp [spanBase, State.goto, Sdk.Bsp.set, List.Subperm.refl]
    · cases hs
  grow := by
    rintro s s' ok tok hr ⟨a, hs, _⟩ hl
    obtain ⟨h1, h2, h3, h4, h5, h6⟩ := span_grow hs
    have hl : tok < s.nextTok := hl
    refine ⟨show tok < s'.nextTok by omega, ?_, fun r ⟨ret, h, h'⟩ => ⟨ret, h4.subset h, h'⟩⟩
    show (s.accepted.take (s.atCall tok).1 ++ s.refused ++ s.ignored).Subperm (s'.accepted.take (s'.atCall tok).1 ++ s'.refused ++ s'.ignored)
    rw [h6 tok hl]
    exact covers_grow ((flushInv_reachable (span_runs hr)).past tok).1 h1 h2 h3

/-- The batch span processor with an OTLP exporter. -/
def spanPart (cfg : Cfg) (c : O → Exporter.Cfg R (List X) M Y) (res : R) : Part X := (spanBase cfg X).part c res

theorem spanPart_lawful (cfg : Cfg) (c : O → Exporter.Cfg R (List X) M Y) (res : R) : (spanPart cfg c res).Lawful := Base.part_lawful (spanBase_lawful cfg) c res

end Span

/-! ### Log records -/

section Log
open Logs.Blp
open Sdk.Bsp (Cfg)

/-- In `emit`. -/
def inEmit : Pc X → Bool
  | .emit0 _ => true
  | .emit1 _ => true
  | .emit2 _ => true
  | .emit3 _ => true
  | .emit4 _ => true
  | .emit5 _ => true
  | _ => false

/-- The record of a call that has not been put in the queue or refused. -/
def carriedLog : Pc X → Option X
  | .emit0 x => some x
  | _ => none

/-- Steps of others than emitting threads and the provider. -/
def isOwnLog (s : State X) : Action X → Prop
  | .call _ _ => False
  | .thread t => inEmit (s.threads t) = false
  | _ => True

/-- The step is by such an action. -/
def ByLog (cfg : Cfg) (P : State X → Action X → Prop) (s : State X) (ok : Bool) (s' : State X) : Prop :=
  ∃ a, P s a ∧ Logs.Blp.step cfg s a = some s' ∧ ∀ b, a = .work b → b = ok

/-- The batch log processor. A call is known by its number; it covers the records that were accepted before, and those that were refused or ignored. -/
def logBase (cfg : Cfg) (X : Type) : Base (logProc cfg X) where
  enter t x := ByLog cfg fun _ a => a = .call t (.emit x)
  thread t := ByLog cfg fun s a => a = .thread t ∧ inEmit (s.threads t) = true
  free s t := s.threads t = .idle
  own := ByLog cfg isOwnLog
  ask u f tok := ByLog cfg fun s a => tok = s.nextTok ∧ a = .call u (if f then .forceFlush else .shutdown)
  said s tok r := ∃ ret n, (tok, ret, n) ∈ s.returned ∧ (r = true ↔ ret = .result .ok)
  given s := s.accepted ++ s.refused ++ s.ignored
  undecided s t := carriedLog (s.threads t)
  Live s tok := tok < s.nextTok
  covers s tok := s.accepted.take (s.atCall tok) ++ s.refused ++ s.ignored

theorem log_runs {cfg : Cfg} {s : (logProc cfg X).S} (h : Runs (logProc cfg X) s) : Reachable cfg s := by
  induction h with
  | init => exact .init
  | step _ hs ih => obtain ⟨a, ha, _⟩ := hs; exact .step ih ha

theorem log_thread {cfg : Cfg} {s s' : State X} {t : Nat} (hs : threadStep cfg s t = some s') : (∀ u, u ≠ t → s'.threads u = s.threads u) ∧
    ((s'.accepted ++ s'.refused ++ s'.ignored = s.accepted ++ s.refused ++ s.ignored ∧ carriedLog (s'.threads t) = carriedLog (s.threads t)) ∨
      (inEmit (s.threads t) = true ∧ ∃ x, carriedLog (s.threads t) = some x ∧ carriedLog (s'.threads t) = none ∧
        (s'.accepted ++ s'.refused ++ s'.ignored).Perm (x :: (s.accepted ++ s.refused ++ s.ignored)))) := by
  unfold threadStep at hs
  cases_step hs
  all_goals first
    | (cases hs; done)
    | (injection hs with hs
       subst hs
       refine ⟨fun u hu => by simp [State.goto, State.ret, Sdk.Bsp.set, hu], ?_⟩
       first
       | (left; simp [State.goto, State.ret, Sdk.Bsp.set, carriedLog, *]; done)
       | (right
          refine ⟨by simp [inEmit, *], ?_⟩
          simp only [State.goto, Sdk.Bsp.set, *, if_true]
          exact ⟨_, rfl, rfl, by first | exact perm_first _ _ _ _ | exact perm_second _ _ _ _ | exact perm_third _ _ _ _⟩))

theorem log_grow {cfg : Cfg} {s s' : State X} {a : Action X} (hs : Logs.Blp.step cfg s a = some s') : s.accepted <+: s'.accepted ∧ s.refused <+: s'.refused ∧ s.ignored <+: s'.ignored ∧
    s.returned <+: s'.returned ∧ s.nextTok ≤ s'.nextTok ∧ ∀ tok, tok < s.nextTok → s'.atCall tok = s.atCall tok := by
  cases a with
  | call t c =>
    simp only [Logs.Blp.step, callStep] at hs
    cases_step hs
    all_goals first
      | (cases hs; done)
      | (injection hs with hs; subst hs
         refine ⟨List.prefix_refl _, List.prefix_refl _, List.prefix_refl _, List.prefix_refl _, by simp [State.goto], fun tok ht => ?_⟩
         first | rfl | (have : tok ≠ s.nextTok := by omega
                        simp [State.goto, Sdk.Bsp.set, this]))
  | thread t =>
    simp only [Logs.Blp.step, threadStep] at hs
    cases_step hs
    all_goals first
      | (cases hs; done)
      | (injection hs with hs; subst hs
         refine ⟨?_, ?_, ?_, ?_, Nat.le_refl _, fun _ _ => rfl⟩ <;> first | exact List.prefix_refl _ | exact List.prefix_append _ _)
  | timeout t =>
    simp only [Logs.Blp.step, timeoutStep] at hs
    cases_step hs
    all_goals first
      | (cases hs; done)
      | (injection hs with hs; subst hs
         refine ⟨?_, ?_, ?_, ?_, Nat.le_refl _, fun _ _ => rfl⟩ <;> first | exact List.prefix_refl _ | exact List.prefix_append _ _)
  | take =>
    simp only [Logs.Blp.step, takeStep] at hs
    cases_step hs
    all_goals first
      | (cases hs; done)
      | (injection hs with hs; subst hs
         exact ⟨List.prefix_refl _, List.prefix_refl _, List.prefix_refl _, List.prefix_refl _, Nat.le_refl _, fun _ _ => rfl⟩)
  | timer =>
    simp only [Logs.Blp.step, timerStep] at hs
    cases_step hs
    all_goals first
      | (cases hs; done)
      | (injection hs with hs; subst hs
         exact ⟨List.prefix_refl _, List.prefix_refl _, List.prefix_refl _, List.prefix_refl _, Nat.le_refl _, fun _ _ => rfl⟩)
  | work ok =>
    simp only [Logs.Blp.step, workStep] at hs
    cases_step hs
    all_goals first
      | (cases hs; done)
      | (injection hs with hs; subst hs
         exact ⟨List.prefix_refl _, List.prefix_refl _, List.prefix_refl _, List.prefix_refl _, Nat.le_refl _, fun _ _ => rfl⟩)
  | setResource r =>
    injection hs with hs; subst hs
    unfold setResourceStep
    split <;> exact ⟨List.prefix_refl _, List.prefix_refl _, List.prefix_refl _, List.prefix_refl _, Nat.le_refl _, fun _ _ => rfl⟩

/-- Steps by neither an emitting thread nor the provider leave all this alone. -/
theorem log_own {cfg : Cfg} {s s' : State X} {a : Action X} (ho : isOwnLog s a) (hs : Logs.Blp.step cfg s a = some s') :
    s'.accepted ++ s'.refused ++ s'.ignored = s.accepted ++ s.refused ++ s.ignored ∧ ∀ u, carriedLog (s'.threads u) = carriedLog (s.threads u) := by
  cases a with
  | call t c => exact absurd ho id
  | thread t =>
    obtain ⟨h1, h2 | ⟨h2, _⟩⟩ := log_thread (cfg := cfg) hs
    · refine ⟨h2.1, fun u => ?_⟩
      by_cases e : u = t
      · rw [e]; exact h2.2
      · rw [h1 u e]
    · have ho : inEmit (s.threads t) = false := ho
      rw [ho] at h2; cases h2
  | timeout t =>
    simp only [Logs.Blp.step, timeoutStep] at hs
    cases_step hs
    all_goals first
      | (cases hs; done)
      | (injection hs with hs; subst hs
         refine ⟨rfl, fun u => ?_⟩
         by_cases e : u = t
         · simp [State.ret, Sdk.Bsp.set, e, carriedLog, *]
         · simp [State.ret, Sdk.Bsp.set, e])
  | take =>
    simp only [Logs.Blp.step, takeStep] at hs
    cases_step hs
    all_goals first
      | (cases hs; done)
      | (injection hs with hs; subst hs; exact ⟨rfl, fun _ => rfl⟩)
  | timer =>
    simp only [Logs.Blp.step, timerStep] at hs
    cases_step hs
    all_goals first
      | (cases hs; done)
      | (injection hs with hs; subst hs; exact ⟨rfl, fun _ => rfl⟩)
  | work ok =>
    simp only [Logs.Blp.step, workStep] at hs
    cases_step hs
    all_goals first
      | (cases hs; done)
      | (injection hs with hs; subst hs; exact ⟨rfl, fun _ => rfl⟩)
  | setResource r =>
    injection hs with hs; subst hs
    unfold setResourceStep
    split <;> exact ⟨rfl, fun _ => rfl⟩

theorem log_past {cfg : Cfg} {s : State X} (h : Reachable cfg s) (tok : Nat) : s.atCall tok ≤ s.accepted.length := by
  induction h with
  | init => exact Nat.le_refl _
  | @step s s' a _ hs ih =>
    have hg := (log_grow hs).1.length_le
    have : s'.atCall tok = s.atCall tok ∨ s'.atCall tok = s.accepted.length := by
      cases a with
      | call t c =>
        simp only [Logs.Blp.step, callStep] at hs
        cases_step hs
        all_goals first
          | (cases hs; done)
          | (injection hs with hs; subst hs
             first | exact .inl rfl | (by_cases e : tok = s.nextTok
                                       · right; simp [State.goto, Sdk.Bsp.set, e]
                                       · left; simp [State.goto, Sdk.Bsp.set, e]))
      | thread t =>
        simp only [Logs.Blp.step, threadStep] at hs
        cases_step hs
        all_goals first
          | (cases hs; done)
          | (injection hs with hs; subst hs; exact .inl rfl)
      | timeout t =>
        simp only [Logs.Blp.step, timeoutStep] at hs
        cases_step hs
        all_goals first
          | (cases hs; done)
          | (injection hs with hs; subst hs; exact .inl rfl)
      | take =>
        simp only [Logs.Blp.step, takeStep] at hs
        cases_step hs
        all_goals first
          | (cases hs; done)
          | (injection hs with hs; subst hs; exact .inl rfl)
      | timer =>
        simp only [Logs.Blp.step, timerStep] at hs
        cases_step hs
        all_goals first
          | (cases hs; done)
          | (injection hs with hs; subst hs; exact .inl rfl)
      | work ok =>
        simp only [Logs.Blp.step, workStep] at hs
        cases_step hs
        all_goals first
          | (cases hs; done)
          | (injection hs with hs; subst hs; exact .inl rfl)
      | setResource r =>
        injection hs with hs; subst hs
        unfold setResourceStep
        split <;> exact .inl rfl
    omega

theorem logBase_lawful (cfg : Cfg) : (logBase cfg X).Lawful where
  given_init := rfl
  enter_le := fun ⟨a, _, h⟩ => ⟨a, h⟩
  thread_le := fun ⟨a, _, h⟩ => ⟨a, h⟩
  own_le := fun ⟨a, _, h⟩ => ⟨a, h⟩
  ask_le := fun ⟨a, _, h⟩ => ⟨a, h⟩
  enter := by
    rintro s s' ok t x _ ⟨a, rfl, hs, _⟩
    simp only [Logs.Blp.step, callStep] at hs
    split at hs
    · injection hs with hs; subst hs
      exact ⟨fun u hu => by simp [logBase, State.goto, Sdk.Bsp.set, hu], .inl ⟨rfl, by simp [logBase, State.goto, Sdk.Bsp.set, carriedLog]⟩⟩
    · cases hs
  thread := by
    rintro s s' ok t _ ⟨a, ⟨rfl, _⟩, hs, _⟩
    obtain ⟨h1, h2⟩ := log_thread (cfg := cfg) hs
    refine ⟨fun u hu => by simp only [logBase, h1 u hu], ?_⟩
    rcases h2 with h2 | ⟨_, h2⟩
    · exact .inl h2
    · exact .inr h2
  free := fun h => by simp only [logBase] at h ⊢; rw [h]; rfl
  own := by
    rintro s s' ok _ ⟨a, ho, hs, _⟩
    obtain ⟨h1, h2⟩ := log_own ho hs
    exact ⟨h1, funext h2⟩
  ask := by
    rintro s s' ok u f tok _ ⟨a, ⟨rfl, rfl⟩, hs, _⟩
    simp only [Logs.Blp.step, callStep] at hs
    split at hs
    · rename_i hidle
      cases f
      all_goals
        simp only [Bool.false_eq_true, if_false, if_true] at hs
        injection hs with hs; subst hs
        refine ⟨rfl, funext fun v => ?_, ?_, ?_⟩
        · by_cases e : v = u
          · subst e; simp [logBase, State.goto, Sdk.Bsp.set, carriedLog, hidle]
          · simp [logBase, State.goto, Sdk.Bsp.set, e]
        · show s.nextTok < s.nextTok + 1
          omega
        · simp [logBase, State.goto, Sdk.Bsp.set, List.Subperm.refl]
    · cases hs
  grow := by
    rintro s s' ok tok hr ⟨a, hs, _⟩ hl
    obtain ⟨h1, h2, h3, h4, h5, h6⟩ := log_grow hs
    have hl : tok < s.nextTok := hl
    refine ⟨show tok < s'.nextTok by omega, ?_, fun r ⟨ret, n, h, h'⟩ => ⟨ret, n, h4.subset h, h'⟩⟩
    show (s.accepted.take (s.atCall tok) ++ s.refused ++ s.ignored).Subperm (s'.accepted.take (s'.atCall tok) ++ s'.refused ++ s'.ignored)
    rw [h6 tok hl]
    exact covers_grow (log_past (log_runs hr) tok) h1 h2 h3

/-- The batch log processor with an OTLP exporter. -/
def logPart (cfg : Cfg) (c : O → Exporter.Cfg R (List X) M Y) (res : R) : Part X := (logBase cfg X).part c res

theorem logPart_lawful (cfg : Cfg) (c : O → Exporter.Cfg R (List X) M Y) (res : R) : (logPart cfg c res).Lawful := Base.part_lawful (logBase_lawful cfg) c res

end Log

end Otel.EndToEnd.Fan
