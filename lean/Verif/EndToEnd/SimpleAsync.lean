import Verif.EndToEnd.Processors
import Mathlib.Logic.Relation
/-!
# The simple processors and those on an async runtime, as processors of a provider (C112)
-/

set_option linter.unusedSectionVars false

namespace Otel.EndToEnd.Fan
open Rust Otel.Otlp

variable {X R M Y O : Type}

/-! ## The simple processors -/

namespace Simple

/-- Where a thread is. The simple span processor has no flag: `checks` is false, and `at0` only asks whether the span is sampled. -/
inductive Pc (X : Type) where
  | idle
  /-- load `is_shutdown`. simple_log_processor.rs:81; `is_sampled`. span_processor.rs:133 -/
  | at0 (x : X)
  /-- lock and export. simple_log_processor.rs:89-96, span_processor.rs:137-141 -/
  | at1 (x : X)

/-- The state. Ghost: what was exported, one by one, and what was not; the calls, and how many items had been exported when they were made. -/
structure State (X : Type) where
  down : Bool
  threads : Nat → Pc X
  /-- `shutdown` calls that wait for the lock -/
  closing : List Nat
  nextTok : Nat
  returned : List (Nat × Bool)
  taken : List X
  ignored : List X
  atCall : Nat → Nat
  shutdowns : Nat

/-- `new`. span_processor.rs:118-124, simple_log_processor.rs:69-74 -/
def State.init : State X := ⟨false, fun _ => .idle, [], 0, [], [], [], fun _ => 0, 0⟩

/-- Scheduler choices. -/
inductive Action (X : Type) where
  | call (t : Nat) (x : X)
  | thread (t : Nat)
  | forceFlush
  | shutdown
  /-- a `shutdown` has got the lock, and returns what the exporter's `shutdown` returns -/
  | close (tok : Nat) (r : Bool)

/-- One step. A poisoned lock is not modelled. The result of `shutdown` is any. span_processor.rs:132-165, simple_log_processor.rs:78-129 -/
def step (checks : Bool) (keep : X → Bool) (s : State X) : Action X → Option (State X)
  | .call t x => match s.threads t with
    | .idle => some { s with threads := Sdk.Bsp.set s.threads t (.at0 x) }
    | _ => none
  | .thread t => match s.threads t with
    | .idle => none
    | .at0 x =>
      if (checks && s.down) || !keep x then some { s with threads := Sdk.Bsp.set s.threads t .idle, ignored := s.ignored ++ [x] }
      else some { s with threads := Sdk.Bsp.set s.threads t (.at1 x) }
    | .at1 x => some { s with threads := Sdk.Bsp.set s.threads t .idle, taken := s.taken ++ [x] }
  | .forceFlush => some { s with nextTok := s.nextTok + 1, atCall := Sdk.Bsp.set s.atCall s.nextTok s.taken.length, returned := s.returned ++ [(s.nextTok, true)] }
  | .shutdown => some { s with
      nextTok := s.nextTok + 1, atCall := Sdk.Bsp.set s.atCall s.nextTok s.taken.length, down := true, closing := s.closing ++ [s.nextTok] }
  | .close tok r =>
    if tok ∈ s.closing then some { s with closing := s.closing.erase tok, returned := s.returned ++ [(tok, r)], shutdowns := s.shutdowns + 1 } else none

/-- As C91 sees a processor: every item is a batch. -/
def proc (checks : Bool) (keep : X → Bool) : Proc X where
  S := State X
  init := .init
  step s _ s' := ∃ a, step checks keep s a = some s'
  exported s := s.taken.map fun x => [x]
  shutdowns := State.shutdowns
  fresh := rfl

/-- The item of a call that has been neither exported nor ignored. -/
def carried : Pc X → Option X
  | .at0 x => some x
  | .at1 x => some x
  | .idle => none

/-- A call covers the items exported before, and those that were ignored. -/
def base (checks : Bool) (keep : X → Bool) : Base (proc checks keep) where
  enter t x s _ s' := step checks keep s (.call t x) = some s'
  thread t s _ s' := step checks keep s (.thread t) = some s'
  free s t := s.threads t = .idle
  own s _ s' := ∃ tok r, step checks keep s (.close tok r) = some s'
  ask _ f tok s _ s' := tok = s.nextTok ∧ step checks keep s (if f then .forceFlush else .shutdown) = some s'
  said s tok r := (tok, r) ∈ s.returned
  given s := s.taken ++ s.ignored
  undecided s t := carried (s.threads t)
  Live s tok := tok < s.nextTok
  covers s tok := s.taken.take (s.atCall tok) ++ s.ignored

theorem grow {checks : Bool} {keep : X → Bool} {s s' : State X} {a : Action X} (hs : step checks keep s a = some s') :
    s.taken <+: s'.taken ∧ s.ignored <+: s'.ignored ∧ s.returned <+: s'.returned ∧ s.nextTok ≤ s'.nextTok ∧ (∀ tok, tok < s.nextTok → s'.atCall tok = s.atCall tok) ∧
      ∀ tok, s'.atCall tok = s.atCall tok ∨ s'.atCall tok = s.taken.length := by
  cases a with
  | call t x =>
    simp only [step] at hs
    split at hs
    · injection hs with hs; subst hs
      exact ⟨List.prefix_refl _, List.prefix_refl _, List.prefix_refl _, Nat.le_refl _, fun _ _ => rfl, fun _ => .inl rfl⟩
    · cases hs
  | thread t =>
    simp only [step] at hs
    split at hs
    · cases hs
    · split at hs <;>
      · injection hs with hs; subst hs
        exact ⟨List.prefix_refl _, by first | exact List.prefix_refl _ | exact List.prefix_append _ _, List.prefix_refl _, Nat.le_refl _, fun _ _ => rfl, fun _ => .inl rfl⟩
    · injection hs with hs; subst hs
      exact ⟨List.prefix_append _ _, List.prefix_refl _, List.prefix_refl _, Nat.le_refl _, fun _ _ => rfl, fun _ => .inl rfl⟩
  | forceFlush =>
    injection hs with hs; subst hs
    refine ⟨List.prefix_refl _, List.prefix_refl _, List.prefix_append _ _, Nat.le_succ _, fun tok ht => ?_, fun tok => ?_⟩
    · have : tok ≠ s.nextTok := by omega
      simp [Sdk.Bsp.set, this]
    · by_cases e : tok = s.nextTok <;> simp [Sdk.Bsp.set, e]
  | shutdown =>
    injection hs with hs; subst hs
    refine ⟨List.prefix_refl _, List.prefix_refl _, List.prefix_refl _, Nat.le_succ _, fun tok ht => ?_, fun tok => ?_⟩
    · have : tok ≠ s.nextTok := by omega
      simp [Sdk.Bsp.set, this]
    · by_cases e : tok = s.nextTok <;> simp [Sdk.Bsp.set, e]
  | close tok r =>
    simp only [step] at hs
    split at hs
    · injection hs with hs; subst hs
      exact ⟨List.prefix_refl _, List.prefix_refl _, List.prefix_append _ _, Nat.le_refl _, fun _ _ => rfl, fun _ => .inl rfl⟩
    · cases hs

theorem past {checks : Bool} {keep : X → Bool} {s : (proc checks keep).S} (h : Runs (proc checks keep) s) (tok : Nat) : s.atCall tok ≤ s.taken.length := by
  induction h with
  | init => exact Nat.le_refl _
  | @step s s' _ _ hs ih =>
    obtain ⟨a, hs⟩ := hs
    obtain ⟨h1, _, _, _, _, h2⟩ := grow hs
    have h3 := h1.length_le
    have h2 := h2 tok
    have ih : s.atCall tok ≤ s.taken.length := ih
    show State.atCall s' tok ≤ s'.taken.length
    omega

/-- C112, the simple log processor: once `shutdown` has been called, only items whose calls had already passed the check are still exported; later ones never are. -/
theorem simple_after_shutdown {keep : X → Bool} {s s1 s2 : State X} (h : step true keep s .shutdown = some s1)
    (hr : Relation.ReflTransGen (fun a b => ∃ act, step true keep a act = some b) s1 s2) :
    ∃ l, s2.taken = s1.taken ++ l ∧ ∀ x ∈ l, ∃ t, s1.threads t = .at1 x := by
  have hd : s1.down = true := by
    simp only [step, Option.some.injEq] at h
    subst h; rfl
  have key : s2.down = true ∧ (∀ t x, s2.threads t = .at1 x → s1.threads t = .at1 x) ∧ ∃ l, s2.taken = s1.taken ++ l ∧ ∀ x ∈ l, ∃ t, s1.threads t = .at1 x := by
    induction hr with
    | refl => exact ⟨hd, fun _ _ h => h, [], by simp, by simp⟩
    | @tail a b _ hab ih =>
      obtain ⟨act, hab⟩ := hab
      obtain ⟨h1, h2, l, h3, h4⟩ := ih
      cases act with
      | call t x =>
        simp only [step] at hab
        split at hab
        · injection hab with hab; subst hab
          refine ⟨h1, fun u y hu => ?_, l, h3, h4⟩
          simp only [Sdk.Bsp.set] at hu
          split at hu
          · cases hu
          · exact h2 u y hu
        · cases hab
      | thread t =>
        simp only [step] at hab
        split at hab
        · cases hab
        · simp only [h1, Bool.and_self, Bool.true_or, if_true, Option.some.injEq] at hab
          subst hab
          refine ⟨rfl, fun u y hu => ?_, l, h3, h4⟩
          simp only [Sdk.Bsp.set] at hu
          split at hu
          · cases hu
          · exact h2 u y hu
        · next x hx =>
          injection hab with hab; subst hab
          refine ⟨h1, fun u y hu => ?_, l ++ [x], by simp only [h3, List.append_assoc], fun y hy => ?_⟩
          · simp only [Sdk.Bsp.set] at hu
            split at hu
            · cases hu
            · exact h2 u y hu
          · rcases List.mem_append.1 hy with hy | hy
            · exact h4 y hy
            · rw [List.mem_singleton.1 hy]; exact ⟨t, h2 t x hx⟩
      | forceFlush => injection hab with hab; subst hab; exact ⟨h1, h2, l, h3, h4⟩
      | shutdown => injection hab with hab; subst hab; exact ⟨rfl, h2, l, h3, h4⟩
      | close tok r =>
        simp only [step] at hab
        split at hab
        · injection hab with hab; subst hab; exact ⟨h1, h2, l, h3, h4⟩
        · cases hab
  exact key.2.2

/-- The hypotheses are met: one call has passed the check, one has not, when `shutdown` is called; the first item is exported. -/
example : ∃ s s1 s2 : State Nat, step true (fun _ => true) s .shutdown = some s1 ∧
    Relation.ReflTransGen (fun a b => ∃ act, step true (fun _ => true) a act = some b) s1 s2 ∧ s2.taken = [5] ∧ s2.ignored = [6] := by
  let s : State Nat := { (State.init : State Nat) with threads := Sdk.Bsp.set (Sdk.Bsp.set (fun _ => .idle) 0 (.at1 5)) 1 (.at0 6) }
  exact ⟨s, _, _, rfl, (Relation.ReflTransGen.single ⟨.thread 0, rfl⟩).tail ⟨.thread 1, rfl⟩, rfl, rfl⟩

theorem base_lawful (checks : Bool) (keep : X → Bool) : (base checks keep).Lawful where
  given_init := rfl
  enter_le := fun h => ⟨_, h⟩
  thread_le := fun h => ⟨_, h⟩
  own_le := fun ⟨tok, r, h⟩ => ⟨.close tok r, h⟩
  ask_le := fun ⟨_, h⟩ => ⟨_, h⟩
  enter := by
    intro s s' _ t x _ hs
    simp only [base, step] at hs
    split at hs
    · injection hs with hs; subst hs
      exact ⟨fun u hu => by simp [base, Sdk.Bsp.set, hu], .inl ⟨rfl, by simp [base, Sdk.Bsp.set, carried]⟩⟩
    · cases hs
  thread := by
    intro s s' _ t _ hs
    simp only [base, step] at hs
    split at hs
    · cases hs
    · rename_i x hx
      split at hs
      · injection hs with hs; subst hs
        refine ⟨fun u hu => by simp [base, Sdk.Bsp.set, hu], .inr ⟨x, by simp [base, hx, carried], by simp [base, Sdk.Bsp.set, carried], ?_⟩⟩
        show (s.taken ++ (s.ignored ++ [x])).Perm (x :: (s.taken ++ s.ignored))
        rw [← List.append_assoc]
        exact List.perm_append_singleton _ _
      · injection hs with hs; subst hs
        exact ⟨fun u hu => by simp [base, Sdk.Bsp.set, hu], .inl ⟨rfl, by simp [base, Sdk.Bsp.set, carried, hx]⟩⟩
    · rename_i x hx
      injection hs with hs; subst hs
      refine ⟨fun u hu => by simp [base, Sdk.Bsp.set, hu], .inr ⟨x, by simp [base, hx, carried], by simp [base, Sdk.Bsp.set, carried], ?_⟩⟩
      show (s.taken ++ [x] ++ s.ignored).Perm (x :: (s.taken ++ s.ignored))
      simp only [List.append_assoc, List.singleton_append]
      exact List.perm_middle
  free := fun h => by simp only [base] at h ⊢; rw [h]; rfl
  own := by
    rintro s s' _ _ ⟨tok, r, hs⟩
    simp only [step] at hs
    split at hs
    · injection hs with hs; subst hs; exact ⟨rfl, rfl⟩
    · cases hs
  ask := by
    rintro s s' _ u f tok _ ⟨rfl, hs⟩
    cases f
    all_goals
      simp only [Bool.false_eq_true, if_false, if_true] at hs
      injection hs with hs; subst hs
      refine ⟨rfl, rfl, Nat.lt_succ_self _, ?_⟩
      simp [base, Sdk.Bsp.set, List.Subperm.refl]
  grow := by
    rintro s s' _ tok hr ⟨a, hs⟩ hl
    obtain ⟨h1, h2, h3, h4, h5, _⟩ := grow hs
    have hl : tok < s.nextTok := hl
    refine ⟨show tok < State.nextTok s' by omega, ?_, fun r h => h3.subset h⟩
    show (s.taken.take (s.atCall tok) ++ s.ignored).Subperm (State.taken s' |>.take (State.atCall s' tok) |>.append (State.ignored s'))
    rw [h5 tok hl]
    have := covers_grow (b := []) (b' := []) (past hr tok) h1 (List.prefix_refl _) h2
    simpa using this

end Simple

/-- A simple processor with an OTLP exporter. -/
def simplePart (checks : Bool) (keep : X → Bool) (c : O → Exporter.Cfg R (List X) M Y) (res : R) : Part X := (Simple.base checks keep).part c res

theorem simplePart_lawful (checks : Bool) (keep : X → Bool) (c : O → Exporter.Cfg R (List X) M Y) (res : R) : (simplePart checks keep c res).Lawful :=
  Base.part_lawful (Simple.base_lawful checks keep) c res

/-! ## On an async runtime -/

section Async
open Async AsyncPipe

/-- The state of the processor, of the exporter, and the requests that have left. -/
abbrev AFull (X R Y : Type) := State X R × Exporter.St R × List (Exporter.Request Y)

/-- A step by such an action: as in `Piped`. -/
inductive AGoes (cfg : Cfg) (sampled : X → Bool) (c : O → Exporter.Cfg R (List X) M Y) (P : Action X → Prop) : AFull X R Y → AFull X R Y → Prop
  | quiet {s s' e qs} (a : Action X) (o : O) : P a → Async.step cfg sampled s a = some s' → (∀ r, a ≠ .finish r) → a ≠ .stop →
      AGoes cfg sampled c P (s, e, qs) (s', follow (c o) e s'.resource, qs)
  | finish {s s' e qs} (b : List X × Option R) (w : Exporter.World) (o : O) (r : Async.Res) : P (.finish r) → Async.step cfg sampled s (.finish r) = some s' →
      s.exported.getLast? = some b → r ≠ .timeout → (r = .ok ↔ (Exporter.doExport (c o) e b.1 w).1 = .ok) →
      AGoes cfg sampled c P (s, e, qs) (s', e, qs ++ (Exporter.doExport (c o) e b.1 w).2)
  | early {s s' e qs} : P (.finish .timeout) → Async.step cfg sampled s (.finish .timeout) = some s' → AGoes cfg sampled c P (s, e, qs) (s', e, qs)
  | late {s s' e qs} (b : List X × Option R) (w : Exporter.World) (o : O) : P (.finish .timeout) → Async.step cfg sampled s (.finish .timeout) = some s' →
      s.exported.getLast? = some b → AGoes cfg sampled c P (s, e, qs) (s', e, qs ++ (Exporter.doExport (c o) e b.1 w).2)
  | died {s s' e qs} (k : Async.Cont) (b : List X × Option R) (w : Exporter.World) (o : O) : P .die → s.worker = .exporting k → Async.step cfg sampled s .die = some s' →
      s.exported.getLast? = some b → AGoes cfg sampled c P (s, e, qs) (s', e, qs ++ (Exporter.doExport (c o) e b.1 w).2)
  | stop {s s' e qs} (o : O) : P .stop → Async.step cfg sampled s .stop = some s' → AGoes cfg sampled c P (s, e, qs) (s', (Exporter.shutdown (c o) e).2, qs)

/-- Neither an item nor a call. -/
def isTask : Action X → Prop
  | .emit _ => False
  | .forceFlush => False
  | .shutdown => False
  | _ => True

/-- The batch processors on an async runtime, with an OTLP exporter. `on_end` and `emit` are one `try_send`. -/
def asyncPart (cfg : Cfg) (sampled : X → Bool) (c : O → Exporter.Cfg R (List X) M Y) (empty res : R) : Part X where
  S := AFull X R Y
  init := (.init res, ⟨true, empty⟩, [])
  Run q := Piped cfg sampled c empty res q.1 q.2.1 q.2.2
  enter _ x := AGoes cfg sampled c fun a => a = .emit x
  thread _ _ _ := False
  free _ _ := True
  own := AGoes cfg sampled c isTask
  ask _ f tok q q' := tok = q.1.nextTok ∧ AGoes cfg sampled c (fun a => a = if f then .forceFlush else .shutdown) q q'
  said q tok r := ∃ a ∈ q.1.returned, a.tok = tok ∧ (r = true ↔ a.ret = .result .ok)
  given q := q.1.accepted ++ q.1.refused ++ q.1.unsampled
  undecided _ _ := none
  Live q tok := tok < q.1.nextTok
  covers q tok := q.1.accepted.take (q.1.atCall tok) ++ q.1.refused ++ q.1.unsampled

variable {cfg : Cfg} {sampled : X → Bool} {c : O → Exporter.Cfg R (List X) M Y} {empty res : R}

theorem AGoes.step {P : Action X → Prop} {q q' : AFull X R Y} (h : AGoes cfg sampled c P q q') : ∃ a, P a ∧ Async.step cfg sampled q.1 a = some q'.1 := by
  cases h with
  | quiet a o hp hs _ _ => exact ⟨_, hp, hs⟩
  | finish b w o r hp hs _ _ _ => exact ⟨_, hp, hs⟩
  | early hp hs => exact ⟨_, hp, hs⟩
  | late b w o hp hs _ => exact ⟨_, hp, hs⟩
  | died k b w o hp _ hs _ => exact ⟨_, hp, hs⟩
  | stop o hp hs => exact ⟨_, hp, hs⟩

theorem AGoes.piped {P : Action X → Prop} {q q' : AFull X R Y} (h0 : Piped cfg sampled c empty res q.1 q.2.1 q.2.2) (h : AGoes cfg sampled c P q q') :
    Piped cfg sampled c empty res q'.1 q'.2.1 q'.2.2 := by
  cases h with
  | quiet a o hp hs h1 h2 => exact .quiet a o h0 hs h1 h2
  | finish b w o r hp hs h1 h2 h3 => exact .finish b w o r h0 hs h1 h2 h3
  | early hp hs => exact .early h0 hs
  | late b w o hp hs h1 => exact .late b w o h0 hs h1
  | died k b w o hp h1 hs h2 => exact .died k b w o h0 h1 hs h2
  | stop o hp hs => exact .stop o h0 hs

/-- Nothing about items and calls is changed, but answers may come. -/
structure Same (s s' : State X R) : Prop where
  accepted : s'.accepted = s.accepted
  refused : s'.refused = s.refused
  unsampled : s'.unsampled = s.unsampled
  nextTok : s'.nextTok = s.nextTok
  atCall : s'.atCall = s.atCall
  returned : s.returned <+: s'.returned

theorem Same.trans {s s' s'' : State X R} (h : Same s s') (h' : Same s' s'') : Same s s'' :=
  ⟨h'.1.trans h.1, h'.2.trans h.2, h'.3.trans h.3, h'.4.trans h.4, h'.5.trans h.5, h.6.trans h'.6⟩

theorem after_same (s : State X R) (k : Async.Cont) (r : Async.Res) (own : Option Nat) : Same s (s.after cfg k r own) := by
  unfold State.after
  repeat' split
  all_goals exact ⟨rfl, rfl, rfl, rfl, rfl, by first | exact List.prefix_refl _ | exact List.prefix_append _ _⟩

theorem export_same (s : State X R) (k : Async.Cont) : Same s (s.export cfg k) := by
  unfold State.export
  split
  · exact after_same _ _ _ _
  · exact ⟨rfl, rfl, rfl, rfl, rfl, List.prefix_refl _⟩

theorem process_same (s : State X R) (m : Msg X R) : Same s (s.process cfg m) := by
  unfold State.process
  cases m with
  | item x =>
    dsimp only
    split
    · refine Same.trans ?_ (export_same _ _); exact ⟨rfl, rfl, rfl, rfl, rfl, List.prefix_refl _⟩
    · exact ⟨rfl, rfl, rfl, rfl, rfl, List.prefix_refl _⟩
  | flush t => exact export_same _ _
  | shutdown t => exact export_same _ _
  | setResource r => exact ⟨rfl, rfl, rfl, rfl, rfl, List.prefix_refl _⟩

theorem task_same {s s' : State X R} {a : Action X} (ha : isTask a) (hs : Async.step cfg sampled s a = some s') : Same s s' := by
  cases a with
  | emit x => exact absurd ha id
  | forceFlush => exact absurd ha id
  | shutdown => exact absurd ha id
  | count =>
    simp only [Async.step] at hs
    split at hs
    · cases hs
    · injection hs with hs; subst hs; exact ⟨rfl, rfl, rfl, rfl, rfl, List.prefix_refl _⟩
  | recv =>
    simp only [Async.step] at hs
    split at hs
    · injection hs with hs; subst hs
      refine Same.trans ?_ (process_same _ _); exact ⟨rfl, rfl, rfl, rfl, rfl, List.prefix_refl _⟩
    · cases hs
  | tick =>
    simp only [Async.step] at hs
    split at hs
    · injection hs with hs; subst hs; exact export_same _ _
    · cases hs
  | finish r =>
    simp only [Async.step] at hs
    split at hs
    · injection hs with hs; subst hs
      refine Same.trans ?_ (after_same _ _ _ _); exact ⟨rfl, rfl, rfl, rfl, rfl, List.prefix_refl _⟩
    · cases hs
  | stop =>
    simp only [Async.step] at hs
    split at hs
    · injection hs with hs; subst hs; exact ⟨rfl, rfl, rfl, rfl, rfl, List.prefix_refl _⟩
    · injection hs with hs; subst hs; exact ⟨rfl, rfl, rfl, rfl, rfl, List.prefix_append _ _⟩
    · cases hs
  | close =>
    simp only [Async.step] at hs
    split at hs
    · injection hs with hs; subst hs; exact ⟨rfl, rfl, rfl, rfl, rfl, List.prefix_append _ _⟩
    · cases hs
  | die =>
    simp only [Async.step] at hs
    split at hs
    · cases hs
    · injection hs with hs; subst hs
      exact ⟨rfl, rfl, rfl, rfl, rfl, (List.prefix_append _ _).trans (List.prefix_append _ _)⟩

theorem call_same (s : State X R) (f : Bool) : (s.call cfg f).accepted = s.accepted ∧ (s.call cfg f).refused = s.refused ∧ (s.call cfg f).unsampled = s.unsampled ∧
    (s.call cfg f).nextTok = s.nextTok + 1 ∧ (s.call cfg f).atCall = (fun u => if u = s.nextTok then s.accepted.length else s.atCall u) ∧ s.returned <+: (s.call cfg f).returned := by
  unfold State.call
  dsimp only
  split
  · exact ⟨rfl, rfl, rfl, rfl, rfl, List.prefix_refl _⟩
  · exact ⟨rfl, rfl, rfl, rfl, rfl, List.prefix_append _ _⟩

theorem emit_given (s : State X R) (x : X) : s.accepted <+: (s.emit cfg sampled x).accepted ∧ s.refused <+: (s.emit cfg sampled x).refused ∧
    s.unsampled <+: (s.emit cfg sampled x).unsampled ∧ (s.emit cfg sampled x).nextTok = s.nextTok ∧ (s.emit cfg sampled x).atCall = s.atCall ∧
    (s.emit cfg sampled x).returned = s.returned ∧
    ((s.emit cfg sampled x).accepted ++ (s.emit cfg sampled x).refused ++ (s.emit cfg sampled x).unsampled).Perm (x :: (s.accepted ++ s.refused ++ s.unsampled)) := by
  unfold State.emit
  split
  · exact ⟨List.prefix_refl _, List.prefix_refl _, List.prefix_append _ _, rfl, rfl, rfl, perm_third _ _ _ _⟩
  · split
    · exact ⟨List.prefix_append _ _, List.prefix_refl _, List.prefix_refl _, rfl, rfl, rfl, perm_first _ _ _ _⟩
    · exact ⟨List.prefix_refl _, List.prefix_append _ _, List.prefix_refl _, rfl, rfl, rfl, perm_second _ _ _ _⟩

theorem call_grow (s : State X R) (f : Bool) : s.accepted <+: (s.call cfg f).accepted ∧ s.refused <+: (s.call cfg f).refused ∧ s.unsampled <+: (s.call cfg f).unsampled ∧
    s.returned <+: (s.call cfg f).returned ∧ s.nextTok ≤ (s.call cfg f).nextTok ∧ (∀ tok, tok < s.nextTok → (s.call cfg f).atCall tok = s.atCall tok) ∧
      ∀ tok, (s.call cfg f).atCall tok = s.atCall tok ∨ (s.call cfg f).atCall tok = s.accepted.length := by
  obtain ⟨h1, h2, h3, h4, h5, h6⟩ := call_same (cfg := cfg) s f
  refine ⟨h1 ▸ List.prefix_refl _, h2 ▸ List.prefix_refl _, h3 ▸ List.prefix_refl _, h6, by omega, fun tok ht => ?_, fun tok => ?_⟩
  · rw [h5]; exact if_neg (by omega)
  · rw [h5]; dsimp only; split
    · exact .inr rfl
    · exact .inl rfl

/-- Any step. -/
theorem async_grow {s s' : State X R} {a : Action X} (hs : Async.step cfg sampled s a = some s') :
    s.accepted <+: s'.accepted ∧ s.refused <+: s'.refused ∧ s.unsampled <+: s'.unsampled ∧ s.returned <+: s'.returned ∧ s.nextTok ≤ s'.nextTok ∧
      (∀ tok, tok < s.nextTok → s'.atCall tok = s.atCall tok) ∧ ∀ tok, s'.atCall tok = s.atCall tok ∨ s'.atCall tok = s.accepted.length := by
  by_cases ht : isTask a
  · have h := task_same ht hs
    exact ⟨h.1 ▸ List.prefix_refl _, h.2 ▸ List.prefix_refl _, h.3 ▸ List.prefix_refl _, h.6, h.4 ▸ Nat.le_refl _, fun tok _ => by rw [h.5], fun tok => .inl (by rw [h.5])⟩
  · cases a with
    | emit x =>
      injection hs with hs; subst hs
      obtain ⟨h1, h2, h3, h4, h5, h6, _⟩ := emit_given (cfg := cfg) (sampled := sampled) s x
      exact ⟨h1, h2, h3, h6 ▸ List.prefix_refl _, h4 ▸ Nat.le_refl _, fun tok _ => by rw [h5], fun tok => .inl (by rw [h5])⟩
    | forceFlush => injection hs with hs; subst hs; exact call_grow s false
    | shutdown => injection hs with hs; subst hs; exact call_grow s true
    | count => exact absurd trivial ht
    | recv => exact absurd trivial ht
    | tick => exact absurd trivial ht
    | finish r => exact absurd trivial ht
    | stop => exact absurd trivial ht
    | close => exact absurd trivial ht
    | die => exact absurd trivial ht

theorem async_past {r : R} {s : State X R} (h : Reachable cfg sampled r s) (tok : Nat) : s.atCall tok ≤ s.accepted.length := by
  induction h with
  | init => exact Nat.le_refl _
  | @step s s' a _ hs ih =>
    obtain ⟨h1, _, _, _, _, _, h2⟩ := async_grow hs
    have h3 := h1.length_le
    have h2 := h2 tok
    omega

theorem asyncPart_lawful (cfg : Cfg) (sampled : X → Bool) (c : O → Exporter.Cfg R (List X) M Y) (empty res : R) : (asyncPart cfg sampled c empty res).Lawful where
  run_init := .init
  run_step := by
    intro s s' h hs
    cases hs with
    | enter t x hs => exact AGoes.piped h hs
    | thread t hs => exact absurd hs id
    | own hs => exact AGoes.piped h hs
    | ask u f tok hs => exact AGoes.piped h hs.2
  given_init := rfl
  enter := by
    intro s s' t x _ hs
    obtain ⟨a, rfl, hs⟩ := AGoes.step hs
    injection hs with hs
    refine ⟨fun _ _ => rfl, .inr ⟨?_, rfl⟩⟩
    show (s'.1.accepted ++ s'.1.refused ++ s'.1.unsampled).Perm _
    rw [← hs]
    exact (emit_given s.1 x).2.2.2.2.2.2
  thread := fun _ hs => absurd hs id
  free := fun _ => rfl
  own := by
    intro s s' _ hs
    obtain ⟨a, ha, hs⟩ := AGoes.step hs
    have h := task_same ha hs
    refine ⟨?_, rfl⟩
    show s'.1.accepted ++ s'.1.refused ++ s'.1.unsampled = s.1.accepted ++ s.1.refused ++ s.1.unsampled
    rw [h.1, h.2, h.3]
  ask := by
    rintro s s' u f tok _ ⟨rfl, hs⟩
    obtain ⟨a, rfl, hs⟩ := AGoes.step hs
    have hs : s'.1 = s.1.call cfg (!f) := by
      cases f
      all_goals
        simp only [Bool.false_eq_true, if_false, if_true] at hs
        injection hs with hs
        exact hs.symm
    obtain ⟨h1, h2, h3, h4, h5, _⟩ := call_same (cfg := cfg) s.1 (!f)
    rw [← hs] at h1 h2 h3 h4 h5
    refine ⟨?_, rfl, ?_, ?_⟩
    · show s'.1.accepted ++ s'.1.refused ++ s'.1.unsampled = s.1.accepted ++ s.1.refused ++ s.1.unsampled
      rw [h1, h2, h3]
    · show s.1.nextTok < s'.1.nextTok
      omega
    · show (s.1.accepted ++ s.1.refused ++ s.1.unsampled).Subperm (s'.1.accepted.take (s'.1.atCall s.1.nextTok) ++ s'.1.refused ++ s'.1.unsampled)
      rw [h1, h2, h3, h5]
      simp [List.Subperm.refl]
  grow := by
    intro s s' tok hr hs hl
    have : ∃ a, Async.step cfg sampled s.1 a = some s'.1 := by
      cases hs with
      | enter t x hs => obtain ⟨a, _, hs⟩ := AGoes.step hs; exact ⟨a, hs⟩
      | thread t hs => exact absurd hs id
      | own hs => obtain ⟨a, _, hs⟩ := AGoes.step hs; exact ⟨a, hs⟩
      | ask u f tok hs => obtain ⟨a, _, hs⟩ := AGoes.step hs.2; exact ⟨a, hs⟩
    obtain ⟨a, hs⟩ := this
    obtain ⟨h1, h2, h3, h4, h5, h6, _⟩ := async_grow hs
    have hl : tok < s.1.nextTok := hl
    refine ⟨show tok < s'.1.nextTok by omega, ?_, fun r ⟨a, h, h'⟩ => ⟨a, h4.subset h, h'⟩⟩
    show (s.1.accepted.take (s.1.atCall tok) ++ s.1.refused ++ s.1.unsampled).Subperm (s'.1.accepted.take (s'.1.atCall tok) ++ s'.1.refused ++ s'.1.unsampled)
    rw [h6 tok hl]
    exact covers_grow (async_past (piped_reachable hr) tok) h1 h2 h3

end Async

end Otel.EndToEnd.Fan
