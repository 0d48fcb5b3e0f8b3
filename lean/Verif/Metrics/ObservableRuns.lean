import Verif.Metrics.ConcurrentSets
import Verif.Metrics.Precomputed
/-!
# The callbacks of observable instruments and the store (`opentelemetry-sdk/src/metrics/{pipeline,meter}.rs`, `internal/precomputed_sum.rs`), C103

A reader that collects first runs the callbacks, which observe into the stores of all readers, and then reads its own store. Here the callbacks of the reader, the
callbacks run by other readers on their threads, and the reading of the store are steps of one system, built on the store of C38 with its locks.
-/

set_option linter.unusedSectionVars false

namespace Otel.Metrics.Obs
open Otel.Metrics.Conc

variable {K V : Type} [LinearOrder K] [DecidableEq V] {A X : Type}

/-- Where the reader is in `Pipeline::produce`: outside, running callbacks (with the observations they made and those they will make), or reading the store.
pipeline.rs:103-163 -/
inductive Phase (K V X : Type) where
  | rest
  | calling (made left : List (X × Attrs K V))
  | reading (made : List (X × Attrs K V))

/-- Ghost: a finished collection: what the reader's callbacks observed, the points reported, and the record of C38. -/
structure Run (K V A X : Type) where
  made : List (X × Attrs K V)
  shown : List (Attrs K V × A)
  coll : Collection K V A X

/-- The store of an observable instrument in one pipeline, `reported` of `PrecomputedSum` (precomputed_sum.rs:12-19), and the reader. Ghosts: the finished collections, and what
the callbacks of each collection observe if they run to their end. -/
structure State (K V A X : Type) where
  st : Conc.State K V A X
  phase : Phase K V X
  reported : List (Attrs K V × A)
  runs : List (Run K V A X)
  program : List (List (X × Attrs K V))

/-- The instrument is new. -/
def State.init (cfg : Cfg K V A X) : State K V A X := ⟨.init cfg, .rest, [], [], []⟩

/-- What can happen. Thread 0 is the one on which the reader collects. -/
inductive Act (K V X : Type) where
  /-- a callback run by another reader observes, on its own thread -/
  | otherCall (t : Nat) (x : X) (a : Attrs K V)
  | other (t : Nat)
  /-- the reader collects; its callbacks will make these observations -/
  | produce (obs : List (X × Attrs K V))
  /-- a callback of the reader calls `observe` -/
  | observe
  | measuring
  /-- the callbacks have returned -/
  | collect
  | collector (it : List (Attrs K V × Nat))

/-- One step. `change` makes the reported points from what was reported before and the points in the store; it is the identity but for sums with delta temporality.
`produce` holds the pipeline's lock, so a reader makes one collection at a time. pipeline.rs:103-163 -/
def step (cfg : Cfg K V A X) (change : List (Attrs K V × A) → List (Attrs K V × A) → List (Attrs K V × A)) (s : State K V A X) : Act K V X → Option (State K V A X)
  | .otherCall t x a => if t = 0 then none else (Conc.step cfg s.st (.call t x a)).map fun st => { s with st := st }
  | .other t => if t = 0 then none else (Conc.step cfg s.st (.thread t)).map fun st => { s with st := st }
  | .produce obs => match s.phase with
    | .rest => some { s with phase := .calling [] obs, program := s.program ++ [obs] }
    | _ => none
  | .observe => match s.phase with
    | .calling made (o :: left) => (Conc.step cfg s.st (.call 0 o.1 o.2)).map fun st => { s with st := st, phase := .calling (made ++ [o]) left }
    | _ => none
  | .measuring => match s.phase with
    | .calling _ _ => (Conc.step cfg s.st (.thread 0)).map fun st => { s with st := st }
    | _ => none
  | .collect => match s.phase, s.st.pc 0 with
    | .calling made [], .idle => (Conc.step cfg s.st .collect).map fun st => { s with st := st, phase := .reading made }
    | _, _ => none
  | .collector it => match s.phase with
    | .reading made => (Conc.step cfg s.st (.collector it)).map fun st => match st.coll with
      | .idle => { s with st := st, phase := .rest, reported := s.st.dest, runs := s.runs ++ [⟨made, change s.reported s.st.dest, st.done.getLast?.getD .empty⟩] }
      | _ => { s with st := st }
    | _ => none

/-- `PrecomputedSum::delta`: the value minus what was reported for the same attributes in the collection before, zero if nothing was. The new values replace the old ones.
precomputed_sum.rs:38-84. The code subtracts while it reads the store; `reported` does not change meanwhile. -/
def changes {N : Type} (z : N) (sub : N → N → N) (old pts : List (Attrs K V × N)) : List (Attrs K V × N) :=
  pts.map fun p => (p.1, sub p.2 ((lookupReported old p.1).getD z))

/-- All other aggregations, and sums with cumulative temporality, report what is in the store. precomputed_sum.rs:86-127, last_value.rs:66-159 -/
def plain (_ pts : List (Attrs K V × A)) : List (Attrs K V × A) := pts

/-- What some schedule leads to. -/
inductive Reachable (cfg : Cfg K V A X) (change : List (Attrs K V × A) → List (Attrs K V × A) → List (Attrs K V × A)) : State K V A X → Prop
  | init : Reachable cfg change (.init cfg)
  | step {s s'} : Reachable cfg change s → (a : Act K V X) → step cfg change s a = some s' → Reachable cfg change s'

/-- Run a schedule. -/
def runAll (cfg : Cfg K V A X) (change : List (Attrs K V × A) → List (Attrs K V × A) → List (Attrs K V × A)) (s : State K V A X) : List (Act K V X) → Option (State K V A X)
  | [] => some s
  | a :: as => match step cfg change s a with
    | some s' => runAll cfg change s' as
    | none => none

/-! ## Specification -/

/-- The values that callbacks observed for a set of attributes, in order. -/
def observed (srt : Sorter K V) (made : List (X × Attrs K V)) (a : Attrs K V) : List X :=
  (made.filter fun e => sortAndDedup srt e.2 = sortAndDedup srt a).map Prod.fst

/-- The values that a delta collection found for a set. -/
def found (srt : Sorter K V) (r : Collection K V A X) (a : Attrs K V) : List X := setValues srt r.period (r.noVals.getD []) a

/-- Only this reader's callbacks observe. -/
def Alone (s : State K V A X) : Prop := ∀ e ∈ s.st.applied, e.1 = 0

/-! ## Lemmas -/

/-- One step does nothing, a step of the store, or completes a collection. -/
theorem step_store {cfg : Cfg K V A X} {change : List (Attrs K V × A) → List (Attrs K V × A) → List (Attrs K V × A)} {s s' : State K V A X} {a : Act K V X}
    (h : step cfg change s a = some s') :
    (s'.st = s.st ∧ s'.runs = s.runs ∧ s'.reported = s.reported) ∨ (∃ b, Conc.step cfg s.st b = some s'.st ∧ s'.st.done = s.st.done ∧ s'.runs = s.runs ∧ s'.reported = s.reported) ∨
      ∃ b made r, Conc.step cfg s.st b = some s'.st ∧ s'.st.done = s.st.done ++ [r] ∧ s'.reported = r.points ∧ s'.runs = s.runs ++ [⟨made, change s.reported r.points, r⟩] := by
  have hnd : ∀ {b : Conc.Action K V X} {st' : Conc.State K V A X}, Conc.step cfg s.st b = some st' → (∀ it, b ≠ .collector it) → st'.done = s.st.done := by
    intro b st' hb hne
    cases b with
    | collector it => exact absurd rfl (hne it)
    | call t x a => step_cases hb <;> first | (cases hb; done) | (injection hb with hb; subst hb; rfl)
    | thread t => step_cases hb <;> first | (cases hb; done) | (injection hb with hb; subst hb; rfl)
    | collect => step_cases hb <;> first | (cases hb; done) | (injection hb with hb; subst hb; rfl)
  cases a with
  | otherCall t x a =>
    simp only [step] at h
    split at h
    · cases h
    · obtain ⟨st, hst, rfl⟩ := Option.map_eq_some_iff.1 h
      exact .inr (.inl ⟨_, hst, hnd hst (by simp), rfl, rfl⟩)
  | other t =>
    simp only [step] at h
    split at h
    · cases h
    · obtain ⟨st, hst, rfl⟩ := Option.map_eq_some_iff.1 h
      exact .inr (.inl ⟨_, hst, hnd hst (by simp), rfl, rfl⟩)
  | produce obs =>
    simp only [step] at h
    split at h
    · injection h with h; subst h; exact .inl ⟨rfl, rfl, rfl⟩
    · cases h
  | observe =>
    simp only [step] at h
    split at h
    · obtain ⟨st, hst, rfl⟩ := Option.map_eq_some_iff.1 h
      exact .inr (.inl ⟨_, hst, hnd hst (by simp), rfl, rfl⟩)
    · cases h
  | measuring =>
    simp only [step] at h
    split at h
    · obtain ⟨st, hst, rfl⟩ := Option.map_eq_some_iff.1 h
      exact .inr (.inl ⟨_, hst, hnd hst (by simp), rfl, rfl⟩)
    · cases h
  | collect =>
    simp only [step] at h
    split at h
    · obtain ⟨st, hst, rfl⟩ := Option.map_eq_some_iff.1 h
      exact .inr (.inl ⟨_, hst, hnd hst (by simp), rfl, rfl⟩)
    · cases h
  | collector it =>
    simp only [step] at h
    split at h
    · rename_i made _
      obtain ⟨st, hst, rfl⟩ := Option.map_eq_some_iff.1 h
      have hst0 := hst
      simp only [Conc.step, collectorStep] at hst
      cases hc : s.st.coll with
      | idle => rw [hc] at hst; cases hst
      | flag =>
        rw [hc] at hst
        dsimp only at hst
        split at hst <;> (injection hst with hst; subst hst; exact .inr (.inl ⟨_, hst0, rfl, rfl, rfl⟩))
      | takeNo => rw [hc] at hst; injection hst with hst; subst hst; exact .inr (.inl ⟨_, hst0, rfl, rfl, rfl⟩)
      | lock =>
        rw [hc] at hst
        dsimp only at hst
        repeat' split at hst
        all_goals first | (cases hst; done) | (injection hst with hst; subst hst; exact .inr (.inl ⟨_, hst0, rfl, rfl, rfl⟩))
      | walk rest seen =>
        rw [hc] at hst
        cases rest with
        | nil =>
          dsimp only at hst
          injection hst with hst; subst hst
          refine .inr (.inr ⟨_, made, { s.st.cur with points := s.st.dest, endHist := s.st.hist }, hst0, rfl, rfl, ?_⟩)
          simp
        | cons e rest =>
          dsimp only at hst
          split at hst <;> (injection hst with hst; subst hst; exact .inr (.inl ⟨_, hst0, rfl, rfl, rfl⟩))
    · cases h

theorem reachable_store {cfg : Cfg K V A X} {change : List (Attrs K V × A) → List (Attrs K V × A) → List (Attrs K V × A)} {s : State K V A X}
    (h : Reachable cfg change s) : Conc.Reachable cfg s.st := by
  induction h with
  | init => exact .init
  | step _ a hs ih =>
    rcases step_store hs with ⟨h1, _⟩ | ⟨b, h1, _⟩ | ⟨b, _, _, h1, _⟩
    · rw [h1]; exact ih
    · exact ih.step b h1
    · exact ih.step b h1

/-- A list with the element before each. -/
def afterEach {α : Type} : Option α → List α → List (Option α × α)
  | _, [] => []
  | p, x :: l => (p, x) :: afterEach (some x) l

theorem afterEach_concat {α : Type} (p : Option α) (l : List α) (x : α) : afterEach p (l ++ [x]) = afterEach p l ++ [((l.getLast?).or p, x)] := by
  induction l generalizing p with
  | nil => simp [afterEach]
  | cons y l ih =>
    rw [List.cons_append, afterEach, afterEach, ih, List.cons_append]
    congr 3
    cases l with
    | nil => rfl
    | cons z l => rw [List.getLast?_cons_cons]; cases h : (z :: l).getLast? with
      | none => simp at h
      | some w => rfl

theorem afterEach_snd {α : Type} (p : Option α) (l : List α) : (afterEach p l).map Prod.snd = l := by
  induction l generalizing p with
  | nil => rfl
  | cons x l ih => rw [afterEach, List.map_cons, ih]

/-- The collections of the store are the runs; each shows the change since the one before. -/
structure RunsInv (change : List (Attrs K V × A) → List (Attrs K V × A) → List (Attrs K V × A)) (s : State K V A X) : Prop where
  colls : s.runs.map (·.coll) = s.st.done
  reported : s.reported = (s.runs.getLast?.map (·.coll.points)).getD []
  shown : ∀ x ∈ afterEach none s.runs, x.2.shown = change ((x.1.map (·.coll.points)).getD []) x.2.coll.points

theorem runs_reachable {cfg : Cfg K V A X} {change : List (Attrs K V × A) → List (Attrs K V × A) → List (Attrs K V × A)} {s : State K V A X}
    (h : Reachable cfg change s) : RunsInv change s := by
  induction h with
  | init => exact ⟨rfl, rfl, fun x hx => by cases hx⟩
  | step _ a hs ih =>
    obtain ⟨i1, i2, i3⟩ := ih
    rcases step_store hs with ⟨h1, h2, h3⟩ | ⟨b, h1, h2, h3, h4⟩ | ⟨b, made, r, h1, h2, h3, h4⟩
    · exact ⟨by rw [h1, h2, i1], by rw [h3, h2, i2], by rw [h2]; exact i3⟩
    · exact ⟨by rw [h2, h3, i1], by rw [h4, h3, i2], by rw [h3]; exact i3⟩
    · refine ⟨by rw [h2, h4, List.map_append, i1]; rfl, by rw [h3, h4]; simp, ?_⟩
      rw [h4, afterEach_concat]
      intro x hx
      rcases List.mem_append.1 hx with hx | hx
      · exact i3 x hx
      · rw [List.mem_singleton] at hx
        subst hx
        dsimp only
        rw [i2, Option.or_none]

/-- What is left of a collection that is under way. -/
def Phase.whole : Phase K V X → List (List (X × Attrs K V))
  | .rest => []
  | .calling made left => [made ++ left]
  | .reading made => [made]

/-- C103: a collection reads the store only after its callbacks made all their observations: the finished collections, and then the one under way, are the program's. -/
theorem callbacks_run_to_end {cfg : Cfg K V A X} {change : List (Attrs K V × A) → List (Attrs K V × A) → List (Attrs K V × A)} {s : State K V A X}
    (h : Reachable cfg change s) : s.runs.map (·.made) ++ s.phase.whole = s.program := by
  induction h with
  | init => rfl
  | @step s s' _ a hs ih =>
    cases a <;> simp only [step] at hs <;> split at hs <;> try cases hs
    · obtain ⟨st, _, rfl⟩ := Option.map_eq_some_iff.1 hs; exact ih
    · obtain ⟨st, _, rfl⟩ := Option.map_eq_some_iff.1 hs; exact ih
    · rename_i hp
      rw [hp] at ih
      show _ = s.program ++ [_]
      rw [← ih]; simp [Phase.whole]
    · rename_i hp
      obtain ⟨st, _, rfl⟩ := Option.map_eq_some_iff.1 hs
      rw [hp] at ih
      rw [← ih]; simp [Phase.whole]
    · rename_i hp
      obtain ⟨st, _, rfl⟩ := Option.map_eq_some_iff.1 hs; exact ih
    · rename_i hp _
      obtain ⟨st, _, rfl⟩ := Option.map_eq_some_iff.1 hs
      rw [hp] at ih
      rw [← ih]; simp [Phase.whole]
    · rename_i hp
      obtain ⟨st, _, rfl⟩ := Option.map_eq_some_iff.1 hs
      rw [hp] at ih
      split <;> simpa [Phase.whole, hp] using ih

/-! ### The observations of the callbacks are in the store -/

/-- `l` has `m`, and nothing else if the reader is alone. -/
def Has {α : Type} (alone : Prop) (m l : List α) : Prop := m.Sublist l ∧ (alone → l = m)

theorem Has.refl {α : Type} (alone : Prop) (l : List α) : Has alone l l := ⟨List.Sublist.refl _, fun _ => rfl⟩

theorem Has.add {α : Type} {alone : Prop} {m l : List α} (h : Has alone m l) (n : List α) : Has alone (m ++ n) (l ++ n) :=
  ⟨h.1.append (List.Sublist.refl _), fun ha => by rw [h.2 ha]⟩

theorem Has.other {α : Type} {alone : Prop} {m l l' : List α} (h : Has alone m l) (hp : l <+: l') (ha : alone → l' = l) : Has alone m l' :=
  ⟨h.1.trans hp.sublist, fun hal => (ha hal).trans (h.2 hal)⟩

/-- The observations with attributes. -/
def withA (m : List (X × Attrs K V)) : List (X × Attrs K V) := m.filter fun e => e.2 ≠ []

/-- The values observed without. -/
def without (m : List (X × Attrs K V)) : List X := (m.filter fun e => e.2 = []).map Prod.fst

theorem withA_append (m n : List (X × Attrs K V)) : withA (m ++ n) = withA m ++ withA n := List.filter_append ..
theorem without_append (m n : List (X × Attrs K V)) : without (m ++ n) = without m ++ without n := by simp [without]
theorem withA_nil (x : X) : withA [((x, []) : X × Attrs K V)] = [] := by simp [withA]
theorem withA_cons (x : X) {a : Attrs K V} (h : a ≠ []) : withA [(x, a)] = [(x, a)] := by simp [withA, h]
theorem without_nil (x : X) : without [((x, []) : X × Attrs K V)] = [x] := by simp [without]
theorem without_cons (x : X) {a : Attrs K V} (h : a ≠ []) : without [(x, a)] = [] := by simp [without, h]

/-- These observations are in the store. -/
structure In (alone : Prop) (m : List (X × Attrs K V)) (h : Hist K V X) (no : List (Nat × X)) : Prop where
  attrs : Has alone (withA m) h
  no : Has alone (without m) (no.map Prod.snd)

/-- The flag is set if one of them was without attributes, and only then if the reader is alone. -/
def Flagged (alone : Prop) (m : List (X × Attrs K V)) (flag : Bool) : Prop := (without m ≠ [] → flag = true) ∧ (alone → flag = true → without m ≠ [])

theorem Flagged.other {alone : Prop} {m : List (X × Attrs K V)} {flag flag' : Bool} (h : Flagged alone m flag) (hf : flag = true → flag' = true) (ha : alone → flag' = flag) :
    Flagged alone m flag' := ⟨fun h1 => hf (h.1 h1), fun al h1 => h.2 al (by rw [← ha al]; exact h1)⟩

/-- While the callbacks run. -/
def CallInv (alone : Prop) (B made : List (X × Attrs K V)) (h : Hist K V X) (no : List (Nat × X)) (flag : Bool) : MPc K V X → Prop
  | .idle => In alone (B ++ made) h no ∧ Flagged alone (B ++ made) flag
  | .noAttr x => ∃ m, made = m ++ [(x, [])] ∧ In alone (B ++ m) h no ∧ Flagged alone (B ++ m) flag
  | .noFlag x => ∃ m, made = m ++ [(x, [])] ∧ In alone (B ++ made) h no
  | .lookup x a => ∃ m, made = m ++ [(x, a)] ∧ a ≠ [] ∧ In alone (B ++ m) h no ∧ Flagged alone (B ++ m) flag
  | .found x a _ => ∃ m, made = m ++ [(x, a)] ∧ a ≠ [] ∧ In alone (B ++ m) h no ∧ Flagged alone (B ++ m) flag
  | .write x a => ∃ m, made = m ++ [(x, a)] ∧ a ≠ [] ∧ In alone (B ++ m) h no ∧ Flagged alone (B ++ m) flag

/-- While the store is read. `M` is what the collection should tell, `B` is what stays in the store. -/
def ReadInv (alone : Prop) (delta : Bool) (M B : List (X × Attrs K V)) (h : Hist K V X) (no : List (Nat × X)) (flag : Bool) (cur : Collection K V A X) : CPc K V → Prop
  | .idle => False
  | .flag => In alone M h no ∧ Flagged alone M flag ∧ Has alone (withA M) cur.startHist ∧ cur.noVals = none
  | .takeNo => In alone M h no ∧ Flagged alone B flag ∧ Has alone (withA M) cur.startHist ∧ (alone → without M ≠ [])
  | .lock => Has alone (withA M) h ∧ Has alone (without B) (no.map Prod.snd) ∧ Flagged alone B flag ∧ Has alone (withA M) cur.startHist ∧
      Has alone (without M) ((cur.noVals.getD []).map Prod.snd) ∧ (alone → cur.noVals ≠ some [])
  | .walk _ _ => In alone B h no ∧ Flagged alone B flag ∧ Has alone (withA M) (if delta then cur.period else cur.startHist) ∧
      Has alone (without M) ((cur.noVals.getD []).map Prod.snd) ∧ (alone → cur.noVals ≠ some [])

/-- What a finished run told. -/
def RunOk (alone : Prop) (delta : Bool) (M : List (X × Attrs K V)) (r : Collection K V A X) : Prop :=
  Has alone (withA M) (if delta then r.period else r.startHist) ∧ (delta = false → alone → r.endHist = withA M) ∧ Has alone (without M) ((r.noVals.getD []).map Prod.snd) ∧
    (alone → r.noVals ≠ some [])

/-- What is in the store before the callbacks run: nothing needed, with delta temporality; all that was observed, with cumulative. -/
def base (delta : Bool) (rs : List (Run K V A X)) : List (X × Attrs K V) := if delta then [] else rs.flatMap (·.made)

structure Inv (cfg : Cfg K V A X) (alone : Prop) (s : State K V A X) : Prop where
  phase : match s.phase with
    | .rest => s.st.coll = .idle ∧ s.st.pc 0 = .idle ∧ In alone (base cfg.delta s.runs) s.st.hist s.st.noHist ∧ Flagged alone (base cfg.delta s.runs) s.st.flag
    | .calling made _ => s.st.coll = .idle ∧ CallInv alone (base cfg.delta s.runs) made s.st.hist s.st.noHist s.st.flag (s.st.pc 0)
    | .reading made => s.st.pc 0 = .idle ∧ ReadInv alone cfg.delta (base cfg.delta s.runs ++ made) (if cfg.delta then [] else base cfg.delta s.runs ++ made)
        s.st.hist s.st.noHist s.st.flag s.st.cur s.st.coll
  done : ∀ pre x post, s.runs = pre ++ x :: post → RunOk alone cfg.delta (base cfg.delta pre ++ x.made) x.coll

theorem In.other {alone : Prop} {m : List (X × Attrs K V)} {h h' : Hist K V X} {no no' : List (Nat × X)} (hi : In alone m h no) (hh : h <+: h') (hn : no <+: no')
    (ha : alone → h' = h ∧ no' = no) : In alone m h' no' :=
  ⟨hi.attrs.other hh fun hal => (ha hal).1, hi.no.other (hn.map _) fun hal => by rw [(ha hal).2]⟩

theorem In.addA {alone : Prop} {m : List (X × Attrs K V)} {h : Hist K V X} {no : List (Nat × X)} (hi : In alone m h no) (x : X) {a : Attrs K V} (hne : a ≠ []) :
    In alone (m ++ [(x, a)]) (h ++ [(x, a)]) no := by
  refine ⟨?_, ?_⟩
  · rw [withA_append, withA_cons x hne]; exact hi.attrs.add _
  · rw [without_append, without_cons x hne, List.append_nil]; exact hi.no

theorem In.addNo {alone : Prop} {m : List (X × Attrs K V)} {h : Hist K V X} {no : List (Nat × X)} (hi : In alone m h no) (t : Nat) (x : X) :
    In alone (m ++ [(x, [])]) h (no ++ [(t, x)]) := by
  refine ⟨?_, ?_⟩
  · rw [withA_append, withA_nil, List.append_nil]; exact hi.attrs
  · rw [without_append, without_nil, List.map_append]; exact hi.no.add _

theorem CallInv.other {alone : Prop} {B made : List (X × Attrs K V)} {h h' : Hist K V X} {no no' : List (Nat × X)} {flag flag' : Bool} {pc : MPc K V X}
    (hi : CallInv alone B made h no flag pc) (hh : h <+: h') (hn : no <+: no') (ha : alone → h' = h ∧ no' = no) (hf : flag = true → flag' = true) (hg : alone → flag' = flag) :
    CallInv alone B made h' no' flag' pc := by
  cases pc with
  | idle => exact ⟨hi.1.other hh hn ha, hi.2.other hf hg⟩
  | noAttr x => obtain ⟨m, h1, h2, h3⟩ := hi; exact ⟨m, h1, h2.other hh hn ha, h3.other hf hg⟩
  | noFlag x => obtain ⟨m, h1, h2⟩ := hi; exact ⟨m, h1, h2.other hh hn ha⟩
  | lookup x a => obtain ⟨m, h1, h1', h2, h3⟩ := hi; exact ⟨m, h1, h1', h2.other hh hn ha, h3.other hf hg⟩
  | found x a p => obtain ⟨m, h1, h1', h2, h3⟩ := hi; exact ⟨m, h1, h1', h2.other hh hn ha, h3.other hf hg⟩
  | write x a => obtain ⟨m, h1, h1', h2, h3⟩ := hi; exact ⟨m, h1, h1', h2.other hh hn ha, h3.other hf hg⟩

theorem ReadInv.other {alone : Prop} {delta : Bool} {M B : List (X × Attrs K V)} {h h' : Hist K V X} {no no' : List (Nat × X)} {flag flag' : Bool} {cur : Collection K V A X}
    {c : CPc K V} (hi : ReadInv alone delta M B h no flag cur c) (hh : h <+: h') (hn : no <+: no') (ha : alone → h' = h ∧ no' = no) (hf : flag = true → flag' = true) (hg : alone → flag' = flag) :
    ReadInv alone delta M B h' no' flag' cur c := by
  cases c with
  | idle => exact hi
  | flag => exact ⟨hi.1.other hh hn ha, hi.2.1.other hf hg, hi.2.2⟩
  | takeNo => exact ⟨hi.1.other hh hn ha, hi.2.1.other hf hg, hi.2.2⟩
  | lock => exact ⟨hi.1.other hh fun hal => (ha hal).1, hi.2.1.other (hn.map _) fun hal => by rw [(ha hal).2], hi.2.2.1.other hf hg, hi.2.2.2⟩
  | walk rest seen => exact ⟨hi.1.other hh hn ha, hi.2.1.other hf hg, hi.2.2⟩

/-- A step of another thread only adds to the store. -/
theorem other_effect {cfg : Cfg K V A X} {s s' : Conc.State K V A X} {b : Conc.Action K V X} (hr : Conc.Reachable cfg s) (h : Conc.step cfg s b = some s') {t : Nat} (ht : t ≠ 0)
    (hb : (∃ x a, b = .call t x a) ∨ b = .thread t) :
    s'.coll = s.coll ∧ s'.cur = s.cur ∧ s'.pc 0 = s.pc 0 ∧ s.hist <+: s'.hist ∧ s.noHist <+: s'.noHist ∧ (s.flag = true → s'.flag = true) ∧ s.applied <+: s'.applied ∧
      ((s'.hist = s.hist ∧ s'.noHist = s.noHist ∧ s'.flag = s.flag) ∨ ∃ e ∈ s'.applied, e.1 ≠ 0) := by
  have hpc : ∀ v, setPc s.pc t v 0 = s.pc 0 := fun v => setPc_ne _ _ _ _ (Ne.symm ht)
  rcases hb with ⟨x, a, rfl⟩ | rfl
  · simp only [Conc.step] at h
    split at h
    · injection h with h; subst h
      exact ⟨rfl, rfl, hpc _, List.prefix_refl _, List.prefix_refl _, id, List.prefix_refl _, .inl ⟨rfl, rfl, rfl⟩⟩
    · cases h
  · simp only [Conc.step, threadStep] at h
    split at h
    · cases h
    · injection h with h; subst h
      exact ⟨rfl, rfl, hpc _, List.prefix_refl _, List.prefix_append _ _, id, List.prefix_append _ _, .inr ⟨_, List.mem_append_right _ (List.mem_singleton_self _), ht⟩⟩
    · injection h with h; subst h
      refine ⟨rfl, rfl, hpc _, List.prefix_refl _, List.prefix_refl _, fun _ => rfl, List.prefix_refl _, .inr ?_⟩
      have := (logs_reachable hr).calls t
      rw [‹s.pc t = _›] at this
      have hm : (t, ‹X›, []) ∈ s.applied.filter fun e => e.1 = t := by rw [this]; exact List.mem_append_right _ (List.mem_singleton_self _)
      exact ⟨_, List.mem_of_mem_filter hm, ht⟩
    · split at h
      · injection h with h; subst h
        exact ⟨rfl, rfl, hpc _, List.prefix_refl _, List.prefix_refl _, id, List.prefix_refl _, .inl ⟨rfl, rfl, rfl⟩⟩
      · injection h with h; subst h
        exact ⟨rfl, rfl, hpc _, List.prefix_refl _, List.prefix_refl _, id, List.prefix_refl _, .inl ⟨rfl, rfl, rfl⟩⟩
    · injection h with h; subst h
      exact ⟨rfl, rfl, hpc _, List.prefix_append _ _, List.prefix_refl _, id, List.prefix_append _ _, .inr ⟨_, List.mem_append_right _ (List.mem_singleton_self _), ht⟩⟩
    · split at h
      · injection h with h; subst h
        exact ⟨rfl, rfl, hpc _, List.prefix_append _ _, List.prefix_refl _, id, List.prefix_append _ _, .inr ⟨_, List.mem_append_right _ (List.mem_singleton_self _), ht⟩⟩
      · cases h

theorem inv_other {cfg : Cfg K V A X} {alone : Prop} {s : State K V A X} {st : Conc.State K V A X} {b : Conc.Action K V X} (hr : Conc.Reachable cfg s.st) (hi : Inv cfg alone s)
    (h : Conc.step cfg s.st b = some st) {t : Nat} (ht : t ≠ 0) (hb : (∃ x a, b = .call t x a) ∨ b = .thread t) (hal : alone → ∀ e ∈ st.applied, e.1 = 0) :
    Inv cfg alone { s with st := st } := by
  obtain ⟨e1, e2, e3, e4, e5, e6, _, e8⟩ := other_effect hr h ht hb
  have ha' : alone → st.hist = s.st.hist ∧ st.noHist = s.st.noHist ∧ st.flag = s.st.flag := fun al => by
    rcases e8 with e8 | ⟨e, he, hne⟩
    · exact e8
    · exact absurd (hal al e he) hne
  have ha : alone → st.hist = s.st.hist ∧ st.noHist = s.st.noHist := fun al => ⟨(ha' al).1, (ha' al).2.1⟩
  have hg : alone → st.flag = s.st.flag := fun al => (ha' al).2.2
  refine ⟨?_, hi.done⟩
  have hp := hi.phase
  dsimp only
  cases hph : s.phase with
  | rest =>
    rw [hph] at hp
    dsimp only at hp ⊢
    exact ⟨e1.trans hp.1, e3.trans hp.2.1, hp.2.2.1.other e4 e5 ha, hp.2.2.2.other e6 hg⟩
  | calling made left =>
    rw [hph] at hp
    dsimp only at hp ⊢
    rw [e3]
    exact ⟨e1.trans hp.1, hp.2.other e4 e5 ha e6 hg⟩
  | reading made =>
    rw [hph] at hp
    dsimp only at hp ⊢
    rw [e1, e2]
    exact ⟨e3.trans hp.1, hp.2.other e4 e5 ha e6 hg⟩

theorem inv_step {cfg : Cfg K V A X} {change : List (Attrs K V × A) → List (Attrs K V × A) → List (Attrs K V × A)} {alone : Prop} {s s' : State K V A X}
    (hreach : Conc.Reachable cfg s.st) (hi : Inv cfg alone s) (a : Act K V X) (h : step cfg change s a = some s') (hal : alone → ∀ e ∈ s'.st.applied, e.1 = 0) : Inv cfg alone s' := by
  cases a with
  | otherCall t x a =>
    simp only [step] at h
    split at h
    · cases h
    · rename_i ht
      obtain ⟨st, hst, rfl⟩ := Option.map_eq_some_iff.1 h
      exact inv_other hreach hi hst ht (.inl ⟨x, a, rfl⟩) hal
  | other t =>
    simp only [step] at h
    split at h
    · cases h
    · rename_i ht
      obtain ⟨st, hst, rfl⟩ := Option.map_eq_some_iff.1 h
      exact inv_other hreach hi hst ht (.inr rfl) hal
  | produce obs =>
    simp only [step] at h
    split at h
    · rename_i hph
      injection h with h; subst h
      have hp := hi.phase
      rw [hph] at hp
      refine ⟨?_, hi.done⟩
      dsimp only at hp ⊢
      refine ⟨hp.1, ?_⟩
      rw [hp.2.1]
      show In alone (_ ++ []) _ _ ∧ Flagged alone (_ ++ []) _
      rw [List.append_nil]
      exact hp.2.2
    · cases h
  | observe =>
    simp only [step] at h
    split at h
    · rename_i made o left hph
      obtain ⟨st, hst, rfl⟩ := Option.map_eq_some_iff.1 h
      have hp := hi.phase
      rw [hph] at hp
      refine ⟨?_, hi.done⟩
      dsimp only at hp ⊢
      simp only [Conc.step] at hst
      split at hst
      · rename_i hpc
        injection hst with hst; subst hst
        rw [hpc] at hp
        refine ⟨hp.1, ?_⟩
        dsimp only
        rw [setPc_self]
        obtain ⟨x, a⟩ := o
        dsimp only
        by_cases hne : a = []
        · subst hne; rw [if_pos rfl]; exact ⟨made, rfl, hp.2⟩
        · rw [if_neg hne]; exact ⟨made, rfl, hne, hp.2⟩
      · cases hst
    · cases h
  | measuring =>
    simp only [step] at h
    split at h
    · rename_i made left hph
      obtain ⟨st, hst, rfl⟩ := Option.map_eq_some_iff.1 h
      have hp := hi.phase
      rw [hph] at hp
      refine ⟨?_, hi.done⟩
      dsimp only at hp ⊢
      rw [hph]
      dsimp only
      simp only [Conc.step, threadStep] at hst
      split at hst
      · cases hst
      · rename_i x hpc
        injection hst with hst; subst hst
        rw [hpc] at hp
        obtain ⟨m, h1, h2, h3⟩ := hp.2
        refine ⟨hp.1, ?_⟩
        dsimp only
        rw [setPc_self]
        refine ⟨m, h1, ?_⟩
        rw [h1, ← List.append_assoc]
        exact h2.addNo 0 x
      · rename_i x hpc
        injection hst with hst; subst hst
        rw [hpc] at hp
        obtain ⟨m, h1, h2⟩ := hp.2
        refine ⟨hp.1, ?_⟩
        dsimp only
        rw [setPc_self]
        refine ⟨h2, fun _ => rfl, fun _ _ => ?_⟩
        rw [h1, ← List.append_assoc, without_append, without_nil]
        simp
      · rename_i x a hpc
        rw [hpc] at hp
        obtain ⟨m, h1, h1', h2, h3⟩ := hp.2
        split at hst <;>
        · injection hst with hst; subst hst
          refine ⟨hp.1, ?_⟩
          dsimp only
          rw [setPc_self]
          exact ⟨m, h1, h1', h2, h3⟩
      · rename_i x a p hpc
        injection hst with hst; subst hst
        rw [hpc] at hp
        obtain ⟨m, h1, h1', h2, h3⟩ := hp.2
        refine ⟨hp.1, ?_⟩
        dsimp only
        rw [setPc_self]
        refine ⟨?_, ?_⟩
        · rw [h1, ← List.append_assoc]; exact h2.addA x h1'
        · rw [h1, ← List.append_assoc, Flagged, without_append, without_cons x h1', List.append_nil]; exact h3
      · rename_i x a hpc
        split at hst
        · injection hst with hst; subst hst
          rw [hpc] at hp
          obtain ⟨m, h1, h1', h2, h3⟩ := hp.2
          refine ⟨hp.1, ?_⟩
          dsimp only
          rw [setPc_self]
          refine ⟨?_, ?_⟩
          · rw [h1, ← List.append_assoc]; exact h2.addA x h1'
          · rw [h1, ← List.append_assoc, Flagged, without_append, without_cons x h1', List.append_nil]; exact h3
        · cases hst
    · cases h
  | collect =>
    simp only [step] at h
    split at h
    · rename_i made hph hpc
      obtain ⟨st, hst, rfl⟩ := Option.map_eq_some_iff.1 h
      have hp := hi.phase
      rw [hph] at hp
      refine ⟨?_, hi.done⟩
      dsimp only at hp ⊢
      rw [hpc] at hp
      simp only [Conc.step] at hst
      split at hst
      · injection hst with hst; subst hst
        exact ⟨hpc, hp.2.1, hp.2.2, hp.2.1.attrs, rfl⟩
      · cases hst
    · cases h
  | collector it =>
    simp only [step] at h
    split at h
    · rename_i made hph
      obtain ⟨st, hst, rfl⟩ := Option.map_eq_some_iff.1 h
      have hp := hi.phase
      rw [hph] at hp
      dsimp only at hp
      obtain ⟨hpc, hr⟩ := hp
      simp only [Conc.step, collectorStep] at hst
      cases hc : s.st.coll with
      | idle => rw [hc] at hst; cases hst
      | flag =>
        rw [hc] at hst hr
        dsimp only at hst
        obtain ⟨r1, r2, r3, r4⟩ := hr
        split at hst
        · injection hst with hst; subst hst
          refine ⟨?_, hi.done⟩
          dsimp only
          rw [hph]
          rename_i hf
          refine ⟨hpc, r1, ?_, r3, fun al => r2.2 al hf⟩
          cases hd : cfg.delta with
          | true => exact ⟨fun h1 => absurd rfl h1, fun _ h1 => by cases h1⟩
          | false => rw [hd] at r2; exact ⟨fun _ => rfl, fun al _ => r2.2 al hf⟩
        · rename_i hf
          injection hst with hst; subst hst
          refine ⟨?_, hi.done⟩
          dsimp only
          rw [hph]
          have hwo : without (base cfg.delta s.runs ++ made) = [] := by
            by_contra h1; exact hf (r2.1 h1)
          refine ⟨hpc, r1.attrs, ?_, ?_, r3, ?_⟩
          · have h2 := r1.no
            split
            · refine ⟨List.nil_sublist _, fun al => ?_⟩
              have := h2.2 al
              rw [hwo] at this
              exact this
            · exact h2
          · refine ⟨fun h1 => ?_, fun _ h1 => absurd h1 hf⟩
            split at h1
            · exact absurd rfl h1
            · exact absurd hwo h1
          · rw [hwo, r4]; exact ⟨.refl _ _, fun _ => by simp⟩
      | takeNo =>
        rw [hc] at hst hr
        dsimp only at hst
        obtain ⟨r1, r2, r3, r4⟩ := hr
        injection hst with hst; subst hst
        refine ⟨?_, hi.done⟩
        dsimp only
        rw [hph]
        refine ⟨hpc, r1.attrs, ?_, r2, r3, r1.no, fun al h1 => r4 al ?_⟩
        rotate_left
        · have := r1.no.2 al
          rw [← this]
          injection h1 with h1
          rw [h1]; rfl
        cases hd : cfg.delta with
        | true => exact .refl _ _
        | false => rw [hd] at r1; exact r1.no
      | lock =>
        rw [hc] at hst hr
        dsimp only at hst
        obtain ⟨r1, r2, r3, r4, r5⟩ := hr
        split at hst
        · cases hd : cfg.delta with
          | true =>
            rw [hd, if_pos rfl] at hst
            split at hst
            · injection hst with hst; subst hst
              refine ⟨?_, hi.done⟩
              dsimp only
              rw [hph]
              rw [hd] at r1 r2 r3 r4 r5
              dsimp only
              rw [hd]
              exact ⟨hpc, ⟨.refl _ _, r2⟩, r3, r1, r5⟩
            · cases hst
          | false =>
            rw [hd, if_neg (by simp)] at hst
            injection hst with hst; subst hst
            refine ⟨?_, hi.done⟩
            dsimp only
            rw [hph]
            rw [hd] at r1 r2 r3 r4 r5
            dsimp only
            rw [hd]
            exact ⟨hpc, ⟨r1, r2⟩, r3, r4, r5⟩
        · cases hst
      | walk rest seen =>
        rw [hc] at hst hr
        obtain ⟨r1, r2, r3, r4⟩ := hr
        cases rest with
        | nil =>
          dsimp only at hst
          injection hst with hst; subst hst
          have hbase : ∀ sh r, base cfg.delta (s.runs ++ [(⟨made, sh, r⟩ : Run K V A X)]) = if cfg.delta then [] else base cfg.delta s.runs ++ made := fun sh r => by
            cases cfg.delta <;> simp [base]
          refine ⟨?_, ?_⟩
          · dsimp only
            rw [hbase]
            exact ⟨rfl, hpc, r1, r2⟩
          · intro pre x post hx
            dsimp only at hx
            rcases List.eq_nil_or_concat post with rfl | ⟨post', y, rfl⟩
            · obtain ⟨h1, h2⟩ := List.append_inj' hx rfl
              subst h1
              injection h2 with h2
              subst h2
              simp only [List.getLast?_append, List.getLast?_singleton, Option.some_or, Option.getD_some]
              refine ⟨r3, fun hd al => ?_, r4⟩
              have := r1.attrs.2 al
              rw [hd] at this ⊢
              exact this
            · rw [List.concat_eq_append, ← List.cons_append, ← List.append_assoc] at hx
              obtain ⟨h1, _⟩ := List.append_inj' hx rfl
              exact hi.done pre x post' h1
        | cons e rest =>
          dsimp only at hst
          split at hst <;>
          · injection hst with hst; subst hst
            refine ⟨?_, hi.done⟩
            dsimp only
            rw [hph]
            exact ⟨hpc, r1, r2, r3, r4⟩
    · cases h

theorem applied_step {cfg : Cfg K V A X} {s s' : Conc.State K V A X} {b : Conc.Action K V X} (h : Conc.step cfg s b = some s') : s.applied <+: s'.applied := by
  cases b <;> step_cases h
  all_goals first
    | (cases h; done)
    | (injection h with h; subst h; first | exact List.prefix_refl _ | exact List.prefix_append _ _)

theorem inv_reachable {cfg : Cfg K V A X} {change : List (Attrs K V × A) → List (Attrs K V × A) → List (Attrs K V × A)} {s : State K V A X} (h : Reachable cfg change s)
    {alone : Prop} (hal : alone → Alone s) : Inv cfg alone s := by
  induction h with
  | init =>
    refine ⟨⟨rfl, rfl, ⟨?_, ?_⟩, ?_⟩, fun pre x post h => ?_⟩
    · simp only [State.init, base, List.flatMap_nil, ite_self]; exact .refl _ _
    · simp only [State.init, base, List.flatMap_nil, ite_self]; exact .refl _ _
    · simp only [State.init, base, List.flatMap_nil, ite_self]; exact ⟨fun h => absurd rfl h, fun _ h => by cases h⟩
    · simp [State.init] at h
  | @step s s' hr a hs ih =>
    have hpre : s.st.applied <+: s'.st.applied := by
      rcases step_store hs with ⟨h1, _⟩ | ⟨b, h1, _⟩ | ⟨b, _, _, h1, _⟩
      · rw [h1]
      · exact applied_step h1
      · exact applied_step h1
    exact inv_step (reachable_store hr) (ih fun al e he => hal al e (hpre.subset he)) a hs hal

theorem observed_split (srt : Sorter K V) (m : List (X × Attrs K V)) (no : List (Nat × X)) (a : Attrs K V) (hno : no.map Prod.snd = without m) :
    setValues srt (withA m) no a = observed srt m a := by
  unfold setValues observed
  split
  · rename_i ha
    subst ha
    rw [hno, without]
    congr 1
    apply List.filter_congr
    intro e _
    simp only [canon_nil, canon_eq_nil]
  · rename_i ha
    rw [withA, List.filter_filter]
    congr 1
    apply List.filter_congr
    intro e _
    have : sortAndDedup srt e.2 = sortAndDedup srt a → e.2 ≠ [] := fun h1 h2 => by
      rw [h2, canon_nil] at h1
      exact ha ((canon_eq_nil srt a).1 h1.symm)
    by_cases h : sortAndDedup srt e.2 = sortAndDedup srt a
    · simp [h, this h]
    · simp [h]

theorem has_values {alone : Prop} (srt : Sorter K V) {m : List (X × Attrs K V)} {h : Hist K V X} {no : List (Nat × X)} (h1 : Has alone (withA m) h)
    (h2 : Has alone (without m) (no.map Prod.snd)) (a : Attrs K V) : (observed srt m a).Sublist (setValues srt h no a) ∧ (alone → setValues srt h no a = observed srt m a) := by
  refine ⟨?_, fun al => ?_⟩
  · rw [← observed_split srt m ((without m).map fun x => (0, x)) a (by simp)]
    unfold setValues
    split
    · rw [List.map_map]
      exact (by simpa using h2.1)
    · exact (h1.1.filter _).map _
  · rw [h1.2 al]
    exact observed_split srt m no a (h2.2 al)

/-- **C103** (store, delta). A collection that runs the callbacks tells of each set what they observed for it; nothing else, if no other reader runs callbacks. -/
theorem delta_tells_callbacks {cfg : Cfg K V A X} (hd : cfg.delta = true) {change : List (Attrs K V × A) → List (Attrs K V × A) → List (Attrs K V × A)} {s : State K V A X}
    (h : Reachable cfg change s) : ∀ x ∈ s.runs, ∀ a, (observed cfg.srt x.made a).Sublist (found cfg.srt x.coll a) ∧
      (Alone s → found cfg.srt x.coll a = observed cfg.srt x.made a ∧ x.coll.noVals ≠ some []) := by
  intro x hx a
  obtain ⟨pre, post, hs⟩ := List.append_of_mem hx
  obtain ⟨h1, _, h3, h4⟩ := (inv_reachable h (alone := Alone s) id).done pre x post hs
  simp only [hd, if_true, base, List.nil_append] at h1 h3
  obtain ⟨k1, k2⟩ := has_values cfg.srt h1 h3 a
  exact ⟨k1, fun al => ⟨k2 al, h4 al⟩⟩

/-- **C103** (store, cumulative). What was in the store when the callbacks had returned has everything that this and earlier runs of them observed, in order, and nothing else,
if no other reader runs callbacks. -/
theorem cumulative_tells_callbacks {cfg : Cfg K V A X} (hd : cfg.delta = false) {change : List (Attrs K V × A) → List (Attrs K V × A) → List (Attrs K V × A)} {s : State K V A X}
    (h : Reachable cfg change s) : ∀ pre x post, s.runs = pre ++ x :: post → ∀ a,
      (observed cfg.srt (pre.flatMap (·.made) ++ x.made) a).Sublist (setValues cfg.srt x.coll.startHist (x.coll.noVals.getD []) a) ∧
      (Alone s → setValues cfg.srt x.coll.startHist (x.coll.noVals.getD []) a = observed cfg.srt (pre.flatMap (·.made) ++ x.made) a ∧ x.coll.endHist = x.coll.startHist ∧
        x.coll.noVals ≠ some []) := by
  intro pre x post hs a
  obtain ⟨h1, h2, h3, h4⟩ := (inv_reachable h (alone := Alone s) id).done pre x post hs
  simp only [hd, base] at h1 h2 h3
  obtain ⟨k1, k2⟩ := has_values cfg.srt h1 h3 a
  exact ⟨k1, fun al => ⟨k2 al, (h2 trivial al).trans (h1.2 al).symm, h4 al⟩⟩

/-! ### The keys of the points -/

/-- All keys that the collector has, or will find in the store. -/
structure Keys (P : Attrs K V → Prop) (s : Conc.State K V A X) : Prop where
  map : ∀ e ∈ s.map.trackers, P e.1
  dest : ∀ p ∈ s.dest, P p.1
  walk : ∀ rest seen, s.coll = .walk rest seen → ∀ e ∈ rest, P e.1
  done : ∀ r ∈ s.done, ∀ p ∈ r.points, P p.1

theorem mem_measureWrite {srt : Sorter K V} {agg : Aggregator A X} {limit : Nat} {ov : Attrs K V} {m : ValueMap K V A} {x : X} {a : Attrs K V} {P : Attrs K V → Prop}
    (hm : ∀ e ∈ m.trackers, P e.1) (ha : P a) (hc : P (sortAndDedup srt a)) (ho : P ov) : ∀ e ∈ (m.measureWrite srt agg limit ov x a).trackers, P e.1 := by
  have hins : ∀ (l : List (Attrs K V × Nat)) (b : Attrs K V) (p : Nat), (∀ e ∈ l, P e.1) → P b → ∀ e ∈ insertTracker l b p, P e.1 := by
    intro l b p hl hb e he
    rcases mem_insertTracker he with h | h
    · exact hl e h
    · rw [h]; exact hb
  unfold ValueMap.measureWrite
  split
  · exact hm
  · split
    · exact hm
    · split
      · exact hins _ _ _ (hins _ _ _ hm ha) hc
      · split
        · exact hm
        · exact hins _ _ _ hm ho

/-- The attributes of reported points are such as were measured, in the order given or sorted, or those of the overflow point. -/
theorem keys_reachable {cfg : Cfg K V A X} {s : Conc.State K V A X} (h : Conc.Reachable cfg s) {P : Attrs K V → Prop} (hnil : P []) (hov : P [cfg.overflow])
    (hcanon : ∀ a, P a → P (sortAndDedup cfg.srt a)) (happ : ∀ e ∈ s.applied, P e.2.2) : Keys P s := by
  induction h with
  | init => exact ⟨by simp [Conc.State.init, ValueMap.new], by simp [Conc.State.init], by simp [Conc.State.init], by simp [Conc.State.init]⟩
  | @step s s' _ b hs ih =>
    obtain ⟨k1, k2, k3, k4⟩ := ih fun e he => happ e ((applied_step hs).subset he)
    cases b with
    | call t x a =>
      simp only [Conc.step] at hs
      split at hs
      · injection hs with hs; subst hs; exact ⟨k1, k2, k3, k4⟩
      · cases hs
    | thread t =>
      simp only [Conc.step, threadStep] at hs
      split at hs
      · cases hs
      · injection hs with hs; subst hs; exact ⟨k1, k2, k3, k4⟩
      · injection hs with hs; subst hs; exact ⟨k1, k2, k3, k4⟩
      · split at hs <;> (injection hs with hs; subst hs; exact ⟨k1, k2, k3, k4⟩)
      · injection hs with hs; subst hs; exact ⟨k1, k2, k3, k4⟩
      · rename_i x a _
        split at hs
        · injection hs with hs; subst hs
          have ha : P a := happ (t, x, a) (List.mem_append_right _ (List.mem_singleton_self _))
          exact ⟨mem_measureWrite k1 ha (hcanon a ha) hov, k2, k3, k4⟩
        · cases hs
    | collect =>
      step_cases hs
      · injection hs with hs; subst hs; exact ⟨k1, k2, (by intro _ _ h; cases h), k4⟩
      · cases hs
    | collector it =>
      simp only [Conc.step, collectorStep] at hs
      split at hs
      · cases hs
      · split at hs <;> (injection hs with hs; subst hs; exact ⟨k1, k2, (by intro _ _ h; cases h), k4⟩)
      · injection hs with hs; subst hs
        refine ⟨k1, fun p hp => ?_, (by intro _ _ h; cases h), k4⟩
        rcases List.mem_append.1 hp with hp | hp
        · exact k2 p hp
        · rw [List.mem_singleton] at hp; rw [hp]; exact hnil
      · split at hs
        · rename_i hperm
          have hit : ∀ e ∈ it, P e.1 := fun e he => k1 e ((List.isPerm_iff.1 hperm).subset he)
          split at hs
          · split at hs
            · injection hs with hs; subst hs
              exact ⟨(by intro e he; cases he), k2, (by intro rest seen h; injection h with h1 h2; subst h1; exact hit), k4⟩
            · cases hs
          · injection hs with hs; subst hs
            exact ⟨k1, k2, (by intro rest seen h; injection h with h1 h2; subst h1; exact hit), k4⟩
        · cases hs
      · injection hs with hs; subst hs
        refine ⟨k1, (by intro e he; cases he), (by intro _ _ h; cases h), fun r hr => ?_⟩
        rcases List.mem_append.1 hr with hr | hr
        · exact k4 r hr
        · rw [List.mem_singleton] at hr; rw [hr]; exact k2
      · rename_i e rest seen hcoll
        have hrest := k3 _ _ hcoll
        split at hs
        · injection hs with hs; subst hs
          exact ⟨k1, k2, (by intro r' s' h; injection h with h1 h2; subst h1; exact fun e' he' => hrest e' (List.mem_cons_of_mem _ he')), k4⟩
        · injection hs with hs; subst hs
          refine ⟨k1, fun p hp => ?_, (by intro r' s' h; injection h with h1 h2; subst h1; exact fun e' he' => hrest e' (List.mem_cons_of_mem _ he')), k4⟩
          rcases List.mem_append.1 hp with hp | hp
          · exact k2 p hp
          · rw [List.mem_singleton] at hp; rw [hp]; exact hrest e List.mem_cons_self

end Otel.Metrics.Obs
