import Verif.Prometheus.Model
import Mathlib.Data.List.Induction
/-!
# Building a Prometheus exporter and its registry (`opentelemetry-prometheus/src/config.rs`, `resource_selector.rs`, `lib.rs`), C126

The registry is of the crate `prometheus`, whose source is not in the repository. What is used of it: a registry keeps its collectors by a number, the sum of
the numbers of what they describe, and refuses a collector whose number it has (`Registry::register`, error `AlreadyReg`); a value `Registry` is a handle, and
a registry no handle of which is left cannot be scraped; `Registry::default()` makes a new one, it is not the one of `prometheus::default_registry()`. What a
collector shows when it is scraped is in `Verif.Prometheus.Model`; here it shows which exporter it is of, and with which settings. Collectors are not removed.
-/

namespace Otel.Prom.Builder
open Rust Otel.Prom

/-- The settings of a collector. config.rs:121-132 -/
structure Settings where
  disableTargetInfo : Bool := false
  withoutUnits : Bool := false
  withoutCounterSuffixes : Bool := false
  disableScopeInfo : Bool := false
  ns : Option Str := none
  selector : Selector := .none

/-- `ExporterBuilder`; a registry is named by its number. config.rs:10-19 -/
structure Builder extends Settings where
  registry : Option Nat := none

/-- A call of the builder. -/
inductive Call where
  | withoutUnits
  | withoutCounterSuffixes
  | withoutTargetInfo
  | withoutScopeInfo
  | namespace (ns : Str)
  | registry (r : Nat)
  | selector (s : Selector)

/-- config.rs:42-115 -/
def Builder.call (b : Builder) : Call → Builder
  | .withoutUnits => { b with withoutUnits := true }
  | .withoutCounterSuffixes => { b with withoutCounterSuffixes := true }
  | .withoutTargetInfo => { b with disableTargetInfo := true }
  | .withoutScopeInfo => { b with disableScopeInfo := true }
  | .namespace ns => { b with ns := some (withNamespace ns) }
  | .registry r => { b with registry := some r }
  | .selector s => { b with selector := s }

/-- `exporter()` and the calls. lib.rs:152-154 -/
def made (calls : List Call) : Builder := calls.foldl Builder.call {}

/-- The settings in those of the collector's model. -/
def Settings.cfg (s : Settings) (rest : Cfg) : Cfg :=
  { rest with
    disableTargetInfo := s.disableTargetInfo, withoutUnits := s.withoutUnits, withoutCounterSuffixes := s.withoutCounterSuffixes,
    disableScopeInfo := s.disableScopeInfo, ns := s.ns, selector := s.selector }

/-- A collector: one of the application with the numbers of what it describes, or that of an exporter. -/
inductive Coll where
  | app (descs : List Nat)
  | exporter (number : Nat) (s : Settings)

/-- `desc`: an exporter's collector describes nothing. lib.rs:281-283 -/
def Coll.descs : Coll → List Nat
  | .app ds => ds
  | .exporter _ _ => []

/-- The number the registry gives a collector. -/
def Coll.id (c : Coll) : Nat := c.descs.sum

/-- All registries, those the program has a handle of, and how many exporters were built. -/
structure World where
  regs : List (List Coll)
  handles : List Nat
  built : Nat

/-- At the start there is the default registry. -/
def World.start : World := ⟨[[]], [0], 0⟩

/-- `Registry::register` -/
def register (w : World) (r : Nat) (c : Coll) : Option World :=
  match w.regs[r]? with
  | none => none
  | some cs => if cs.any (fun d => d.id == c.id) then none else some { w with regs := w.regs.set r (cs ++ [c]) }

/-- `ExporterBuilder::build`: the number of the exporter. Without a registry it makes one (`unwrap_or_default`), of which it keeps no handle. config.rs:118-140 -/
def build (w : World) (calls : List Call) : Option Nat × World :=
  let b := made calls
  let (r, w) := match b.registry with
    | some r => (r, w)
    | none => (w.regs.length, { w with regs := w.regs ++ [[]] })
  match register w r (.exporter w.built b.toSettings) with
  | none => (none, w)
  | some w => (some w.built, { w with built := w.built + 1 })

/-- What a program does. A builder can only be given a registry it has. -/
inductive Op where
  | newRegistry
  | register (r : Nat) (descs : List Nat)
  | build (calls : List Call)

def World.step (w : World) : Op → World
  | .newRegistry => { w with regs := w.regs ++ [[]], handles := w.handles ++ [w.regs.length] }
  | .register r ds => (Builder.register w r (.app ds)).getD w
  | .build calls => (Builder.build w calls).2

def World.run (w : World) (ops : List Op) : World := ops.foldl World.step w

/-- The exporters a scrape of this registry shows, with their settings (`gather` of the registry). Of registries without handle nothing can be got. -/
def World.scrape (w : World) (r : Nat) : List (Nat × Settings) :=
  if r ∈ w.handles then (w.regs[r]?.getD []).filterMap fun | .exporter e s => some (e, s) | .app _ => none else []

/-! ## Specification -/

/-- The last argument of some kind of call. -/
def lastArg {X : Type} (f : Call → Option X) (calls : List Call) : Option X := (calls.filterMap f).getLast?

/-- The settings that calls ask for: what is switched off stays off, the last namespace with one underscore at its end, the last selection of the resource,
which is nothing at first. -/
structure Asked (calls : List Call) (s : Settings) : Prop where
  targetInfo : s.disableTargetInfo = true ↔ Call.withoutTargetInfo ∈ calls
  units : s.withoutUnits = true ↔ Call.withoutUnits ∈ calls
  suffixes : s.withoutCounterSuffixes = true ↔ Call.withoutCounterSuffixes ∈ calls
  scopeInfo : s.disableScopeInfo = true ↔ Call.withoutScopeInfo ∈ calls
  ns : s.ns = (lastArg (fun | .namespace ns => some ns | _ => none) calls).map fun ns => if ns.getLast? = some '_' then ns else ns ++ ['_']
  selector : s.selector = (lastArg (fun | .selector s => some s | _ => none) calls).getD .none

/-- The registry that calls ask for. -/
def registryOf (calls : List Call) : Option Nat := lastArg (fun | .registry r => some r | _ => none) calls

/-- The program gives builders only registries it has, and registers collectors only there. -/
def Owns (w : World) : Op → Prop
  | .newRegistry => True
  | .register r _ => r ∈ w.handles
  | .build calls => ∀ r, Call.registry r ∈ calls → r ∈ w.handles

/-- A program. -/
inductive Ran (w : World) : List Op → World → Prop where
  | nil : Ran w [] w
  | snoc {ops : List Op} {w' : World} (op : Op) : Ran w ops w' → Owns w' op → Ran w (ops ++ [op]) (w'.step op)

/-! ## Proofs -/

theorem lastArg_snoc {X : Type} (f : Call → Option X) (calls : List Call) (c : Call) :
    lastArg f (calls ++ [c]) = match f c with | some x => some x | none => lastArg f calls := by
  rw [lastArg, List.filterMap_append]
  cases h : f c with
  | none => simp [h, lastArg]
  | some x => simp [h]

theorem made_snoc (calls : List Call) (c : Call) : made (calls ++ [c]) = (made calls).call c := by rw [made, List.foldl_append]; rfl

theorem made_registry (calls : List Call) : (made calls).registry = registryOf calls := by
  refine List.reverseRecOn calls rfl fun calls c ih => ?_
  rw [made_snoc, registryOf, lastArg_snoc]
  cases c <;> first | exact ih | rfl

/-- **C126, settings.** After any calls the exporter has the settings they ask for. -/
theorem prom_settings (calls : List Call) : Asked calls (made calls).toSettings := by
  refine List.reverseRecOn calls ?_ fun calls c ih => ?_
  · exact ⟨by simp [made], by simp [made], by simp [made], by simp [made], rfl, rfl⟩
  · obtain ⟨h1, h2, h3, h4, h5, h6⟩ := ih
    rw [made_snoc]
    refine ⟨?_, ?_, ?_, ?_, ?_, ?_⟩
    · rw [List.mem_append, List.mem_singleton]
      cases c <;> first | (refine h1.trans ⟨.inl, fun h => h.resolve_right (by simp)⟩) | exact ⟨fun _ => .inr rfl, fun _ => rfl⟩
    · rw [List.mem_append, List.mem_singleton]
      cases c <;> first | (refine h2.trans ⟨.inl, fun h => h.resolve_right (by simp)⟩) | exact ⟨fun _ => .inr rfl, fun _ => rfl⟩
    · rw [List.mem_append, List.mem_singleton]
      cases c <;> first | (refine h3.trans ⟨.inl, fun h => h.resolve_right (by simp)⟩) | exact ⟨fun _ => .inr rfl, fun _ => rfl⟩
    · rw [List.mem_append, List.mem_singleton]
      cases c <;> first | (refine h4.trans ⟨.inl, fun h => h.resolve_right (by simp)⟩) | exact ⟨fun _ => .inr rfl, fun _ => rfl⟩
    · rw [lastArg_snoc]; cases c <;> first | exact h5 | rfl
    · rw [lastArg_snoc]; cases c <;> first | exact h6 | rfl

/-- Exporters are numbered below `built`, each is in one registry at most, once; the registries of the handles exist. -/
structure Inv (w : World) : Prop where
  handles : ∀ r ∈ w.handles, r < w.regs.length
  below : ∀ cs ∈ w.regs, ∀ e s, Coll.exporter e s ∈ cs → e < w.built

theorem register_some {w w' : World} {r : Nat} {c : Coll} (h : register w r c = some w') :
    ∃ cs, w.regs[r]? = some cs ∧ (∀ d ∈ cs, d.id ≠ c.id) ∧ w' = { w with regs := w.regs.set r (cs ++ [c]) } := by
  rw [register] at h
  split at h
  · cases h
  · rename_i cs hcs
    split at h
    · cases h
    · rename_i hany
      cases h
      refine ⟨cs, hcs, fun d hd he => hany ?_, rfl⟩
      exact List.any_eq_true.2 ⟨d, hd, by simpa using he⟩

/-- The registry of the exporter that `build` makes in the world. -/
def target (w : World) (calls : List Call) : Nat × World :=
  match registryOf calls with
  | some r => (r, w)
  | none => (w.regs.length, { w with regs := w.regs ++ [[]] })

theorem build_eq (w : World) (calls : List Call) : build w calls =
    match register (target w calls).2 (target w calls).1 (.exporter w.built (made calls).toSettings) with
    | none => (none, (target w calls).2)
    | some w' => (some w'.built, { w' with built := w'.built + 1 }) := by
  rw [build, target, ← made_registry]
  cases (made calls).registry <;> rfl

theorem mem_set {X : Type} {l : List X} {i : Nat} {x y : X} (h : y ∈ l.set i x) : y ∈ l ∨ y = x := (List.mem_or_eq_of_mem_set h)

theorem inv_target {w : World} (h : Inv w) (calls : List Call) : Inv (target w calls).2 := by
  rw [target]
  cases registryOf calls with
  | some r => exact h
  | none =>
    refine ⟨fun r hr => ?_, fun cs hcs e s he => ?_⟩
    · have := h.handles r hr
      simp only [List.length_append, List.length_singleton]; omega
    · rcases List.mem_append.1 hcs with hc | hc
      · exact h.below cs hc e s he
      · rw [List.mem_singleton.1 hc] at he; exact (List.not_mem_nil he).elim

theorem target_built (w : World) (calls : List Call) : (target w calls).2.built = w.built ∧ (target w calls).2.handles = w.handles := by
  rw [target]; cases registryOf calls <;> exact ⟨rfl, rfl⟩

theorem inv_step {w : World} (h : Inv w) (op : Op) : Inv (w.step op) := by
  cases op with
  | newRegistry =>
    refine ⟨fun r hr => ?_, fun cs hcs e s he => ?_⟩
    · simp only [World.step, List.length_append, List.length_singleton] at hr ⊢
      rcases List.mem_append.1 hr with hr | hr
      · have := h.handles r hr; omega
      · rw [List.mem_singleton.1 hr]; omega
    · rcases List.mem_append.1 hcs with hc | hc
      · exact h.below cs hc e s he
      · rw [List.mem_singleton.1 hc] at he; exact (List.not_mem_nil he).elim
  | register r ds =>
    rw [World.step]
    cases hr : Builder.register w r (.app ds) with
    | none => exact h
    | some w' =>
      obtain ⟨cs, hcs, -, rfl⟩ := register_some hr
      refine ⟨fun r hr => by simpa using h.handles r hr, fun cs' hcs' e s he => ?_⟩
      rcases mem_set hcs' with hc | rfl
      · exact h.below cs' hc e s he
      · rcases List.mem_append.1 he with he | he
        · exact h.below cs (List.mem_of_getElem? hcs) e s he
        · cases List.mem_singleton.1 he
  | build calls =>
    rw [World.step, build_eq]
    have ht := inv_target h calls
    cases hr : Builder.register (target w calls).2 (target w calls).1 (.exporter w.built (made calls).toSettings) with
    | none => exact ht
    | some w' =>
      obtain ⟨cs, hcs, -, rfl⟩ := register_some hr
      have hb := (target_built w calls).1
      refine ⟨fun r hr => by simpa using ht.handles r hr, fun cs' hcs' e s he => ?_⟩
      show e < (target w calls).2.built + 1
      rcases mem_set hcs' with hc | rfl
      · have := ht.below cs' hc e s he; omega
      · rcases List.mem_append.1 he with he | he
        · have := ht.below cs (List.mem_of_getElem? hcs) e s he; omega
        · cases List.mem_singleton.1 he; omega

theorem inv_start : Inv World.start := by
  refine ⟨fun r hr => ?_, fun cs hcs e s he => ?_⟩
  · rw [World.start] at hr; simp at hr; rw [hr]; decide
  · rw [World.start] at hcs; simp at hcs; rw [hcs] at he; exact (List.not_mem_nil he).elim

theorem inv_ran {w w' : World} (h : Inv w) {ops : List Op} (hr : Ran w ops w') : Inv w' := by
  induction hr with
  | nil => exact h
  | snoc op _ _ ih => exact inv_step ih op

/-- The entry of one exporter in a registry. -/
def entries (w : World) (r e : Nat) : List (Nat × Settings) :=
  ((w.regs[r]?.getD []).filterMap fun | .exporter e s => some (e, s) | .app _ => none).filter fun x => x.1 == e

theorem entries_le {w : World} {e : Nat} (h : ∀ cs ∈ w.regs, ∀ s, Coll.exporter e s ∉ cs) (r : Nat) : entries w r e = [] := by
  rw [entries, List.filter_eq_nil_iff]
  intro x hx he
  obtain ⟨c, hc, hcx⟩ := List.mem_filterMap.1 hx
  cases hr : w.regs[r]? with
  | none => rw [hr] at hc; exact List.not_mem_nil hc
  | some cs =>
    rw [hr] at hc
    cases c with
    | app ds => cases hcx
    | exporter e' s => cases hcx; exact h cs (List.mem_of_getElem? hr) s ((beq_iff_eq.1 he) ▸ hc)

theorem entries_push {w : World} {r : Nat} {cs : List Coll} (hcs : w.regs[r]? = some cs) (c : Coll) (r' e : Nat)
    (hc : ∀ s, c ≠ .exporter e s) : entries { w with regs := w.regs.set r (cs ++ [c]) } r' e = entries w r' e := by
  have hlt : r < w.regs.length := by
    rcases Nat.lt_or_ge r w.regs.length with h | h
    · exact h
    · rw [List.getElem?_eq_none_iff.2 h] at hcs; cases hcs
  rw [entries, entries]
  by_cases hrr : r = r'
  · subst hrr
    rw [List.getElem?_set_self hlt, hcs, Option.getD_some, Option.getD_some, List.filterMap_append, List.filter_append]
    have : (([c].filterMap fun | .exporter e s => some (e, s) | .app _ => none).filter fun x => x.1 == e) = [] := by
      cases c with
      | app ds => rfl
      | exporter e' s =>
        have : e' ≠ e := fun h => hc s (h ▸ rfl)
        simp [this]
    rw [this, List.append_nil]
  · rw [List.getElem?_set_ne hrr]

theorem entries_new (w : World) (r e : Nat) : entries { w with regs := w.regs ++ [[]] } r e = entries w r e := by
  rw [entries, entries]
  rcases Nat.lt_trichotomy r w.regs.length with h | h | h
  · rw [List.getElem?_append_left h]
  · subst h
    rw [List.getElem?_append_right (Nat.le_refl _), List.getElem?_eq_none_iff.2 (Nat.le_refl w.regs.length)]; simp
  · rw [List.getElem?_eq_none_iff.2 (by simp; omega), List.getElem?_eq_none_iff.2 (by omega)]

/-- No step changes the entries of an exporter that was built. -/
theorem entries_step {w : World} {e : Nat} (he : e < w.built) (op : Op) (r : Nat) : entries (w.step op) r e = entries w r e := by
  cases op with
  | newRegistry => exact entries_new w r e
  | register r' ds =>
    rw [World.step]
    cases hr : Builder.register w r' (.app ds) with
    | none => rfl
    | some w' =>
      obtain ⟨cs, hcs, -, rfl⟩ := register_some hr
      exact entries_push hcs _ r e (fun s h => by cases h)
  | build calls =>
    have ht : entries (target w calls).2 r e = entries w r e := by
      rw [target]; cases registryOf calls with
      | some _ => rfl
      | none => exact entries_new w r e
    rw [World.step, build_eq]
    cases hr : Builder.register (target w calls).2 (target w calls).1 (.exporter w.built (made calls).toSettings) with
    | none => exact ht
    | some w' =>
      obtain ⟨cs, hcs, -, rfl⟩ := register_some hr
      refine Eq.trans ?_ ht
      exact entries_push hcs _ r e (fun s h => by cases h; omega)

theorem built_mono {w : World} (op : Op) : w.built ≤ (w.step op).built := by
  cases op with
  | newRegistry => exact Nat.le_refl _
  | register r ds =>
    rw [World.step]
    cases hr : Builder.register w r (.app ds) with
    | none => exact Nat.le_refl _
    | some w' => obtain ⟨cs, hcs, -, rfl⟩ := register_some hr; exact Nat.le_refl _
  | build calls =>
    rw [World.step, build_eq]
    have hb := (target_built w calls).1
    cases hr : Builder.register (target w calls).2 (target w calls).1 (.exporter w.built (made calls).toSettings) with
    | none => show w.built ≤ (target w calls).2.built; omega
    | some w' => obtain ⟨cs, hcs, -, rfl⟩ := register_some hr; show w.built ≤ (target w calls).2.built + 1; omega

theorem handles_step (w : World) (op : Op) : (w.step op).handles = w.handles ∨ (w.step op).handles = w.handles ++ [w.regs.length] := by
  cases op with
  | newRegistry => exact .inr rfl
  | register r ds =>
    rw [World.step]
    cases hr : Builder.register w r (.app ds) with
    | none => exact .inl rfl
    | some w' => obtain ⟨cs, hcs, -, rfl⟩ := register_some hr; exact .inl rfl
  | build calls =>
    rw [World.step, build_eq]
    have hb := (target_built w calls).2
    cases hr : Builder.register (target w calls).2 (target w calls).1 (.exporter w.built (made calls).toSettings) with
    | none => exact .inl hb
    | some w' => obtain ⟨cs, hcs, -, rfl⟩ := register_some hr; exact .inl hb

theorem later {w w' : World} {ops : List Op} (hr : Ran w ops w') {e : Nat} (he : e < w.built) : e < w'.built ∧ ∀ r, entries w' r e = entries w r e := by
  induction hr with
  | nil => exact ⟨he, fun _ => rfl⟩
  | snoc op _ _ ih => exact ⟨Nat.lt_of_lt_of_le ih.1 (built_mono op), fun r => (entries_step ih.1 op r).trans (ih.2 r)⟩

theorem handles_later {w w' : World} {ops : List Op} (hr : Ran w ops w') {r : Nat} (h : r ∈ w.handles) : r ∈ w'.handles := by
  induction hr with
  | nil => exact h
  | snoc op _ _ ih =>
    rcases handles_step _ op with h | h
    · rw [h]; exact ih
    · rw [h]; exact List.mem_append_left _ ih

/-- The length of the registries only grows, and new handles are of new registries. -/
theorem handles_new {w w' : World} {ops : List Op} (hr : Ran w ops w') :
    w.regs.length ≤ w'.regs.length ∧ ∀ r ∈ w'.handles, r ∈ w.handles ∨ w.regs.length ≤ r := by
  have len : ∀ (w : World) (op : Op), w.regs.length ≤ (w.step op).regs.length := by
    intro w op
    cases op with
    | newRegistry => simp [World.step]
    | register r ds =>
      rw [World.step]
      cases hr : Builder.register w r (.app ds) with
      | none => exact Nat.le_refl _
      | some w' => obtain ⟨cs, hcs, -, rfl⟩ := register_some hr; simp
    | build calls =>
      have ht : w.regs.length ≤ (target w calls).2.regs.length := by rw [target]; cases registryOf calls <;> simp
      rw [World.step, build_eq]
      cases hr : Builder.register (target w calls).2 (target w calls).1 (.exporter w.built (made calls).toSettings) with
      | none => exact ht
      | some w' => obtain ⟨cs, hcs, -, rfl⟩ := register_some hr; simpa using ht
  induction hr with
  | nil => exact ⟨Nat.le_refl _, fun r h => .inl h⟩
  | snoc op _ _ ih =>
    refine ⟨Nat.le_trans ih.1 (len _ op), fun r h => ?_⟩
    rcases handles_step _ op with hs | hs
    · exact ih.2 r (hs ▸ h)
    · rw [hs] at h
      rcases List.mem_append.1 h with h | h
      · exact ih.2 r h
      · rw [List.mem_singleton.1 h]; exact .inr ih.1

theorem scrape_entries {w : World} {r : Nat} (h : r ∈ w.handles) (e : Nat) : (w.scrape r).filter (fun x => x.1 == e) = entries w r e := by
  rw [World.scrape, if_pos h, entries]

/-- What a `build` that succeeds does. -/
theorem build_some {w w' : World} {calls : List Call} {e : Nat} (hi : Inv w) (h : build w calls = (some e, w')) :
    e = w.built ∧ w'.built = w.built + 1 ∧ w'.handles = w.handles ∧ ∀ r,
      entries w' r e = if r = (target w calls).1 then [(e, (made calls).toSettings)] else [] := by
  rw [build_eq] at h
  have hb := target_built w calls
  cases hr : register (target w calls).2 (target w calls).1 (.exporter w.built (made calls).toSettings) with
  | none => rw [hr] at h; cases (Prod.mk.inj h).1
  | some w1 =>
    rw [hr] at h
    obtain ⟨h1, h2⟩ := Prod.mk.inj h
    obtain ⟨cs, hcs, -, rfl⟩ := register_some hr
    have he : e = w.built := (Option.some.inj h1).symm.trans hb.1
    subst he
    refine ⟨rfl, ?_, ?_, fun r => ?_⟩
    · rw [← h2]; show (target w calls).2.built + 1 = _; rw [hb.1]
    · rw [← h2]; exact hb.2
    · rw [← h2]
      have ht := inv_target hi calls
      have hno : ∀ cs ∈ (target w calls).2.regs, ∀ s, Coll.exporter w.built s ∉ cs := fun cs hcs s hm => by
        have := ht.below cs hcs _ s hm
        omega
      have hlt : (target w calls).1 < (target w calls).2.regs.length := by
        rcases Nat.lt_or_ge (target w calls).1 (target w calls).2.regs.length with h | h
        · exact h
        · rw [List.getElem?_eq_none_iff.2 h] at hcs; cases hcs
      have hold := entries_le hno r
      rw [entries] at hold ⊢
      simp only []
      by_cases hrr : (target w calls).1 = r
      · subst hrr
        rw [hcs, Option.getD_some] at hold
        rw [List.getElem?_set_self hlt, Option.getD_some, List.filterMap_append, List.filter_append, hold, if_pos rfl]
        simp
      · rw [List.getElem?_set_ne hrr, if_neg (Ne.symm hrr)]
        exact hold

/-- **C126, an exporter shows in its registry.** In every program, if `build` succeeds with a registry of the program, then from then on, whatever the program
does, a scrape of this registry shows the exporter exactly once, with the settings its builder calls ask for, and no scrape of another registry shows it. -/
theorem prom_shown_partial (before after : List Op) (w w1 w2 : World) (h0 : Ran World.start before w) (calls : List Call)
    (r e : Nat) (hreg : registryOf calls = some r) (hown : r ∈ w.handles) (hb : build w calls = (some e, w1)) (h2 : Ran w1 after w2) :
    ∃ s, Asked calls s ∧ (w2.scrape r).filter (fun x => x.1 == e) = [(e, s)] ∧ ∀ r', r' ≠ r → (w2.scrape r').filter (fun x => x.1 == e) = [] := by
  obtain ⟨he, hb1, hh, hent⟩ := build_some (inv_ran inv_start h0) hb
  have ht : (target w calls).1 = r := by rw [target, hreg]
  have hl := later h2 (e := e) (by omega)
  refine ⟨(made calls).toSettings, prom_settings calls, ?_, fun r' hr' => ?_⟩
  · rw [scrape_entries (handles_later h2 (hh ▸ hown)), hl.2, hent, ht, if_pos rfl]
  · by_cases hm : r' ∈ w2.handles
    · rw [scrape_entries hm, hl.2, hent, ht, if_neg hr']
    · rw [World.scrape, if_neg hm]; rfl

/-- **C126, when a build succeeds.** With a registry of the program: if and only if this registry has no exporter yet, nor a collector of the application whose
numbers sum up to zero. -/
theorem prom_build_iff (w : World) (ops : List Op) (h0 : Ran World.start ops w) (calls : List Call) (r : Nat) (hreg : registryOf calls = some r)
    (hown : r ∈ w.handles) :
    (∃ e, (build w calls).1 = some e) ↔ w.scrape r = [] ∧ ∀ ds, Coll.app ds ∈ w.regs[r]?.getD [] → ds.sum ≠ 0 := by
  have hlt := (inv_ran inv_start h0).handles r hown
  have hcs : w.regs[r]? = some w.regs[r] := List.getElem?_eq_getElem hlt
  have ht : target w calls = (r, w) := by rw [target, hreg]
  have hkey : (∃ e, (build w calls).1 = some e) ↔ w.regs[r].any (fun d => d.id == 0) = false := by
    rw [build_eq, ht, register, hcs]
    show (∃ e, (match (if w.regs[r].any (fun d => d.id == (Coll.exporter w.built (made calls).toSettings).id) then none else _ : Option World) with
      | none => _ | some w' => _ : Option Nat × World).1 = some e) ↔ _
    have : (Coll.exporter w.built (made calls).toSettings).id = 0 := rfl
    rw [this]
    cases w.regs[r].any (fun d => d.id == 0) <;> simp
  rw [hkey, World.scrape, if_pos hown, hcs, Option.getD_some, List.any_eq_false]
  constructor
  · intro h
    refine ⟨?_, fun ds hds hz => ?_⟩
    · rw [List.filterMap_eq_nil_iff]
      intro c hc
      cases c with
      | app ds => rfl
      | exporter e s => exact absurd rfl (h _ hc)
    · have := h _ hds
      simp [Coll.id, Coll.descs, hz] at this
  · rintro ⟨h1, h2⟩ c hc
    cases c with
    | app ds => simpa [Coll.id, Coll.descs] using h2 ds hc
    | exporter e s =>
      have := List.filterMap_eq_nil_iff.1 h1 _ hc
      cases this

/-- **C126 fails for a second exporter.** Two exporters, of two meter providers for instance, cannot be in one registry: for all their settings the second
`build` is an error. -/
theorem second_exporter_violated (w : World) (ops : List Op) (h0 : Ran World.start ops w) (calls : List Call) (r : Nat) (hreg : registryOf calls = some r)
    (hown : r ∈ w.handles) (h : w.scrape r ≠ []) : (build w calls).1 = none := by
  cases hb : (build w calls).1 with
  | none => rfl
  | some e => exact absurd ((prom_build_iff w ops h0 calls r hreg hown).1 ⟨e, hb⟩).1 h

/-- **C126 fails without a registry.** The documentation says that the default of `prometheus` is then used. `build` succeeds, but whatever the program does
afterwards, no scrape of any registry it has, the default one included, shows this exporter. -/
theorem default_registry_violated (before after : List Op) (w w2 : World) (h0 : Ran World.start before w) (calls : List Call) (hreg : registryOf calls = none)
    (h2 : Ran (build w calls).2 after w2) :
    (build w calls).1 = some w.built ∧ ∀ r, (w2.scrape r).filter (fun x => x.1 == w.built) = [] := by
  have hok : ∃ w1, build w calls = (some w.built, w1) := by
    rw [build_eq, target, hreg, register]
    simp only []
    rw [List.getElem?_append_right (Nat.le_refl _), Nat.sub_self]
    exact ⟨_, rfl⟩
  obtain ⟨w1, hb⟩ := hok
  have hi := inv_ran inv_start h0
  obtain ⟨-, hb1, hh, hent⟩ := build_some hi hb
  rw [hb] at h2 ⊢
  refine ⟨rfl, fun r => ?_⟩
  by_cases hm : r ∈ w2.handles
  · have hl := later h2 (e := w.built) (by show w.built < w1.built; omega)
    rw [scrape_entries hm, hl.2, hent, if_neg]
    have ht : (target w calls).1 = w.regs.length := by rw [target, hreg]
    rw [ht]
    rintro rfl
    have hlen : w1.regs.length = w.regs.length + 1 := by
      have := congrArg (fun x => x.2.regs.length) hb
      simp only [] at this
      rw [← this, build_eq, target, hreg, register]
      simp only []
      rw [List.getElem?_append_right (Nat.le_refl _), Nat.sub_self]
      simp
    rcases (handles_new h2).2 _ hm with h | h
    · rw [hh] at h
      have := hi.handles _ h
      omega
    · simp only [] at h; omega
  · rw [World.scrape, if_neg hm]; rfl

/-- **C126, the calls in what is scraped.** For every metric the name shown begins with the last namespace, ends with the unit unless `without_units` was
called, and then for a counter with `_total` unless `without_counter_suffixes` was; `target_info` is there unless it was switched off or the resource is
empty; the labels of the scope are there unless `without_scope_info` was called. -/
theorem prom_scraped {N : Type} (calls : List Call) (rest : Cfg) (m : Metric N) (one : N) (resource : List (Str × Str)) :
    (∀ ty name, typeAndName ((made calls).toSettings.cfg rest) m = some (ty, name) → ∃ unit total : Str,
      name = (match lastArg (fun | .namespace ns => some ns | _ => none) calls with
        | none => [] | some ns => if ns.getLast? = some '_' then ns else ns ++ ['_']) ++ sanitizeName rest.alnum m.name ++ unit ++ total ∧
      (Call.withoutUnits ∈ calls → unit = []) ∧
      (Call.withoutUnits ∉ calls → unit = match unitSuffix m.unit with | none => [] | some u => '_' :: u) ∧
      (ty ≠ .counter ∨ Call.withoutCounterSuffixes ∈ calls → total = []) ∧
      (ty = .counter → Call.withoutCounterSuffixes ∉ calls → total = ['_', 't', 'o', 't', 'a', 'l'])) ∧
    (targetInfo ((made calls).toSettings.cfg rest) one resource ≠ [] ↔ Call.withoutTargetInfo ∉ calls ∧ resource ≠ []) ∧
    ∀ (rl : List Label) (s : ScopeMetrics N), scopeLabels ((made calls).toSettings.cfg rest) rl s ≠ [] ↔ Call.withoutScopeInfo ∉ calls := by
  obtain ⟨h1, h2, h3, h4, h5, -⟩ := prom_settings calls
  generalize (made calls).toSettings = st at *
  refine ⟨fun ty name h => ?_, ?_, fun rl s => ?_⟩
  · have hname : ∀ u : Str, u = (if st.withoutUnits then [] else match unitSuffix m.unit with | none => [] | some u => '_' :: u) →
        getName (st.cfg rest) m = (match lastArg (fun | .namespace ns => some ns | _ => none) calls with
          | none => [] | some ns => if ns.getLast? = some '_' then ns else ns ++ ['_']) ++ sanitizeName rest.alnum m.name ++ u := by
      rintro u rfl
      rw [getName, Settings.cfg]
      simp only [h5]
      generalize lastArg (fun | .namespace ns => some ns | _ => none) calls = ns
      cases ns <;> cases st.withoutUnits <;> cases unitSuffix m.unit <;> simp
    have hu : ∀ u : Str, u = (if st.withoutUnits then [] else match unitSuffix m.unit with | none => [] | some u => '_' :: u) →
        (Call.withoutUnits ∈ calls → u = []) ∧ (Call.withoutUnits ∉ calls → u = match unitSuffix m.unit with | none => [] | some u => '_' :: u) := by
      rintro u rfl
      refine ⟨fun h => by rw [if_pos (h2.2 h)], fun h => by rw [if_neg (fun hc => h (h2.1 hc))]⟩
    have hc : (st.cfg rest).withoutCounterSuffixes = st.withoutCounterSuffixes := rfl
    rw [typeAndName] at h
    split at h
    · obtain ⟨rfl, rfl⟩ := Prod.mk.inj (Option.some.inj h)
      exact ⟨_, [], by rw [hname _ rfl, List.append_nil], (hu _ rfl).1, (hu _ rfl).2, fun _ => rfl, fun h => by cases h⟩
    · obtain ⟨rfl, rfl⟩ := Prod.mk.inj (Option.some.inj h)
      exact ⟨_, [], by rw [hname _ rfl, List.append_nil], (hu _ rfl).1, (hu _ rfl).2, fun _ => rfl, fun h => by cases h⟩
    · rw [hc] at h
      cases hs : st.withoutCounterSuffixes with
      | true =>
        rw [hs, if_pos rfl] at h
        obtain ⟨rfl, rfl⟩ := Prod.mk.inj (Option.some.inj h)
        exact ⟨_, [], by rw [hname _ rfl, List.append_nil], (hu _ rfl).1, (hu _ rfl).2, fun _ => rfl, fun _ h => absurd (h3.1 hs) h⟩
      | false =>
        rw [hs, if_neg (by decide)] at h
        obtain ⟨rfl, rfl⟩ := Prod.mk.inj (Option.some.inj h)
        refine ⟨_, "_total".toList, by rw [hname _ rfl], (hu _ rfl).1, (hu _ rfl).2, fun h => ?_, fun _ _ => by decide⟩
        rcases h with h | h
        · exact absurd rfl h
        · rw [h3.2 h] at hs; cases hs
    · obtain ⟨rfl, rfl⟩ := Prod.mk.inj (Option.some.inj h)
      exact ⟨_, [], by rw [hname _ rfl, List.append_nil], (hu _ rfl).1, (hu _ rfl).2, fun _ => rfl, fun h => by cases h⟩
    · cases h
  · have : (st.cfg rest).disableTargetInfo = st.disableTargetInfo := rfl
    rw [targetInfo, this, ← h1]
    cases st.disableTargetInfo <;> cases resource <;> simp
  · have : (st.cfg rest).disableScopeInfo = st.disableScopeInfo := rfl
    rw [scopeLabels, this, ← h4]
    cases st.disableScopeInfo <;> simp [scopeNameLabels]

/-! ## Examples -/

/-- The hypotheses are met: a registry is made, an exporter built for it with a namespace, then another cannot be. -/
example : ∃ w w1, Ran World.start [.newRegistry] w ∧ 1 ∈ w.handles ∧ build w [.namespace "app".toList, .withoutUnits, .registry 1] = (some 0, w1) ∧
    w1.scrape 1 ≠ [] ∧ (build w1 [.registry 1]).1 = none ∧ (build w1 [.registry 0]).1 = some 1 := by
  refine ⟨World.start.step .newRegistry, _, Ran.snoc (ops := []) _ .nil trivial, by decide, rfl, ?_, rfl, rfl⟩
  intro h; cases h

end Otel.Prom.Builder
