import Verif.Stdout.Lines
/-!
# The stdout exporters as concurrent programs (`opentelemetry-stdout/src`), C94

Exports may run at the same time (a processor may share its exporter between threads); each of them is a process that loads the flag of `shutdown`, prints its head
line, decides with a compare-and-exchange whether it prints the resource, and prints the rest. A `println!` is atomic (it locks standard output), an export is not. Output
is what was printed, each line with the export it comes from. Printing does not fail (a `println!` to a closed pipe panics; not modelled).
-/

namespace Otel.Stdout

variable {B : Type}

/-- What an exporter prints: its head line, the resource (of the exporter, or of the batch for metrics), the batch, and whether the resource is printed only once (spans and logs) or each time (metrics).
trace/exporter.rs:37-58, logs/exporter.rs:38-58, metrics/exporter.rs:49-60 -/
structure Kind (B : Type) where
  head : String
  resource : B → List String
  body : B → List String
  once : Bool

/-- The points of `export` at which other threads can come in between. -/
inductive Pc (B : Type) where
  | unused
  | load (b : B)
  | head (b : B)
  | cas (b : B)
  | print (b : B) (rest : List String)
  | ok (b : B)
  | alreadyShutdown (b : B)

/-- The exporter with all exports so far; `winner` and `shutAt` are not in the code: the export whose compare-and-exchange succeeded, and the number of exports that had
begun at the first `shutdown`. -/
structure State (B : Type) where
  isShutdown : Bool
  emitted : Bool
  out : List (Nat × String)
  pcs : Nat → Pc B
  begun : Nat
  winner : Option Nat
  shutAt : Option Nat

/-- A new exporter. trace/exporter.rs:22-30, logs/exporter.rs:16-24 -/
def State.init : State B := ⟨false, false, [], fun _ => .unused, 0, none, none⟩

/-- What can happen: an export begins, an export makes a step, the exporter is shut down. -/
inductive Action (B : Type) where
  | begin (b : B)
  | step (id : Nat)
  | shutdown

/-- Moves export `id` on. -/
def State.goto (s : State B) (id : Nat) (pc : Pc B) : State B := { s with pcs := fun i => if i = id then pc else s.pcs i }

/-- Prints a line. -/
def State.print (s : State B) (id : Nat) (l : String) : State B := { s with out := s.out ++ [(id, l)] }

/-- One step of an export. trace/exporter.rs:34-60, logs/exporter.rs:34-58, metrics/exporter.rs:45-61 -/
def stepExport (k : Kind B) (s : State B) (id : Nat) : Option (State B) :=
  match s.pcs id with
  | .unused => none
  | .load b => if s.isShutdown then some (s.goto id (.alreadyShutdown b)) else some (s.goto id (.head b))
  | .head b => some ((s.print id k.head).goto id (.cas b))
  | .cas b =>
    if k.once then
      if s.emitted then some (s.goto id (.print b (k.body b)))
      else some ({ s with emitted := true, winner := some id }.goto id (.print b (k.resource b ++ k.body b)))
    else some (s.goto id (.print b (k.resource b ++ k.body b)))
  | .print b [] => some (s.goto id (.ok b))
  | .print b (l :: rest) => some ((s.print id l).goto id (.print b rest))
  | .ok _ => none
  | .alreadyShutdown _ => none

/-- All steps; `shutdown`: trace/exporter.rs:62-65, logs/exporter.rs:60-63, metrics/exporter.rs:68-75 -/
def step (k : Kind B) (s : State B) : Action B → Option (State B)
  | .begin b => some { s.goto s.begun (.load b) with begun := s.begun + 1 }
  | .step id => stepExport k s id
  | .shutdown => some { s with isShutdown := true, shutAt := s.shutAt.or (some s.begun) }

/-- The states an exporter can be in. -/
inductive Reachable (k : Kind B) : State B → Prop
  | init : Reachable k State.init
  | step {s s' a} : Reachable k s → step k s a = some s' → Reachable k s'

/-- Runs actions. -/
def runAll (k : Kind B) : State B → List (Action B) → Option (State B)
  | s, [] => some s
  | s, a :: as =>
    match step k s a with
    | some s' => runAll k s' as
    | none => none

/-! ## Specification -/

/-- The lines an export printed, in order. -/
def outOf (s : State B) (id : Nat) : List String := (s.out.filter fun p => p.1 == id).map Prod.snd

/-- What an export prints when it prints the resource or not. -/
def expected (k : Kind B) (resource : Bool) (b : B) : List String := k.head :: ((if resource then k.resource b else []) ++ k.body b)

/-- The text on the terminal. -/
def terminal (s : State B) : List String := s.out.map Prod.snd

/-! ## The invariant -/

/-- Whether the resource belongs to the lines of an export. -/
def printsResource (k : Kind B) (s : State B) (id : Nat) : Bool := !k.once || decide (s.winner = some id)

/-- The export began before any `shutdown`. -/
def early (s : State B) (id : Nat) : Prop := ∀ n, s.shutAt = some n → id < n

/-- What holds of one export. -/
def PcOk (k : Kind B) (s : State B) (id : Nat) : Pc B → Prop
  | .unused => s.begun ≤ id ∧ outOf s id = [] ∧ s.winner ≠ some id
  | .load _ => id < s.begun ∧ outOf s id = [] ∧ s.winner ≠ some id
  | .head _ => id < s.begun ∧ outOf s id = [] ∧ s.winner ≠ some id ∧ early s id
  | .cas _ => id < s.begun ∧ outOf s id = [k.head] ∧ s.winner ≠ some id ∧ early s id
  | .print b rest => id < s.begun ∧ outOf s id ++ rest = expected k (printsResource k s id) b ∧ early s id ∧ (k.once = true → s.emitted = true)
  | .ok b => id < s.begun ∧ outOf s id = expected k (printsResource k s id) b ∧ early s id ∧ (k.once = true → s.emitted = true)
  | .alreadyShutdown _ => id < s.begun ∧ outOf s id = [] ∧ s.winner ≠ some id ∧ s.isShutdown = true

/-- The invariant. -/
structure Inv (k : Kind B) (s : State B) : Prop where
  pcs : ∀ id, PcOk k s id (s.pcs id)
  emitted : s.emitted = true ↔ s.winner ≠ none
  shut : s.isShutdown = true ↔ s.shutAt ≠ none
  bound : ∀ n, s.shutAt = some n → n ≤ s.begun

theorem outOf_print (s : State B) (id i : Nat) (l : String) : outOf (s.print id l) i = outOf s i ++ (if i = id then [l] else []) := by
  by_cases h : i = id
  · subst h; simp [outOf, State.print, List.filter_append]
  · have : (id == i) = false := by simp [Ne.symm h]
    simp [outOf, State.print, List.filter_append, h, this]

/-- Nothing else changes for another export. -/
theorem pcOk_same {k : Kind B} {s s' : State B} {id : Nat} {pc : Pc B} (h : PcOk k s id pc) (h1 : outOf s' id = outOf s id) (h2 : s'.begun = s.begun)
    (h3 : s'.winner = some id ↔ s.winner = some id) (h4 : s'.shutAt = s.shutAt) (h5 : s.emitted = true → s'.emitted = true)
    (h6 : s.isShutdown = true → s'.isShutdown = true) : PcOk k s' id pc := by
  have hp : printsResource k s' id = printsResource k s id := by simp only [printsResource, h3]
  cases pc <;> simp only [PcOk, early, h1, h2, h4, hp, ne_eq, h3] at h ⊢
  · exact h
  · exact h
  · exact h
  · exact h
  · exact ⟨h.1, h.2.1, h.2.2.1, fun hk => h5 (h.2.2.2 hk)⟩
  · exact ⟨h.1, h.2.1, h.2.2.1, fun hk => h5 (h.2.2.2 hk)⟩
  · exact ⟨h.1, h.2.1, h.2.2.1, h6 h.2.2.2⟩

theorem goto_pcs (s : State B) (id i : Nat) (pc : Pc B) : (s.goto id pc).pcs i = if i = id then pc else s.pcs i := rfl

/-- A step of one export keeps the invariant if it does for that export and changes little else. -/
theorem inv_goto {k : Kind B} {s s1 : State B} (h : Inv k s) (id : Nat) (pc : Pc B) (hp : s1.pcs = s.pcs) (ho : ∀ i, i ≠ id → outOf s1 i = outOf s i)
    (hb : s1.begun = s.begun) (hw : ∀ i, i ≠ id → (s1.winner = some i ↔ s.winner = some i)) (hs : s1.shutAt = s.shutAt) (he : s.emitted = true → s1.emitted = true)
    (hd : s1.isShutdown = s.isShutdown) (hem : s1.emitted = true ↔ s1.winner ≠ none) (hpc : PcOk k s1 id pc) : Inv k (s1.goto id pc) := by
  refine ⟨fun i => ?_, hem, by show s1.isShutdown = true ↔ s1.shutAt ≠ none; rw [hd, hs]; exact h.shut, fun n hn => by
    show n ≤ s1.begun
    rw [hb]; exact h.bound n (hs ▸ hn)⟩
  rw [goto_pcs]
  by_cases hi : i = id
  · subst hi; rw [if_pos rfl]; exact hpc
  · rw [if_neg hi, hp]
    exact pcOk_same (h.pcs i) (ho i hi) hb (hw i hi) hs he (fun x => by rw [← x]; exact hd)

theorem inv_init (k : Kind B) : Inv k (State.init : State B) := by
  refine ⟨fun id => ⟨Nat.zero_le _, rfl, by simp [State.init]⟩, by simp [State.init], by simp [State.init], by simp [State.init]⟩

theorem inv_export {k : Kind B} {s s' : State B} {id : Nat} (h : Inv k s) (hs : stepExport k s id = some s') : Inv k s' := by
  have hk := h.pcs id
  rw [stepExport] at hs
  cases hpc : s.pcs id with
  | unused => rw [hpc] at hs; cases hs
  | load b =>
    rw [hpc] at hs hk
    dsimp only at hs
    split at hs
    · rename_i hsd
      injection hs with hs; subst hs
      exact inv_goto h id _ rfl (fun _ _ => rfl) rfl (fun _ _ => Iff.rfl) rfl (fun x => x) rfl h.emitted ⟨hk.1, hk.2.1, hk.2.2, hsd⟩
    · rename_i hsd
      injection hs with hs; subst hs
      refine inv_goto h id _ rfl (fun _ _ => rfl) rfl (fun _ _ => Iff.rfl) rfl (fun x => x) rfl h.emitted ⟨hk.1, hk.2.1, hk.2.2, fun n hn => ?_⟩
      exact absurd (h.shut.2 (by rw [hn]; simp)) hsd
  | head b =>
    rw [hpc] at hs hk
    injection hs with hs; subst hs
    refine inv_goto h id _ rfl (fun i hi => by rw [outOf_print, if_neg hi, List.append_nil]) rfl (fun _ _ => Iff.rfl) rfl (fun x => x) rfl h.emitted ?_
    exact ⟨hk.1, by rw [outOf_print, if_pos rfl, hk.2.1]; rfl, hk.2.2⟩
  | cas b =>
    rw [hpc] at hs hk
    dsimp only at hs
    obtain ⟨k1, k2, k3, k4⟩ := hk
    split at hs
    · rename_i ho
      split at hs
      · rename_i he
        injection hs with hs; subst hs
        refine inv_goto h id _ rfl (fun _ _ => rfl) rfl (fun _ _ => Iff.rfl) rfl (fun x => x) rfl h.emitted ⟨k1, ?_, k4, fun _ => he⟩
        rw [k2]
        simp [expected, printsResource, ho, k3]
      · rename_i he
        injection hs with hs; subst hs
        have hw : s.winner = none := by
          cases hw : s.winner with
          | none => rfl
          | some w => exact absurd (h.emitted.2 (by rw [hw]; simp)) he
        refine inv_goto h id _ rfl (fun _ _ => rfl) rfl (fun i hi => by rw [hw]; simp [Ne.symm hi]) rfl (fun _ => rfl) rfl (by simp) ⟨k1, ?_, k4, fun _ => rfl⟩
        have : outOf { s with emitted := true, winner := some id } id = outOf s id := rfl
        rw [this, k2]
        simp [expected, printsResource]
    · rename_i ho
      injection hs with hs; subst hs
      refine inv_goto h id _ rfl (fun _ _ => rfl) rfl (fun _ _ => Iff.rfl) rfl (fun x => x) rfl h.emitted ⟨k1, ?_, k4, fun hh => absurd hh ho⟩
      rw [k2]
      simp [expected, printsResource, ho]
  | print b rest =>
    rw [hpc] at hs hk
    cases rest with
    | nil =>
      injection hs with hs; subst hs
      exact inv_goto h id _ rfl (fun _ _ => rfl) rfl (fun _ _ => Iff.rfl) rfl (fun x => x) rfl h.emitted ⟨hk.1, by rw [← hk.2.1, List.append_nil], hk.2.2⟩
    | cons l rest =>
      injection hs with hs; subst hs
      refine inv_goto h id _ rfl (fun i hi => by rw [outOf_print, if_neg hi, List.append_nil]) rfl (fun _ _ => Iff.rfl) rfl (fun x => x) rfl h.emitted ?_
      refine ⟨hk.1, ?_, hk.2.2⟩
      rw [outOf_print, if_pos rfl, List.append_assoc]
      exact hk.2.1
  | ok b => rw [hpc] at hs; cases hs
  | alreadyShutdown b => rw [hpc] at hs; cases hs

theorem inv_step {k : Kind B} {s s' : State B} {a : Action B} (h : Inv k s) (hs : step k s a = some s') : Inv k s' := by
  cases a with
  | step id => exact inv_export h hs
  | «begin» b =>
    injection hs with hs; subst hs
    have hu : PcOk k s s.begun (s.pcs s.begun) := h.pcs s.begun
    have hun : outOf s s.begun = [] ∧ s.winner ≠ some s.begun := by
      cases hpc : s.pcs s.begun <;> rw [hpc] at hu <;> first | exact ⟨hu.2.1, hu.2.2⟩ | exact absurd hu.1 (Nat.lt_irrefl _)
    refine ⟨fun i => ?_, h.emitted, h.shut, fun n hn => Nat.le_succ_of_le (h.bound n hn)⟩
    show PcOk k _ i ((s.goto s.begun (.load b)).pcs i)
    rw [goto_pcs]
    by_cases hi : i = s.begun
    · subst hi; rw [if_pos rfl]; exact ⟨Nat.lt_succ_self _, hun.1, hun.2⟩
    · rw [if_neg hi]
      have hk := h.pcs i
      cases hpc : s.pcs i <;> rw [hpc] at hk
      · refine ⟨?_, hk.2⟩
        show s.begun + 1 ≤ i
        have := hk.1
        omega
      all_goals exact ⟨Nat.lt_succ_of_lt hk.1, hk.2⟩
  | shutdown =>
    injection hs with hs; subst hs
    refine ⟨fun i => ?_, h.emitted, ?_, ?_⟩
    · have hk := h.pcs i
      have he : i < s.begun → early s i → early { s with isShutdown := true, shutAt := s.shutAt.or (some s.begun) } i := by
        intro hlt he n hn
        cases hsa : s.shutAt with
        | none => simp [hsa] at hn; omega
        | some m => simp [hsa] at hn; exact hn ▸ he m hsa
      show PcOk k _ i (s.pcs i)
      cases hpc : s.pcs i <;> rw [hpc] at hk
      · exact hk
      · exact hk
      · exact ⟨hk.1, hk.2.1, hk.2.2.1, he hk.1 hk.2.2.2⟩
      · exact ⟨hk.1, hk.2.1, hk.2.2.1, he hk.1 hk.2.2.2⟩
      · exact ⟨hk.1, hk.2.1, he hk.1 hk.2.2.1, hk.2.2.2⟩
      · exact ⟨hk.1, hk.2.1, he hk.1 hk.2.2.1, hk.2.2.2⟩
      · exact ⟨hk.1, hk.2.1, hk.2.2.1, rfl⟩
    · cases s.shutAt <;> simp
    · intro n hn
      cases hsa : s.shutAt with
      | none => simp [hsa] at hn; exact Nat.le_of_eq hn.symm
      | some m => simp [hsa] at hn; exact hn ▸ h.bound m hsa

theorem inv_reachable {k : Kind B} {s : State B} (h : Reachable k s) : Inv k s := by
  induction h with
  | init => exact inv_init k
  | step _ hs ih => exact inv_step ih hs

/-! ## Theorems -/

/-- C94: an export that has returned Ok has printed exactly its head line, the resource if it is its turn, and its batch, in this order, whatever other exports and
`shutdown` did meanwhile. -/
theorem export_prints (k : Kind B) (s : State B) (h : Reachable k s) (id : Nat) (b : B) (hok : s.pcs id = .ok b) : ∃ r, outOf s id = expected k r b := by
  have := (inv_reachable h).pcs id
  rw [hok] at this
  exact ⟨_, this.2.1⟩

/-- C94, spans and log records: as soon as one export has returned Ok there is exactly one export whose lines contain the resource, and this never changes. -/
theorem resource_once (k : Kind B) (hk : k.once = true) (s : State B) (h : Reachable k s) (id : Nat) (b : B) (hok : s.pcs id = .ok b) :
    ∃ w, s.winner = some w ∧ ∀ i c, s.pcs i = .ok c → outOf s i = expected k (decide (i = w)) c := by
  have hi := inv_reachable h
  have h0 := hi.pcs id
  rw [hok] at h0
  cases hw : s.winner with
  | none => exact absurd hw (hi.emitted.1 (h0.2.2.2 hk))
  | some w =>
    refine ⟨w, rfl, fun i c hc => ?_⟩
    have := hi.pcs i
    rw [hc] at this
    rw [this.2.1, printsResource, hk, hw]
    simp [eq_comm]

/-- The export that prints the resource stays the same. -/
theorem winner_stays {k : Kind B} {s s' : State B} {a : Action B} (h : Reachable k s) (hs : step k s a = some s') (w : Nat) (hw : s.winner = some w) : s'.winner = some w := by
  have he : s.emitted = true := (inv_reachable h).emitted.2 (by rw [hw]; simp)
  cases a with
  | «begin» b => injection hs with hs; subst hs; exact hw
  | shutdown => injection hs with hs; subst hs; exact hw
  | step id =>
    simp only [step, stepExport] at hs
    split at hs
    · cases hs
    · split at hs <;> (injection hs with hs; subst hs; exact hw)
    · injection hs with hs; subst hs; exact hw
    · split at hs
      · injection hs with hs; subst hs; exact hw
      · injection hs with hs; subst hs; exact hw
    · injection hs with hs; subst hs; exact hw
    · injection hs with hs; subst hs; exact hw
    · cases hs
    · cases hs

/-- C94, metrics: every export prints the resource. -/
theorem resource_each_time (k : Kind B) (hk : k.once = false) (s : State B) (h : Reachable k s) (id : Nat) (b : B) (hok : s.pcs id = .ok b) : outOf s id = expected k true b := by
  have := (inv_reachable h).pcs id
  rw [hok] at this
  rw [this.2.1, printsResource, hk]
  rfl

/-- C94: an export that begins after a `shutdown` prints nothing and can only return that the exporter is shut down; an export gets this answer only when the exporter
has been shut down, and then it has printed nothing. -/
theorem after_shutdown (k : Kind B) (s : State B) (h : Reachable k s) :
    (∀ n, s.shutAt = some n → ∀ id, n ≤ id → outOf s id = [] ∧ ∀ b, s.pcs id ≠ .ok b) ∧
    (∀ id b, s.pcs id = .alreadyShutdown b → outOf s id = [] ∧ s.shutAt ≠ none) := by
  have hi := inv_reachable h
  constructor
  · intro n hn id hid
    have hk := hi.pcs id
    cases hpc : s.pcs id <;> rw [hpc] at hk
    · exact ⟨hk.2.1, fun _ => by simp⟩
    · exact ⟨hk.2.1, fun _ => by simp⟩
    · exact ⟨hk.2.1, fun _ => by simp⟩
    · exact absurd (hk.2.2.2 n hn) (Nat.not_lt.2 hid)
    · exact absurd (hk.2.2.1 n hn) (Nat.not_lt.2 hid)
    · exact absurd (hk.2.2.1 n hn) (Nat.not_lt.2 hid)
    · exact ⟨hk.2.1, fun _ => by simp⟩
  · intro id b hpc
    have hk := hi.pcs id
    rw [hpc] at hk
    exact ⟨hk.2.1, hi.shut.1 hk.2.2.2⟩

/-- C94: nothing is printed that does not belong to an export that has begun. -/
theorem only_exports_print (k : Kind B) (s : State B) (h : Reachable k s) (id : Nat) (l : String) (hl : (id, l) ∈ s.out) : id < s.begun := by
  have hk := (inv_reachable h).pcs id
  have hne : outOf s id ≠ [] := by
    intro he
    have : l ∈ outOf s id := List.mem_map.2 ⟨(id, l), List.mem_filter.2 ⟨hl, by simp⟩, rfl⟩
    rw [he] at this
    cases this
  cases hpc : s.pcs id <;> rw [hpc] at hk
  · exact absurd hk.2.1 hne
  all_goals exact hk.1

/-! ### Exports one after the other -/

/-- Steps of one export that print its remaining lines and return. -/
theorem run_print {k : Kind B} (rest : List String) {s : State B} {id : Nat} {b : B} (hp : s.pcs id = .print b rest) (as : List (Action B)) :
    runAll k s (List.replicate (rest.length + 1) (.step id) ++ as) =
      runAll k ({ s with out := s.out ++ rest.map fun l => (id, l) }.goto id (.ok b)) as := by
  induction rest generalizing s with
  | nil =>
    have h1 : step k s (.step id) = some (s.goto id (.ok b)) := by simp only [step, stepExport, hp]
    show runAll k s (.step id :: as) = _
    rw [runAll, h1, List.map_nil, List.append_nil]
  | cons l rest ih =>
    simp only [List.length_cons, List.replicate_succ (n := rest.length + 1), List.cons_append, runAll]
    have h1 : step k s (.step id) = some ((s.print id l).goto id (.print b rest)) := by simp only [step, stepExport, hp]
    rw [h1]
    dsimp only
    rw [ih (by simp [State.goto])]
    congr 1
    simp only [State.goto, State.print, List.append_assoc, List.map_cons, List.cons_append, List.nil_append, State.mk.injEq, true_and, and_true]
    funext i
    split <;> simp_all

/-- A whole export that no one disturbs: all its steps. -/
def wholeExport (k : Kind B) (s : State B) (b : B) : List (Action B) :=
  .begin b :: .step s.begun :: .step s.begun :: .step s.begun ::
    List.replicate ((if k.once && s.emitted then k.body b else k.resource b ++ k.body b).length + 1) (.step s.begun)

/-- The state after an export that no one disturbed. -/
def afterAlone (k : Kind B) (s : State B) (b : B) : State B :=
  { isShutdown := s.isShutdown
    emitted := s.emitted || k.once
    out := s.out ++ (expected k (!(k.once && s.emitted)) b).map fun l => (s.begun, l)
    pcs := fun i => if i = s.begun then .ok b else s.pcs i
    begun := s.begun + 1
    winner := if k.once && !s.emitted then some s.begun else s.winner
    shutAt := s.shutAt }

/-- C94: an export that no one disturbs, on an exporter that is not shut down, returns Ok and adds to the terminal its head line, the resource (on the first export
only, for spans and log records), and the batch. -/
theorem export_alone (k : Kind B) (s : State B) (b : B) (hs : s.isShutdown = false) : runAll k s (wholeExport k s b) = some (afterAlone k s b) := by
  obtain ⟨sd, em, out, pcs, n, w, sa⟩ := s
  dsimp only at hs
  subst hs
  rw [wholeExport]
  simp only [runAll, step, stepExport, if_pos, State.goto, Bool.false_eq_true, if_false, State.print]
  have key : ∀ (rest : List String) (em' : Bool) (w' : Option Nat) (P : Nat → Pc B), P n = .print b rest → (∀ i, i ≠ n → P i = pcs i) →
      runAll k ⟨false, em', out ++ [(n, k.head)], P, n + 1, w', sa⟩ (List.replicate (rest.length + 1) (.step n)) =
        some ⟨false, em', out ++ (k.head :: rest).map fun l => (n, l), fun i => if i = n then .ok b else pcs i, n + 1, w', sa⟩ := by
    intro rest em' w' P hP hO
    have := run_print (k := k) rest (s := ⟨false, em', out ++ [(n, k.head)], P, n + 1, w', sa⟩) (id := n) (b := b) hP []
    rw [List.append_nil] at this
    rw [this, runAll]
    simp only [State.goto, List.append_assoc, List.map_cons, List.cons_append, List.nil_append, Option.some.injEq, State.mk.injEq, true_and, and_true]
    funext i
    by_cases hi : i = n
    · rw [if_pos hi, if_pos hi]
    · rw [if_neg hi, if_neg hi, hO i hi]
  cases ho : k.once <;> cases he : em
  all_goals
    simp only [Bool.and_self, Bool.and_false, Bool.and_true, Bool.false_and, Bool.true_and, Bool.false_eq_true, if_false, if_true]
    rw [key _ _ _ _ (by simp) (fun i hi => by simp [hi])]
    simp [afterAlone, expected, ho]

end Otel.Stdout
