import Verif.Metrics.ValueMap
import Mathlib.Data.List.Nodup
import Mathlib.Order.Nat
/-!
# Equality and hashing of attributes and scopes (`opentelemetry/src/common.rs`), C59

A `f64` is its 64 bits here, so that `to_bits`, NaN and the two zeroes are visible. A hash is the sequence of writes made to the `Hasher`:
values with the same sequence have the same hash under every hasher. Keys are of an ordered type `K`; `Key` and `StringValue` compare and
hash as the text they hold, whatever its representation (common.rs:104-152).
-/

namespace Otel.Common
open Metrics (Sorter)

/-- The value of `f64::is_nan`: exponent all ones, fraction not zero. -/
def isNan (b : BitVec 64) : Bool := decide (b.toNat % 2 ^ 63 > 0x7FF0000000000000)

/-- `+0.0` or `-0.0`. -/
def isZero (b : BitVec 64) : Bool := decide (b.toNat % 2 ^ 63 = 0)

/-- `==` on `f64`. -/
def f64Eq (a b : BitVec 64) : Bool := !isNan a && !isNan b && (decide (a = b) || (isZero a && isZero b))

/-- `Array`. common.rs:157-166 -/
inductive Arr where
  | bools (l : List Bool)
  | ints (l : List (BitVec 64))
  | floats (l : List (BitVec 64))
  | strs (l : List String)

/-- `Value`. common.rs:220-231 -/
inductive Val where
  | bool (b : Bool)
  | int (i : BitVec 64)
  | float (f : BitVec 64)
  | str (s : String)
  | arr (a : Arr)

/-- `Vec<f64>`'s `==`. -/
def f64sEq : List (BitVec 64) → List (BitVec 64) → Bool
  | [], [] => true
  | a :: l, b :: l' => f64Eq a b && f64sEq l l'
  | _, _ => false

/-- Derived `PartialEq` of `Array`. common.rs:156 -/
def arrEq : Arr → Arr → Bool
  | .bools a, .bools b => decide (a = b)
  | .ints a, .ints b => decide (a = b)
  | .floats a, .floats b => f64sEq a b
  | .strs a, .strs b => decide (a = b)
  | _, _ => false

/-- Derived `PartialEq` of `Value`. common.rs:219 -/
def valEq : Val → Val → Bool
  | .bool a, .bool b => decide (a = b)
  | .int a, .int b => decide (a = b)
  | .float a, .float b => f64Eq a b
  | .str a, .str b => decide (a = b)
  | .arr a, .arr b => arrEq a b
  | _, _ => false

variable {K : Type}

/-- A write to the hasher. -/
inductive Tok (K : Type) where
  | key (k : K)
  | bool (b : Bool)
  | word (w : BitVec 64)
  | len (n : Nat)
  | str (s : String)
  | disc (present : Bool)
deriving DecidableEq

/-- What hashing a value writes. A vector writes its length first, an array of floats does not. common.rs:435-447 -/
def valHash : Val → List (Tok K)
  | .float f => [.word f]
  | .arr (.bools l) => .len l.length :: l.map .bool
  | .arr (.ints l) => .len l.length :: l.map .word
  | .arr (.floats l) => l.map .word
  | .arr (.strs l) => .len l.length :: l.map .str
  | .bool b => [.bool b]
  | .int i => [.word i]
  | .str s => [.str s]

/-- `KeyValue`'s derived `PartialEq`. common.rs:394-400 -/
def kvEq [DecidableEq K] (a b : K × Val) : Bool := decide (a.1 = b.1) && valEq a.2 b.2

/-- `Hash for KeyValue`. common.rs:432-449 -/
def kvHash (a : K × Val) : List (Tok K) := .key a.1 :: valHash a.2

/-- `Vec<&KeyValue>`'s `==`. -/
def kvsEq [DecidableEq K] : List (K × Val) → List (K × Val) → Bool
  | [], [] => true
  | a :: l, b :: l' => kvEq a b && kvsEq l l'
  | _, _ => false

/-- `InstrumentationScope`. common.rs:462-478 -/
structure Scope (K : Type) where
  name : String
  version : Option String
  schemaUrl : Option String
  attrs : List (K × Val)

variable [LinearOrder K]

/-- `PartialEq for InstrumentationScope`. common.rs:480-496 -/
def scopeEq (srt : Sorter K Val) (a b : Scope K) : Bool :=
  decide (a.name = b.name) && decide (a.version = b.version) && decide (a.schemaUrl = b.schemaUrl) &&
    decide (a.attrs.length = b.attrs.length) && kvsEq (srt.sort a.attrs) (srt.sort b.attrs)

/-- Writes for an optional text. -/
def optHash : Option String → List (Tok K)
  | none => [.disc false]
  | some s => [.disc true, .str s]

/-- `Hash for InstrumentationScope`. common.rs:498-509 -/
def scopeHash (srt : Sorter K Val) (a : Scope K) : List (Tok K) :=
  .str a.name :: (optHash a.version ++ optHash a.schemaUrl ++ (srt.sort a.attrs).flatMap kvHash)

/-! ## Specification -/

/-- The value holds no NaN. -/
def NanFree : Val → Prop
  | .float f => isNan f = false
  | .arr (.floats l) => ∀ f ∈ l, isNan f = false
  | _ => True

/-- The value holds no zero float (neither `0.0` nor `-0.0`). -/
def ZeroFree : Val → Prop
  | .float f => isZero f = false
  | .arr (.floats l) => ∀ f ∈ l, isZero f = false
  | _ => True

/-- The two lists have the same attributes, in any order. -/
def SameAttrs (a b : List (K × Val)) : Prop := (a.map Prod.fst).Nodup ∧ a.Perm b

/-! ## Lemmas -/

theorem f64Eq_iff {a b : BitVec 64} :
    f64Eq a b = true ↔ isNan a = false ∧ isNan b = false ∧ (a = b ∨ (isZero a = true ∧ isZero b = true)) := by
  simp [f64Eq, and_assoc]

theorem f64Eq_refl {a : BitVec 64} : f64Eq a a = true ↔ isNan a = false := by
  rw [f64Eq_iff]; simp

theorem f64Eq_symm {a b : BitVec 64} (h : f64Eq a b = true) : f64Eq b a = true := by
  rw [f64Eq_iff] at *
  obtain ⟨h1, h2, h3⟩ := h
  exact ⟨h2, h1, h3.elim (fun h => .inl h.symm) (fun h => .inr ⟨h.2, h.1⟩)⟩

theorem f64Eq_trans {a b c : BitVec 64} (h : f64Eq a b = true) (h' : f64Eq b c = true) : f64Eq a c = true := by
  rw [f64Eq_iff] at *
  obtain ⟨h1, h2, h3⟩ := h
  obtain ⟨h4, h5, h6⟩ := h'
  refine ⟨h1, h5, ?_⟩
  rcases h3 with rfl | h3
  · exact h6
  · rcases h6 with rfl | h6
    · exact .inr h3
    · exact .inr ⟨h3.1, h6.2⟩

theorem f64Eq_bits {a b : BitVec 64} (h : f64Eq a b = true) (hz : isZero a = false) : a = b := by
  obtain ⟨_, _, h | h⟩ := f64Eq_iff.1 h
  · exact h
  · rw [hz] at h; cases h.1

theorem f64sEq_refl {l : List (BitVec 64)} : f64sEq l l = true ↔ ∀ f ∈ l, isNan f = false := by
  induction l with
  | nil => simp [f64sEq]
  | cons a l ih => simp [f64sEq, f64Eq_refl, ih]

theorem f64sEq_symm {a b : List (BitVec 64)} (h : f64sEq a b = true) : f64sEq b a = true := by
  induction a generalizing b with
  | nil => cases b with | nil => rfl | cons _ _ => cases h
  | cons x a ih =>
    cases b with
    | nil => cases h
    | cons y b =>
      simp only [f64sEq, Bool.and_eq_true] at *
      exact ⟨f64Eq_symm h.1, ih h.2⟩

theorem f64sEq_trans {a b c : List (BitVec 64)} (h : f64sEq a b = true) (h' : f64sEq b c = true) : f64sEq a c = true := by
  induction a generalizing b c with
  | nil => cases b with | nil => exact h' | cons _ _ => cases h
  | cons x a ih =>
    cases b with
    | nil => cases h
    | cons y b =>
      cases c with
      | nil => cases h'
      | cons z c =>
        simp only [f64sEq, Bool.and_eq_true] at *
        exact ⟨f64Eq_trans h.1 h'.1, ih h.2 h'.2⟩

theorem f64sEq_bits {a b : List (BitVec 64)} (h : f64sEq a b = true) (hz : ∀ f ∈ a, isZero f = false) : a = b := by
  induction a generalizing b with
  | nil => cases b with | nil => rfl | cons _ _ => cases h
  | cons x a ih =>
    cases b with
    | nil => cases h
    | cons y b =>
      simp only [f64sEq, Bool.and_eq_true] at h
      rw [f64Eq_bits h.1 (hz x List.mem_cons_self), ih h.2 (fun f hf => hz f (List.mem_cons_of_mem _ hf))]

theorem valEq_refl {v : Val} : valEq v v = true ↔ NanFree v := by
  cases v with
  | arr a => cases a <;> simp [valEq, arrEq, NanFree, f64sEq_refl]
  | _ => simp [valEq, NanFree, f64Eq_refl]

theorem valEq_symm {a b : Val} (h : valEq a b = true) : valEq b a = true := by
  cases a with
  | arr x =>
    cases b with
    | arr y =>
      cases x <;> cases y <;> simp only [valEq, arrEq, decide_eq_true_eq, reduceCtorEq, Bool.false_eq_true] at *
      · exact h.symm
      · exact h.symm
      · exact f64sEq_symm h
      · exact h.symm
    | _ => simp [valEq] at h
  | _ =>
    cases b <;> simp only [valEq, decide_eq_true_eq, reduceCtorEq, Bool.false_eq_true] at *
    all_goals first | exact h.symm | exact f64Eq_symm h

theorem valEq_trans {a b c : Val} (h : valEq a b = true) (h' : valEq b c = true) : valEq a c = true := by
  cases a with
  | arr x =>
    cases b with
    | arr y =>
      cases c with
      | arr z =>
        cases x <;> cases y <;> cases z <;> simp only [valEq, arrEq, decide_eq_true_eq, reduceCtorEq, Bool.false_eq_true] at *
        · exact h.trans h'
        · exact h.trans h'
        · exact f64sEq_trans h h'
        · exact h.trans h'
      | _ => simp [valEq] at h'
    | _ => simp [valEq] at h
  | _ =>
    cases b <;> simp only [valEq, decide_eq_true_eq, reduceCtorEq, Bool.false_eq_true] at h
    all_goals
      cases c <;> simp only [valEq, decide_eq_true_eq, reduceCtorEq, Bool.false_eq_true] at *
      first | exact h.trans h' | exact f64Eq_trans h h'

theorem valEq_eq {a b : Val} (h : valEq a b = true) (hz : ZeroFree a) : a = b := by
  cases a with
  | arr x =>
    cases b with
    | arr y =>
      cases x <;> cases y <;> simp only [valEq, arrEq, decide_eq_true_eq, Bool.false_eq_true] at h
      · rw [h]
      · rw [h]
      · rw [f64sEq_bits h hz]
      · rw [h]
    | _ => simp [valEq] at h
  | float x =>
    cases b <;> simp only [valEq, Bool.false_eq_true] at h
    rw [f64Eq_bits h hz]
  | _ =>
    cases b <;> simp only [valEq, decide_eq_true_eq, Bool.false_eq_true] at h
    rw [h]

theorem kvEq_iff {a b : K × Val} : kvEq a b = true ↔ a.1 = b.1 ∧ valEq a.2 b.2 = true := by simp [kvEq]

theorem kvsEq_refl {l : List (K × Val)} : kvsEq l l = true ↔ ∀ p ∈ l, NanFree p.2 := by
  induction l with
  | nil => simp [kvsEq]
  | cons a l ih => simp [kvsEq, kvEq, valEq_refl, ih]

theorem kvsEq_symm {a b : List (K × Val)} (h : kvsEq a b = true) : kvsEq b a = true := by
  induction a generalizing b with
  | nil => cases b with | nil => rfl | cons _ _ => cases h
  | cons x a ih =>
    cases b with
    | nil => cases h
    | cons y b =>
      simp only [kvsEq, Bool.and_eq_true, kvEq_iff] at *
      exact ⟨⟨h.1.1.symm, valEq_symm h.1.2⟩, ih h.2⟩

theorem kvsEq_trans {a b c : List (K × Val)} (h : kvsEq a b = true) (h' : kvsEq b c = true) : kvsEq a c = true := by
  induction a generalizing b c with
  | nil => cases b with | nil => exact h' | cons _ _ => cases h
  | cons x a ih =>
    cases b with
    | nil => cases h
    | cons y b =>
      cases c with
      | nil => cases h'
      | cons z c =>
        simp only [kvsEq, Bool.and_eq_true, kvEq_iff] at *
        exact ⟨⟨h.1.1.trans h'.1.1, valEq_trans h.1.2 h'.1.2⟩, ih h.2 h'.2⟩

theorem kvsEq_eq {a b : List (K × Val)} (h : kvsEq a b = true) (hz : ∀ p ∈ a, ZeroFree p.2) : a = b := by
  induction a generalizing b with
  | nil => cases b with | nil => rfl | cons _ _ => cases h
  | cons x a ih =>
    cases b with
    | nil => cases h
    | cons y b =>
      simp only [kvsEq, Bool.and_eq_true, kvEq_iff] at h
      have h1 := valEq_eq h.1.2 (hz x List.mem_cons_self)
      rw [Prod.ext h.1.1 h1, ih h.2 (fun p hp => hz p (List.mem_cons_of_mem _ hp))]

/-- Two lists with the same distinct keys, both ordered by key, are the same list. -/
theorem sorted_unique {a b : List (K × Val)} (hp : a.Perm b) (hn : (a.map Prod.fst).Nodup)
    (ha : a.Pairwise fun x y => x.1 ≤ y.1) (hb : b.Pairwise fun x y => x.1 ≤ y.1) : a = b := by
  refine hp.eq_of_pairwise (fun x y hx hy hxy hyx => ?_) ha hb
  have he := le_antisymm hxy hyx
  have hy' : y ∈ a := hp.mem_iff.2 hy
  exact (List.inj_on_of_nodup_map hn) hx hy' he

theorem sort_same (srt : Sorter K Val) {a b : List (K × Val)} (h : SameAttrs a b) : srt.sort a = srt.sort b := by
  refine sorted_unique (((srt.perm a).trans h.2).trans (srt.perm b).symm) ?_ (srt.sorted a) (srt.sorted b)
  exact ((srt.perm a).map Prod.fst).nodup_iff.2 h.1

/-! ## Theorems -/

/-- C59. Equality of attributes is symmetric and transitive, and reflexive exactly on attributes without NaN. -/
theorem kv_equivalence :
    (∀ a b : K × Val, kvEq a b = true → kvEq b a = true) ∧
    (∀ a b c : K × Val, kvEq a b = true → kvEq b c = true → kvEq a c = true) ∧
    (∀ a : K × Val, kvEq a a = true ↔ NanFree a.2) := by
  refine ⟨fun a b h => ?_, fun a b c h h' => ?_, fun a => ?_⟩
  · rw [kvEq_iff] at *; exact ⟨h.1.symm, valEq_symm h.2⟩
  · rw [kvEq_iff] at *; exact ⟨h.1.trans h'.1, valEq_trans h.2 h'.2⟩
  · rw [kvEq_iff, valEq_refl]; simp

/-- C59 (finding). `KeyValue` promises `Eq`, but an attribute holding NaN does not equal itself. -/
theorem kv_refl_violated (k : K) : kvEq (k, Val.float 0x7FF8000000000000) (k, Val.float 0x7FF8000000000000) = false := by
  simp [kvEq, valEq, f64Eq, isNan]

/-- C59 (part). Equal attributes hash equally, if the value holds no zero float. Missing: `0.0` and `-0.0` (`kv_hash_violated`). -/
theorem kv_hash_partial {a b : K × Val} (h : kvEq a b = true) (hz : ZeroFree a.2) : kvHash a = kvHash b := by
  rw [kvEq_iff] at h
  rw [Prod.ext h.1 (valEq_eq h.2 hz)]

example : kvEq ("k", Val.arr (.floats [0x3FF0000000000000])) ("k", Val.arr (.floats [0x3FF0000000000000])) = true ∧
    ZeroFree (Val.arr (.floats [0x3FF0000000000000])) := by
  constructor
  · decide
  · intro f hf; obtain rfl := List.mem_singleton.1 hf; decide

/-- C59 (finding). `0.0` and `-0.0` are equal attributes with different hashes: `Hash` writes the bits. -/
theorem kv_hash_violated (k : K) : kvEq (k, Val.float 0) (k, Val.float 0x8000000000000000) = true ∧
    kvHash (k, Val.float 0) ≠ kvHash (k, Val.float 0x8000000000000000) := by
  constructor
  · simp [kvEq, valEq, f64Eq, isNan, isZero]
  · simp [kvHash, valHash]

/-- C59. Scopes that differ only in the order of their attributes (with distinct keys and no NaN) are equal and hash equally, whatever
unstable sort is used. -/
theorem scope_order (srt : Sorter K Val) {a b : Scope K} (hn : a.name = b.name) (hv : a.version = b.version)
    (hu : a.schemaUrl = b.schemaUrl) (hs : SameAttrs a.attrs b.attrs) :
    scopeHash srt a = scopeHash srt b ∧ ((∀ p ∈ a.attrs, NanFree p.2) → scopeEq srt a b = true) := by
  have he := sort_same srt hs
  constructor
  · rw [scopeHash, scopeHash, hn, hv, hu, he]
  · intro hf
    have hr : kvsEq (srt.sort a.attrs) (srt.sort a.attrs) = true :=
      kvsEq_refl.2 fun p hp => hf p ((srt.perm _).mem_iff.1 hp)
    simp [scopeEq, hn, hv, hu, hs.2.length_eq, ← he, hr]

/-- The example sorter. -/
def mergeSorter : Sorter Nat Val where
  sort l := l.mergeSort fun a b => decide (a.1 ≤ b.1)
  perm l := List.mergeSort_perm _ _
  sorted l := by
    have := List.pairwise_mergeSort (le := fun a b : Nat × Val => decide (a.1 ≤ b.1))
      (fun a b c h h' => by simp at *; omega) (fun a b => by simp; omega) l
    exact this.imp (by simp)

example : scopeEq mergeSorter ⟨"n", none, none, [(2, .bool true), (1, .int 5)]⟩ ⟨"n", none, none, [(1, .int 5), (2, .bool true)]⟩ = true :=
  (scope_order mergeSorter (a := ⟨"n", none, none, [(2, .bool true), (1, .int 5)]⟩)
    (b := ⟨"n", none, none, [(1, .int 5), (2, .bool true)]⟩) rfl rfl rfl ⟨by decide, List.Perm.swap _ _ _⟩).2 (by simp [NanFree])

/-- C59. Equality of scopes is symmetric and transitive; a scope equals itself exactly if no attribute holds NaN. -/
theorem scope_equivalence (srt : Sorter K Val) :
    (∀ a b : Scope K, scopeEq srt a b = true → scopeEq srt b a = true) ∧
    (∀ a b c : Scope K, scopeEq srt a b = true → scopeEq srt b c = true → scopeEq srt a c = true) ∧
    (∀ a : Scope K, scopeEq srt a a = true ↔ ∀ p ∈ a.attrs, NanFree p.2) := by
  refine ⟨fun a b h => ?_, fun a b c h h' => ?_, fun a => ?_⟩
  · simp only [scopeEq, Bool.and_eq_true, decide_eq_true_eq] at *
    obtain ⟨⟨⟨⟨h1, h2⟩, h3⟩, h4⟩, h5⟩ := h
    exact ⟨⟨⟨⟨h1.symm, h2.symm⟩, h3.symm⟩, h4.symm⟩, kvsEq_symm h5⟩
  · simp only [scopeEq, Bool.and_eq_true, decide_eq_true_eq] at *
    obtain ⟨⟨⟨⟨h1, h2⟩, h3⟩, h4⟩, h5⟩ := h
    obtain ⟨⟨⟨⟨g1, g2⟩, g3⟩, g4⟩, g5⟩ := h'
    exact ⟨⟨⟨⟨h1.trans g1, h2.trans g2⟩, h3.trans g3⟩, h4.trans g4⟩, kvsEq_trans h5 g5⟩
  · simp only [scopeEq, decide_true, Bool.true_and, kvsEq_refl]
    constructor
    · intro h p hp; exact h p ((srt.perm _).mem_iff.2 hp)
    · intro h p hp; exact h p ((srt.perm _).mem_iff.1 hp)

/-- C59. Equal scopes agree in everything they show: name, version, schema url and, if no zero float is involved, the attributes up to
order; then they also hash equally. -/
theorem scope_eq_partial (srt : Sorter K Val) {a b : Scope K} (h : scopeEq srt a b = true) :
    a.name = b.name ∧ a.version = b.version ∧ a.schemaUrl = b.schemaUrl ∧ a.attrs.length = b.attrs.length ∧
    ((∀ p ∈ a.attrs, ZeroFree p.2) → a.attrs.Perm b.attrs ∧ scopeHash srt a = scopeHash srt b) := by
  simp only [scopeEq, Bool.and_eq_true, decide_eq_true_eq] at h
  obtain ⟨⟨⟨⟨h1, h2⟩, h3⟩, h4⟩, h5⟩ := h
  refine ⟨h1, h2, h3, h4, fun hz => ?_⟩
  have he := kvsEq_eq h5 fun p hp => hz p ((srt.perm _).mem_iff.1 hp)
  refine ⟨((srt.perm _).symm.trans (he ▸ srt.perm _)), ?_⟩
  rw [scopeHash, scopeHash, h1, h2, h3, he]

/-! ## What NaN does to a table of data points -/

/-- The keys of the table after a measurement: a hit leaves them, a miss adds the attribute list up to the limit. Only the key comparison of
`ValueMap::measure` is kept. metrics/internal/mod.rs:95-140 -/
def touch (limit : Nat) (keys : List (List (K × Val))) (attrs : List (K × Val)) : List (List (K × Val)) :=
  if keys.any (kvsEq attrs) then keys else if keys.length < limit then attrs :: keys else keys

/-- C59 (finding). Every measurement with an attribute holding NaN makes a new data point, until the limit is reached, and no more then: the series is never
found again. -/
theorem nan_points_violated (limit n : Nat) (attrs : List (K × Val)) (p : K × Val) (hp : p ∈ attrs) (hnan : ¬ NanFree p.2) :
    ((List.replicate n attrs).foldl (touch limit) []).length = min n limit := by
  have hne : kvsEq attrs attrs = false := by
    cases h : kvsEq attrs attrs with
    | false => rfl
    | true => exact absurd (kvsEq_refl.1 h p hp) hnan
  have : (List.replicate n attrs).foldl (touch limit) [] = List.replicate (min n limit) attrs := by
    induction n with
    | zero => simp
    | succ n ih =>
      rw [List.replicate_succ', List.foldl_append, List.foldl_cons, List.foldl_nil, ih]
      have hany : (List.replicate (min n limit) attrs).any (kvsEq attrs) = false := by simp [hne]
      simp only [touch, hany, Bool.false_eq_true, if_false, List.length_replicate]
      by_cases hl : n < limit
      · rw [if_pos (by omega), show min (n + 1) limit = min n limit + 1 by omega]; rfl
      · rw [if_neg (by omega), show min (n + 1) limit = min n limit by omega]
  rw [this, List.length_replicate]

/-- C59. Without NaN the same attributes always find their data point. -/
theorem nan_free_points (limit n : Nat) (attrs : List (K × Val)) (hf : ∀ p ∈ attrs, NanFree p.2) (hl : 0 < limit) (hn : 0 < n) :
    (List.replicate n attrs).foldl (touch limit) [] = [attrs] := by
  have hr := kvsEq_refl.2 hf
  induction n with
  | zero => omega
  | succ n ih =>
    rw [List.replicate_succ', List.foldl_append, List.foldl_cons, List.foldl_nil]
    cases n with
    | zero => simp [touch, hl]
    | succ n => rw [ih (by omega)]; simp [touch, hr]

example : ¬ NanFree (.float 0x7FF8000000000000) := by simp [NanFree, isNan]

/-! ## Floats by their fields -/

/-- NaN by the standard: exponent all ones, fraction not zero. -/
def Nan (b : BitVec 64) : Prop := b.extractLsb' 52 11 = 0x7FF#11 ∧ b.extractLsb' 0 52 ≠ 0#52

/-- Zero of either sign by the standard. -/
def Zero (b : BitVec 64) : Prop := b.extractLsb' 52 11 = 0#11 ∧ b.extractLsb' 0 52 = 0#52

theorem fields (b : BitVec 64) : (b.extractLsb' 52 11).toNat = b.toNat / 2 ^ 52 % 2 ^ 11 ∧ (b.extractLsb' 0 52).toNat = b.toNat % 2 ^ 52 := by
  simp [BitVec.extractLsb'_toNat, Nat.shiftRight_eq_div_pow]

theorem isNan_iff (b : BitVec 64) : isNan b = true ↔ Nan b := by
  obtain ⟨h1, h2⟩ := fields b
  rw [isNan, decide_eq_true_eq, Nan, Ne, ← BitVec.toNat_inj, ← BitVec.toNat_inj, h1, h2]
  simp only [BitVec.toNat_ofNat]
  omega

theorem isZero_iff (b : BitVec 64) : isZero b = true ↔ Zero b := by
  obtain ⟨h1, h2⟩ := fields b
  rw [isZero, decide_eq_true_eq, Zero, ← BitVec.toNat_inj, ← BitVec.toNat_inj, h1, h2]
  simp only [BitVec.toNat_ofNat]
  omega

/-- C59. Two float values are equal exactly if neither is NaN and they have the same bits or both are zeroes; infinities equal themselves. -/
theorem float_equal (a b : BitVec 64) : valEq (.float a) (.float b) = true ↔ ¬ Nan a ∧ ¬ Nan b ∧ (a = b ∨ (Zero a ∧ Zero b)) := by
  show f64Eq a b = true ↔ _
  rw [f64Eq_iff, ← isNan_iff, ← isNan_iff, ← isZero_iff, ← isZero_iff]
  simp

example : ¬ Nan 0x7FF0000000000000 ∧ Nan 0x7FF0000000000001 ∧ Nan 0xFFF8000000000000 ∧ Zero 0x8000000000000000 := by
  simp only [Nan, Zero]; decide

end Otel.Common
