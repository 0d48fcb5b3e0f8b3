import Mathlib.Order.Defs.LinearOrder
/-!
# The store of data points (`opentelemetry-sdk/src/metrics/internal/mod.rs`)

`ValueMap<A>`, for any aggregator `A`. Attribute keys are of an ordered type `K` (strings, compared by `Key::cmp`), values of a type
`V` with decidable equality. Rust's `Value` has `f64` among its cases, whose `==` is not reflexive on NaN and identifies `0.0` with
`-0.0` (which hash differently); such attribute values are outside this model (see `Common/Attr.lean`).

The hash map from attribute lists to `Arc<A>` is an association list from attribute lists to pointers, with a heap from pointers to
aggregators; the order in which the map is iterated is a permutation chosen by the environment. Poisoned locks are not modelled.
-/

namespace Otel.Metrics

variable {K V : Type} [LinearOrder K] [DecidableEq V]

/-- `&[KeyValue]`. opentelemetry/src/common.rs:394-400 -/
abbrev Attrs (K V : Type) := List (K × V)

/-- `slice::sort_unstable_by(|a, b| a.key.cmp(&b.key))`: some function that returns a permutation ordered by key. Nothing is known
about the order of elements with equal keys. -/
structure Sorter (K V : Type) [LinearOrder K] where
  sort : Attrs K V → Attrs K V
  perm : ∀ l, (sort l).Perm l
  sorted : ∀ l, (sort l).Pairwise fun a b => a.1 ≤ b.1

/-- The rest of `dedup_by` after `a` was kept. -/
def dedupAfter (a : K × V) : Attrs K V → Attrs K V
  | [] => []
  | b :: l => if b.1 = a.1 then dedupAfter a l else b :: dedupAfter b l

/-- `Vec::dedup_by(|a, b| a.key == b.key)`: of each run of equal keys the first element stays. -/
def dedupByKey : Attrs K V → Attrs K V
  | [] => []
  | a :: l => a :: dedupAfter a l

/-- `sort_and_dedup`. mod.rs:225-233 -/
def sortAndDedup (srt : Sorter K V) (l : Attrs K V) : Attrs K V := dedupByKey (srt.sort l)

/-- `trait Aggregator`: `X` is `PreComputedValue`; `clone_and_reset` returns the current value and leaves a fresh one. mod.rs:29-46 -/
structure Aggregator (A X : Type) where
  create : A
  update : A → X → A

/-- `ValueMap<A>`. mod.rs:52-74. `trackers_for_collect` is empty between collections and not part of the state. -/
structure ValueMap (K V A : Type) where
  trackers : List (Attrs K V × Nat)
  heap : Nat → A
  next : Nat
  count : Nat
  hasNoAttributeValue : Bool
  noAttributeTracker : A

variable {A X : Type}

/-- `ValueMap::new`. mod.rs:80-90 -/
def ValueMap.new (agg : Aggregator A X) : ValueMap K V A := ⟨[], fun _ => agg.create, 0, 0, false, agg.create⟩

/-- `HashMap::get`. -/
def ValueMap.get (m : ValueMap K V A) (a : Attrs K V) : Option Nat := (m.trackers.find? fun e => e.1 = a).map Prod.snd

/-- `HashMap::insert`. -/
def insertTracker (l : List (Attrs K V × Nat)) (a : Attrs K V) (p : Nat) : List (Attrs K V × Nat) :=
  if l.any fun e => e.1 = a then l.map fun e => if e.1 = a then (a, p) else e else l ++ [(a, p)]

/-- `tracker.update(value)`. -/
def ValueMap.updateAt (agg : Aggregator A X) (m : ValueMap K V A) (p : Nat) (x : X) : ValueMap K V A :=
  { m with heap := fun q => if q = p then agg.update (m.heap q) x else m.heap q }

/-- The part of `measure` under the read lock; `none`: not found. mod.rs:110-125 -/
def ValueMap.measureRead (srt : Sorter K V) (agg : Aggregator A X) (m : ValueMap K V A) (x : X) (attrs : Attrs K V) :
    Option (ValueMap K V A) :=
  match m.get attrs with
  | some p => some (m.updateAt agg p x)
  | none => match m.get (sortAndDedup srt attrs) with
    | some p => some (m.updateAt agg p x)
    | none => none

/-- Allocate a tracker that has seen one value. -/
def ValueMap.alloc (agg : Aggregator A X) (m : ValueMap K V A) (x : X) : ValueMap K V A :=
  { m with heap := fun q => if q = m.next then agg.update agg.create x else m.heap q, next := m.next + 1 }

/-- The part of `measure` under the write lock. `ov` is `stream_overflow_attributes()`. mod.rs:130-155 -/
def ValueMap.measureWrite (srt : Sorter K V) (agg : Aggregator A X) (limit : Nat) (ov : Attrs K V) (m : ValueMap K V A) (x : X)
    (attrs : Attrs K V) : ValueMap K V A :=
  match m.get attrs with
  | some p => m.updateAt agg p x
  | none => match m.get (sortAndDedup srt attrs) with
    | some p => m.updateAt agg p x
    | none =>
      if m.count < limit then
        let m' := m.alloc agg x
        { m' with
          trackers := insertTracker (insertTracker m.trackers attrs m.next) (sortAndDedup srt attrs) m.next
          count := m.count + 1 }
      else match m.get ov with
        | some p => m.updateAt agg p x
        | none =>
          let m' := m.alloc agg x
          { m' with trackers := insertTracker m.trackers ov m.next }

/-- `measure`, run without interference. mod.rs:103-156 -/
def ValueMap.measure (srt : Sorter K V) (agg : Aggregator A X) (limit : Nat) (ov : Attrs K V) (m : ValueMap K V A) (x : X)
    (attrs : Attrs K V) : ValueMap K V A :=
  if attrs = [] then { m with noAttributeTracker := agg.update m.noAttributeTracker x, hasNoAttributeValue := true }
  else match m.measureRead srt agg x attrs with
    | some m' => m'
    | none => m.measureWrite srt agg limit ov x attrs

/-- The loop with the `seen` set of pointers. mod.rs:173-178, 202-207 -/
def firstOfEach (seen : List Nat) : List (Attrs K V × Nat) → List (Attrs K V × Nat)
  | [] => []
  | e :: l => if e.2 ∈ seen then firstOfEach seen l else e :: firstOfEach (e.2 :: seen) l

/-- The point without attributes. mod.rs:165-167, 188-193 -/
def ValueMap.noAttrPoint (m : ValueMap K V A) : List (Attrs K V × A) :=
  if m.hasNoAttributeValue then [([], m.noAttributeTracker)] else []

/-- `collect_readonly`; `it` is the order of iteration. mod.rs:160-179 -/
def ValueMap.collectReadonly (m : ValueMap K V A) (it : List (Attrs K V × Nat)) : List (Attrs K V × A) :=
  m.noAttrPoint ++ (firstOfEach [] it).map fun e => (e.1, m.heap e.2)

/-- `collect_and_reset`. mod.rs:183-213 -/
def ValueMap.collectAndReset (agg : Aggregator A X) (m : ValueMap K V A) (it : List (Attrs K V × Nat)) :
    List (Attrs K V × A) × ValueMap K V A :=
  (m.noAttrPoint ++ (firstOfEach [] it).map fun e => (e.1, m.heap e.2),
   { m with
     trackers := [], count := 0, hasNoAttributeValue := false
     noAttributeTracker := if m.hasNoAttributeValue then agg.create else m.noAttributeTracker })

/-- What happens to a value map: measurements, and collections with an iteration order. -/
inductive MapOp (K V X : Type) where
  | measure (x : X) (attrs : Attrs K V)
  | cumulative (it : List (Attrs K V × Nat))
  | delta (it : List (Attrs K V × Nat))

/-- One operation: the new state and what was reported. `none` if the iteration order is not a permutation of the map. -/
def MapOp.run (srt : Sorter K V) (agg : Aggregator A X) (limit : Nat) (ov : Attrs K V) (m : ValueMap K V A) :
    MapOp K V X → Option (ValueMap K V A × List (Attrs K V × A))
  | .measure x attrs => some (m.measure srt agg limit ov x attrs, [])
  | .cumulative it => if it.isPerm m.trackers then some (m, m.collectReadonly it) else none
  | .delta it => if it.isPerm m.trackers then some ((m.collectAndReset agg it).2, (m.collectAndReset agg it).1) else none

end Otel.Metrics
