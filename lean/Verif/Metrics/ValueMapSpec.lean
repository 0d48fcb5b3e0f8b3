import Verif.Metrics.ValueMap
/-!
# What a store of data points should report

A separate, small specification: from the list of measurements made since the last reset, say which data points there are and which
measurements each of them aggregates. It mentions no map, pointer, counter or lock.
-/

namespace Otel.Metrics

variable {K V : Type} [LinearOrder K] [DecidableEq V] {A X : Type}

/-- The measurements, oldest first. -/
abbrev Hist (K V X : Type) := List (X × Attrs K V)

/-- The distinct attribute sets measured, in the order of their first measurement. `c` gives the canonical form of a list of
attributes. -/
def setsOf (c : Attrs K V → Attrs K V) : Hist K V X → List (Attrs K V)
  | [] => []
  | (_, a) :: h => if a = [] then setsOf c h else c a :: (setsOf c h).filter fun b => b ≠ c a

/-- The sets that get a data point of their own: the first `limit` ones. -/
def admitted (c : Attrs K V → Attrs K V) (limit : Nat) (h : Hist K V X) : List (Attrs K V) := (setsOf c h).take limit

/-- The data point a measurement with attributes `a` belongs to. -/
def route (c : Attrs K V → Attrs K V) (limit : Nat) (ov : Attrs K V) (h : Hist K V X) (a : Attrs K V) : Attrs K V :=
  if a = [] then [] else if c a ∈ admitted c limit h then c a else ov

/-- The values a data point aggregates. -/
def valuesOf (c : Attrs K V → Attrs K V) (limit : Nat) (ov : Attrs K V) (h : Hist K V X) (s : Attrs K V) : List X :=
  (h.filter fun e => route c limit ov h e.2 = s).map Prod.fst

/-- A correct report. -/
structure Report (c : Attrs K V → Attrs K V) (agg : Aggregator A X) (limit : Nat) (ov : Attrs K V) (h : Hist K V X)
    (pts : List (Attrs K V × A)) : Prop where
  /-- no set is reported twice -/
  distinct : (pts.map fun p => c p.1).Nodup
  /-- each point aggregates exactly the measurements that belong to it, in order, and there is at least one -/
  values : ∀ p ∈ pts, valuesOf c limit ov h (c p.1) ≠ [] ∧ p.2 = (valuesOf c limit ov h (c p.1)).foldl agg.update agg.create
  /-- each measurement is in a reported point -/
  complete : ∀ e ∈ h, ∃ p ∈ pts, c p.1 = route c limit ov h e.2

/-- The measurements since the last reset. -/
def sinceReset : List (MapOp K V X) → Hist K V X → Hist K V X
  | [], h => h
  | .measure x a :: ops, h => sinceReset ops (h ++ [(x, a)])
  | .cumulative _ :: ops, h => sinceReset ops h
  | .delta _ :: ops, _ => sinceReset ops []

end Otel.Metrics
