import Verif.Metrics.ValueMap
import Verif.Rust.F64
/-!
# The aggregations (`opentelemetry-sdk/src/metrics/internal/{last_value,histogram}.rs`)
-/

namespace Rust.F64

/-- `a <= b` -/
def le (a b : F64) : Bool := ge b a

/-- `a < b`: false if one is NaN. -/
def lt (a b : F64) : Bool := a ≠ nan && b ≠ nan && !(ge a b)

/-- `is_finite` -/
def isFinite : F64 → Bool
  | fin _ => true
  | _ => false

/-- `f64::MAX` -/
def MAX : F64 := fin ((2 ^ 53 - 1) * 2 ^ 971)

/-- `f64::MIN` -/
def MIN : F64 := fin (-((2 ^ 53 - 1) * 2 ^ 971))

end Rust.F64

namespace Otel.Metrics

open Rust

/-- `trait Number`: `i64`, `u64` or `f64`. mod.rs:258-320. `add` wraps or rounds, `toF` rounds. -/
structure NumOps (N : Type) where
  zero : N
  add : N → N → N
  lt : N → N → Bool
  /-- `T::max()` -/
  top : N
  /-- `T::min()` -/
  bot : N
  /-- `into_float` -/
  toF : N → F64

/-! ## Gauges -/

/-- `Assign<T>`. last_value.rs:13-42 -/
def assign (N : Type) (zero : N) : Aggregator N N := ⟨zero, fun _ x => x⟩

/-! ## Explicit bucket histograms -/

/-- `Buckets<T>`. histogram.rs:48-55. Counts are unbounded here; in Rust they are `u64`, so the model is exact for fewer than `2^64`
measurements. -/
structure Buckets (N : Type) where
  counts : List Nat
  count : Nat
  total : N
  min : N
  max : N

/-- `Buckets::new`. histogram.rs:57-67 -/
def Buckets.new {N : Type} (num : NumOps N) (n : Nat) : Buckets N := ⟨List.replicate n 0, 0, num.zero, num.top, num.bot⟩

/-- `update`. histogram.rs:25-38. `counts[index] += 1` panics if `index` is out of range; here nothing happens then, and
`bucket_index_lt` shows that this is not reached. -/
def Buckets.update {N : Type} (num : NumOps N) (b : Buckets N) (p : N × Nat) : Buckets N where
  total := num.add b.total p.1
  count := b.count + 1
  counts := b.counts.modify p.2 (· + 1)
  min := if num.lt p.1 b.min then p.1 else b.min
  max := if num.lt b.max p.1 then p.1 else b.max

/-- `impl Aggregator for Mutex<Buckets<T>>`. histogram.rs:17-46 -/
def bucketsAgg {N : Type} (num : NumOps N) (n : Nat) : Aggregator (Buckets N) (N × Nat) := ⟨Buckets.new num n, Buckets.update num⟩

/-- `slice::partition_point`: what the standard library documents. Nothing is known for slices that are not partitioned, but that the
result is at most the length. -/
structure PartitionPoint where
  pp : (F64 → Bool) → List F64 → Nat
  le_length : ∀ pred l, pp pred l ≤ l.length
  spec : ∀ pred l k, k ≤ l.length → (∀ x ∈ l.take k, pred x = true) → (∀ x ∈ l.drop k, pred x = false) → pp pred l = k

/-- The value passed to the store by `Histogram::call`. histogram.rs:217-231 -/
def histogramInput {N : Type} (num : NumOps N) (P : PartitionPoint) (bounds : List F64) (x : N) : N × Nat :=
  (x, P.pp (fun b => F64.lt b (num.toF x)) bounds)

/-- `validate_bucket_boundaries`. opentelemetry-sdk/src/metrics/meter.rs:564-584 -/
def validateBucketBoundaries (bounds : List F64) : Bool :=
  bounds.all (fun b => b.isFinite) && (bounds.zip bounds.tail).all fun p => !(F64.le p.2 p.1)

/-- `HistogramDataPoint`. opentelemetry-sdk/src/metrics/data/mod.rs -/
structure HistogramPoint (N : Type) where
  count : Nat
  bounds : List F64
  bucketCounts : List Nat
  sum : N
  min : Option N
  max : Option N

/-- The data point reported for a `Buckets`. histogram.rs:136-161, 191-216 -/
def histogramPoint {N : Type} (num : NumOps N) (bounds : List F64) (recordMinMax recordSum : Bool) (b : Buckets N) : HistogramPoint N where
  count := b.count
  bounds := bounds
  bucketCounts := b.counts
  sum := if recordSum then b.total else num.zero
  min := if recordMinMax then some b.min else none
  max := if recordMinMax then some b.max else none

end Otel.Metrics
