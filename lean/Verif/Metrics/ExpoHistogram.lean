import Mathlib.Data.Int.Log
import Verif.Metrics.Aggregations
/-!
# Exponential histograms (`opentelemetry-sdk/src/metrics/internal/exponential_histogram.rs`)

A finite float is a rational. `i32` values are integers; the subtractions that can leave the range of `i32` go through `sub32`, which
panics (`none`) with overflow checks and wraps without. Other `i32` arithmetic of the file stays in range for bins of floats.
The logarithm used for positive scales is a parameter (`Ln`): it stands for
`(exp << scale) + (frac.ln() * scale_factors()[scale]) as i32 - 1`, whose rounding is not modelled.
-/

namespace Otel.Metrics.Expo

/-- `EXPO_MAX_SCALE`. exponential_histogram.rs:16 -/
def maxScaleLimit : Int := 20
/-- `EXPO_MIN_SCALE`. exponential_histogram.rs:17 -/
def minScaleLimit : Int := -10

/-- Subtraction of `i32`: `chk` says whether overflow checks are on. -/
def sub32 (chk : Bool) (a b : Int) : Option Int :=
  if -2 ^ 31 ≤ a - b ∧ a - b < 2 ^ 31 then some (a - b) else if chk then none else some (Int.bmod (a - b) (2 ^ 32))

/-- `ExpoBuckets`. exponential_histogram.rs:233-236 -/
structure Buckets where
  startBin : Int
  counts : List Nat

/-- `ExpoBuckets::default()` -/
def Buckets.empty : Buckets := ⟨0, []⟩

/-- `ExpoBuckets::record`. A negative length, converted to `usize`, is too large to allocate: panic. exponential_histogram.rs:242-278 -/
def Buckets.record (chk : Bool) (b : Buckets) (bin : Int) : Option Buckets :=
  if b.counts = [] then some ⟨bin, [1]⟩
  else
    let endBin := b.startBin + b.counts.length - 1
    if b.startBin ≤ bin ∧ bin ≤ endBin then
      some { b with counts := b.counts.modify (bin - b.startBin).toNat (· + 1) }
    else if bin < b.startBin then
      match sub32 chk endBin bin with
      | none => none
      | some d => if d + 1 < 0 then none else some ⟨bin, (List.replicate (b.startBin - bin).toNat 0 ++ b.counts).set 0 1⟩
    else
      match sub32 chk bin b.startBin with
      | none => none
      | some d => if d < 0 then none else
          some { b with counts := (b.counts ++ List.replicate (d.toNat - b.counts.length + 1) 0).set d.toNat 1 }

/-- One iteration of the loop in `downscale`. exponential_histogram.rs:301-308 -/
def downscaleStep (steps offset : Nat) (counts : List Nat) (i : Nat) : List Nat :=
  let idx := i + offset
  if idx % steps = 0 then counts.set (idx / steps) (counts.getD i 0)
  else counts.set (idx / steps) (counts.getD (idx / steps) 0 + counts.getD i 0)

/-- `ExpoBuckets::downscale`. exponential_histogram.rs:283-313 -/
def Buckets.downscale (b : Buckets) (delta : Nat) : Buckets :=
  if b.counts.length ≤ 1 ∨ delta < 1 then { b with startBin := b.startBin >>> delta }
  else
    let steps : Nat := 2 ^ delta
    let offset := ((Int.tmod b.startBin steps + steps).tmod steps).toNat
    let counts := (List.range' 1 (b.counts.length - 1)).foldl (downscaleStep steps offset) b.counts
    let lastIdx := (b.counts.length - 1 + offset) / steps
    ⟨b.startBin >>> delta, counts.take (lastIdx + 1)⟩

/-- `frexp(v)` for `v > 0`: `v = frac * 2^exp` with `1/2 ≤ frac < 1`. exponential_histogram.rs:209-229; see `Metrics/Frexp.lean`. -/
def frexpExp (v : Rat) : Int := Int.log 2 v + 1

/-- The fraction. -/
def frexpFrac (v : Rat) : Rat := v / 2 ^ frexpExp v

/-- The bin for a positive scale. -/
abbrev Ln := Int → Rat → Int

/-- `get_bin`. exponential_histogram.rs:125-138 -/
def getBin (ln : Ln) (scale : Int) (v : Rat) : Int :=
  if scale ≤ 0 then
    let correction : Int := if frexpFrac v = 1 / 2 then 2 else 1
    (frexpExp v - correction) >>> (-scale).toNat
  else ln scale v

/-- The loop of `scale_change`. exponential_histogram.rs:157-166 -/
def scaleLoop (chk : Bool) (maxSize : Int) : Nat → Int → Int → Nat → Option Nat
  | 0, _, _, count => some count
  | fuel + 1, low, high, count =>
    match sub32 chk high low with
    | none => none
    | some d =>
      if d ≥ maxSize then
        if ((count + 1 : Nat) : Int) > maxScaleLimit - minScaleLimit then some (count + 1)
        else scaleLoop chk maxSize fuel (low >>> 1) (high >>> 1) (count + 1)
      else some count

/-- `scale_change`. The loop runs at most 31 times. exponential_histogram.rs:144-169 -/
def scaleChange (chk : Bool) (maxSize bin startBin : Int) (length : Nat) : Option Nat :=
  if length = 0 then some 0
  else if startBin ≥ bin then scaleLoop chk maxSize 31 bin (startBin + length - 1) 0
  else scaleLoop chk maxSize 31 startBin bin 0

/-- `ExpoHistogramDataPoint<T>`. exponential_histogram.rs:20-31 -/
structure Point (N : Type) where
  maxSize : Int
  count : Nat
  min : N
  max : N
  sum : N
  scale : Int
  pos : Buckets
  neg : Buckets
  zeroCount : Nat

/-- `ExpoHistogramDataPoint::new`. exponential_histogram.rs:34-46 -/
def Point.new {N : Type} (num : NumOps N) (maxSize maxScale : Int) : Point N :=
  ⟨maxSize, 0, num.top, num.bot, num.zero, maxScale, .empty, .empty, 0⟩

/-- The first lines of `record`. exponential_histogram.rs:54-62 -/
def Point.tally {N : Type} (num : NumOps N) (p : Point N) (v : N) : Point N :=
  { p with
    count := p.count + 1
    min := if num.lt v p.min then v else p.min
    max := if num.lt p.max v then v else p.max
    sum := num.add p.sum v }

/-- Rescale both sides. exponential_histogram.rs:110-112 -/
def Point.rescale {N : Type} (p : Point N) (delta : Nat) : Point N :=
  { p with scale := p.scale - delta, pos := p.pos.downscale delta, neg := p.neg.downscale delta }

/-- Put a value in its bucket. exponential_histogram.rs:117-121 -/
def Point.put {N : Type} (chk : Bool) (p : Point N) (negative : Bool) (bin : Int) : Option (Point N) :=
  if negative then (p.neg.record chk bin).map fun b => { p with neg := b }
  else (p.pos.record chk bin).map fun b => { p with pos := b }

/-- `record`; `fl` is `into_float` of a finite value. `none`: panic. exponential_histogram.rs:53-122 -/
def Point.record {N : Type} (num : NumOps N) (fl : N → Rat) (ln : Ln) (chk : Bool) (p : Point N) (v : N) : Option (Point N) :=
  let p1 := p.tally num v
  let absV := |fl v|
  if absV = 0 then some { p1 with zeroCount := p1.zeroCount + 1 }
  else
    let bin := getBin ln p1.scale absV
    let negative := num.lt v num.zero
    let bucket := if negative then p1.neg else p1.pos
    match scaleChange chk p1.maxSize bin bucket.startBin bucket.counts.length with
    | none => none
    | some delta =>
      if delta > 0 then
        if p1.scale - delta < minScaleLimit then some p1
        else
          let p2 := p1.rescale delta
          p2.put chk negative (getBin ln p2.scale absV)
      else p1.put chk negative bin

/-- Record a list of values. -/
def Point.run {N : Type} (num : NumOps N) (fl : N → Rat) (ln : Ln) (chk : Bool) (p : Point N) : List N → Option (Point N)
  | [] => some p
  | v :: vs => match p.record num fl ln chk v with
    | some p' => Point.run num fl ln chk p' vs
    | none => none

/-- `ExpoHistogram::call`: values whose float is not finite are ignored. exponential_histogram.rs:515-526 -/
def accepted {N : Type} (num : NumOps N) (v : N) : Bool := (num.toF v).isFinite

/-- The rational a finite float stands for. -/
def ratOf : Rust.F64 → Rat
  | .fin q => q
  | _ => 0

/-- The data point of one attribute set after the measurements `ms`: a new point, then one `call` per measurement.
exponential_histogram.rs:316-341, 513-530 -/
def observe {N : Type} (num : NumOps N) (ln : Ln) (chk : Bool) (maxSize maxScale : Int) (ms : List N) : Option (Point N) :=
  (Point.new num maxSize maxScale).run num (fun v => ratOf (num.toF v)) ln chk (ms.filter (accepted num))

end Otel.Metrics.Expo
