import Mathlib.Analysis.SpecialFunctions.Log.Base
import Verif.Metrics.ExpoHistogram
/-!
# What an exponential histogram means (OpenTelemetry metrics data model)

With scale `s` the base is `2^(2^(-s))` and the bucket at index `i` holds the magnitudes in `(base^i, base^(i+1)]`.
-/

namespace Otel.Metrics.Expo

/-- The magnitude `q` belongs to bucket `i` at scale `s`. -/
def InBucket (s i : Int) (q : Rat) : Prop :=
  (2 : ℝ) ^ ((i : ℝ) * (2 : ℝ) ^ (-s)) < (q : ℝ) ∧ (q : ℝ) ≤ (2 : ℝ) ^ (((i : ℝ) + 1) * (2 : ℝ) ^ (-s))

/-- The number reported for bucket `i`: `counts[i - offset]`, nothing outside the array. -/
def Buckets.at (b : Buckets) (i : Int) : Nat :=
  if b.startBin ≤ i then b.counts.getD (i - b.startBin).toNat 0 else 0

/-- The logarithm picks the right bucket at every positive scale. -/
def ExactLn (ln : Ln) : Prop := ∀ s q, 0 < s → s ≤ 20 → 0 < q → InBucket s (ln s q) q

/-- The magnitudes of nonzero doubles. -/
def InDoubleRange (q : Rat) : Prop := (2 : Rat) ^ (-1074 : Int) ≤ q ∧ q < 2 ^ (1024 : Int)

/-- The magnitudes of normal doubles. -/
def IsNormal (q : Rat) : Prop := (2 : Rat) ^ (-1022 : Int) ≤ q

open Classical in
/-- How many of the values in `vs` that satisfy `side` have their magnitude in bucket `i` at scale `s`. -/
noncomputable def tallyOf {N : Type} (fl : N → Rat) (side : Rat → Prop) (s i : Int) (vs : List N) : Nat :=
  (vs.filter fun v => side (fl v) ∧ InBucket s i |fl v|).length

end Otel.Metrics.Expo
