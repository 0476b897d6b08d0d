import Verif.Spec.DirectedTour
import Verif.Spec.Tour
import Mathlib.Analysis.SpecialFunctions.Trigonometric.Inverse

/-!
# The geographical distance of the TSPLIB (`GEO`), and what a solver for a table of distances returns
-/
namespace Verif.Spec
set_option autoImplicit false

/-- the integer part (towards zero) of a coordinate: its degrees -/
def degrees (x : ℚ) : ℤ := if 0 ≤ x then ⌊x⌋ else ⌈x⌉

/-- the angle of a coordinate `DDD.MM` (degrees and minutes) -/
noncomputable def geoAngle (x : ℚ) : ℝ := Real.pi * ((degrees x : ℝ) + 5 * ((x : ℝ) - (degrees x : ℝ)) / 3) / 180

/-- the distance `GEO` of the TSPLIB, in kilometres: the first coordinate is the latitude, the second the longitude -/
noncomputable def geoDist (p q : ℚ × ℚ) : ℤ :=
  let q1 := Real.cos (geoAngle p.2 - geoAngle q.2)
  let q2 := Real.cos (geoAngle p.1 - geoAngle q.1)
  let q3 := Real.cos (geoAngle p.1 + geoAngle q.1)
  ⌊6378.388 * Real.arccos (1 / 2 * ((1 + q1) * q2 - (1 - q1) * q3)) + 1⌋

/-- the table of these distances -/
noncomputable def geoTable (xs : List (ℚ × ℚ)) (i j : Nat) : ℤ := geoDist (xs.getD i (0, 0)) (xs.getD j (0, 0))

/-- `t` is a shortest tour of `n` cities for the table `c` -/
structure Shortest {K : Type} [AddCommMonoid K] [LE K] (n : Nat) (c : Nat → Nat → K) (t : List Nat) : Prop where
  tour : IsTour n t
  least : ∀ t', IsTour n t' → legCost c t ≤ legCost c t'

/-- `dist` is the Euclidean distance wherever this is a rational number -/
def EuclidOn (dist : ℚ × ℚ → ℚ × ℚ → ℚ) : Prop := ∀ p q : ℚ × ℚ, ∀ r : ℚ, 0 ≤ r → r ^ 2 = (p.1 - q.1) ^ 2 + (p.2 - q.2) ^ 2 → dist p q = r

end Verif.Spec
