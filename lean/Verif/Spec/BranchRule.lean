import Verif.Model.Bound
import Verif.Spec.TreeList

/-!
# The rule for the branching edge, in words of 1-trees
-/
namespace Verif
open Verif.Spec
set_option autoImplicit false

/-- how often the edge occurs in these 1-trees, in tenths -/
def Spec.frequency (ts : List SubProblem) (e : Sym2 Nat) : ℚ := ((ts.filter fun a => decide (e ∈ treeEdges a.oneTree)).length : ℚ) / 10

/-- branching on edge `i` is preferred to branching on edge `j`: the frequency is closer to one half; in hybrid mode, if it is equally close, the probability is larger; if there is no difference, `i`
comes first -/
def Spec.Preferred (hybrid : Bool) (freq prob : Nat → ℚ) (i j : Nat) : Prop :=
  |freq i - 1 / 2| < |freq j - 1 / 2| ∨
  (|freq i - 1 / 2| = |freq j - 1 / 2| ∧ (if hybrid then prob j < prob i ∨ (prob j = prob i ∧ i ≤ j) else i ≤ j))

/-- the state of `bound` before its loop, branch_and_bound.c:661-677 -/
def Spec.boundStart (p : Problem) : BState :=
  { pi := fun _ => 0, v := fun _ => 0, vOld := fun _ => 0, totalPi := 0, bestLB := 0, t0 := 0, gen := [], first := true
    score := fun _ => 0, prob := { p with explored := p.explored + 1 } }

end Verif
