import Mathlib.Data.List.Rotate
import Mathlib.Algebra.BigOperators.Group.List.Basic

/-!
# Tours of a digraph, with the direction of travel
-/
namespace Verif.Spec
set_option autoImplicit false

/-- the cities `1 … n`, each visited exactly once -/
def IsTour1 (n : Nat) (t : List Nat) : Prop := t.Perm (List.range' 1 n)

/-- the legs of a tour: from each city to the next one, and from the last one back to the first -/
def legs (t : List Nat) : List (Nat × Nat) := List.zip t (t.rotate 1)

/-- the length of a tour for a matrix of costs (which need not be symmetric) -/
def legCost {K : Type} [AddCommMonoid K] (c : Nat → Nat → K) (t : List Nat) : K := ((legs t).map fun l => c l.1 l.2).sum

end Verif.Spec
