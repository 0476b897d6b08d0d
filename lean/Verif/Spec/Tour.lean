import Verif.Spec.Tree
import Mathlib.Data.List.Rotate
import Mathlib.Algebra.BigOperators.Group.List.Basic

/-!
# Tours (Hamiltonian cycles)
-/
namespace Verif.Spec
set_option autoImplicit false

/-- the cities `0 … n-1`, each visited exactly once -/
def IsTour (n : Nat) (t : List Nat) : Prop := t.Perm (List.range n)

/-- the steps of a tour: from each city to the next one, and from the last one back to the first -/
def steps (t : List Nat) : List (Sym2 Nat) := List.zipWith (fun a b => s(a, b)) t (t.rotate 1)

/-- the edges of a tour -/
def tourEdges (t : List Nat) : EdgeSet := (steps t).toFinset

/-- the length of a tour -/
def tourCost (w : Sym2 Nat → ℚ) (t : List Nat) : ℚ := ((steps t).map w).sum

/-- the tour uses only edges of `E`, all edges of `M` and no edge of `F` -/
def Allowed (E M F : EdgeSet) (t : List Nat) : Prop := tourEdges t ⊆ E ∧ M ⊆ tourEdges t ∧ ∀ e ∈ tourEdges t, e ∉ F

end Verif.Spec
