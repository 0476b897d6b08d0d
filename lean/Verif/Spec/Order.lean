import Verif.Model.Graph
import Mathlib.Data.Sym.Sym2

/-!
# Specification of the edge order and of the consistency of the two edge tables
-/
namespace Verif.Spec
open Verif
set_option autoImplicit false

/-- `a` may stand before `b`: smaller weight, or the same weight and (in hybrid mode) no smaller probability -/
def Before (hybrid : Bool) (a b : Edge) : Prop :=
  a.weight < b.weight ∨ (a.weight = b.weight ∧ (hybrid = true → b.prob ≤ a.prob))

/-- everything an edge records except its position in the edge array -/
def content (e : Edge) : Nat × Nat × Nat × ℚ × ℚ := (e.src, e.dest, e.symbol, e.weight, e.prob)

/-- no two of the first `num_edges` entries connect the same pair of nodes -/
def Simple (g : Graph) : Prop :=
  ∀ i < g.numEdges, ∀ j < g.numEdges, s((g.edges i).src, (g.edges i).dest) = s((g.edges j).src, (g.edges j).dest) → i = j

/-- every edge records its own index, and so do both matrix entries of its end points -/
def Positions (g : Graph) : Prop :=
  ∀ i < g.numEdges, (g.edges i).pos = i ∧ (g.mat (g.edges i).src (g.edges i).dest).pos = i ∧
    (g.mat (g.edges i).dest (g.edges i).src).pos = i

/-- the first `num_edges` entries of the edge array -/
def edgeList (g : Graph) : List Edge := (List.range g.numEdges).map g.edges

end Verif.Spec
