import Verif.Model.Mst
import Verif.Spec.Tree
import Mathlib.Algebra.BigOperators.Group.List.Basic

/-!
# What a list of added edges says about a tree
-/
namespace Verif.Spec
open Verif
set_option autoImplicit false

/-- the neighbours of `u` along the edges `L`, in order of addition -/
def nbrs (L : List Edge) (u : Nat) : List Nat :=
  L.flatMap fun e => (if e.src = u then [e.dest] else []) ++ (if e.dest = u then [e.src] else [])

/-- edge `e` joins `u` and `v` -/
def Joins (e : Edge) (u v : Nat) : Prop := (e.src = u ∧ e.dest = v) ∨ (e.src = v ∧ e.dest = u)

instance (e : Edge) (u v : Nat) : Decidable (Joins e u v) := by unfold Joins; infer_instance

/-- total weight of a list of edges -/
def totalWeight (L : List Edge) : ℚ := (L.map (·.weight)).sum

/-- total probability of a list of edges -/
def totalProb (L : List Edge) : ℚ := (L.map (·.prob)).sum

/-- the edges of a tree structure, as unordered pairs -/
def treeEdges (t : MST) : EdgeSet := (Finset.range t.numEdges).image fun i => s((t.edges i).src, (t.edges i).dest)

end Verif.Spec
