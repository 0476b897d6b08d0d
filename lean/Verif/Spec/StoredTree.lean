import Verif.Spec.TreeList
import Verif.Spec.Tour
import Verif.Model.SubProblem

/-!
# What it means for the tree structure to store a simple undirected graph, and for a cycle to be recorded
-/
namespace Verif.Spec
open Verif
set_option autoImplicit false

/-- the tree structure stores a simple undirected graph: node `i` is at index `i`, the neighbour lists are symmetric and list exactly the
neighbours along the tree's edges, and no edge is listed twice -/
structure StoredTree (t : MST) : Prop where
  pos : ∀ i < t.numNodes, (t.nodes i).pos = i
  nbr : ∀ u < t.numNodes, ∀ v, v ∈ (t.nodes u).list ↔ s(u, v) ∈ treeEdges t
  nodup : ∀ u < t.numNodes, (t.nodes u).list.Nodup
  within : ∀ u v, s(u, v) ∈ treeEdges t → u < t.numNodes ∧ v < t.numNodes ∧ u ≠ v
  count : t.numEdges = (treeEdges t).card

/-- the recorded cycle of the subproblem consists of the steps of the closed walk `w`, in this order -/
def RecordsCycle (sp : SubProblem) (w : List Nat) : Prop :=
  sp.numCycle = w.length ∧ (List.range sp.numCycle).map (fun i => s((sp.cycle i).1, (sp.cycle i).2)) = steps w

end Verif.Spec
