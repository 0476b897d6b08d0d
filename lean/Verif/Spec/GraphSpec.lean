import Verif.Spec.TreeList
import Verif.Spec.Order
import Mathlib.Data.Finset.Image
import Mathlib.Data.Sym.Sym2.Order

/-!
# What it means for the graph structure to store a simple weighted graph
-/
namespace Verif.Spec
open Verif
set_option autoImplicit false

/-- `u` and `v` are joined by one of the graph's edges -/
def Adj (g : Graph) (u v : Nat) : Prop := ∃ i < g.numEdges, Joins (g.edges i) u v

/-- the graph structure stores a simple weighted graph: end points are distinct nodes, no pair is joined twice, the
neighbour lists are duplicate-free and list exactly the adjacent nodes, and the matrix holds the edge of every
adjacent pair, in both orientations. -/
structure Stored (g : Graph) : Prop where
  ends : ∀ i < g.numEdges, (g.edges i).src < g.numNodes ∧ (g.edges i).dest < g.numNodes ∧ (g.edges i).src ≠ (g.edges i).dest
  simple : Simple g
  nodup : ∀ u < g.numNodes, (g.nodes u).list.Nodup
  nbr : ∀ u < g.numNodes, ∀ v, v ∈ (g.nodes u).list ↔ Adj g u v
  mat : ∀ i < g.numEdges, ∀ u v, Joins (g.edges i) u v → content (g.mat u v) = content (g.edges i)

/-- the set of edges, as unordered pairs -/
def edgeSet (g : Graph) : Finset (Sym2 Nat) := (Finset.range g.numEdges).image fun i => s((g.edges i).src, (g.edges i).dest)

/-- the weight of a pair of adjacent nodes -/
def weight (g : Graph) (e : Sym2 Nat) : ℚ := (g.mat e.inf e.sup).weight

/-- a list of edges that describes a simple graph on the nodes below `n` -/
def SimpleList (n : Nat) (L : List Edge) : Prop :=
  (∀ e ∈ L, e.src < n ∧ e.dest < n ∧ e.src ≠ e.dest) ∧ L.Pairwise (fun a b => s(a.src, a.dest) ≠ s(b.src, b.dest))

end Verif.Spec
