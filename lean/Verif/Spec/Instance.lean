import Verif.Model.Branch
import Verif.Spec.Matrix
import Verif.Spec.GraphSpec
import Verif.Spec.Constraints
import Verif.Spec.StoredTree
import Verif.Spec.MachineSum

/-!
# What the search works on: the problem data, solutions, and when the weights are small
-/
namespace Verif
open Verif.Spec
set_option autoImplicit false

/-- the problem data `branch_and_bound` is built for: a complete graph on `MAX_VERTEX_NUM` nodes with nonnegative weights -/
structure Spec.Instance (c : Cfg) (p : Problem) : Prop where
  stored : Stored p.graph
  positions : Positions p.graph
  nodes : p.graph.numNodes = c.maxV
  edges : p.graph.numEdges ≤ c.maxE
  three : 3 ≤ c.maxV
  cand : p.cand < c.maxV
  pos : ∀ i < c.maxV, (p.graph.nodes i).pos = i
  complete : ∀ u < c.maxV, ∀ v < c.maxV, u ≠ v → s(u, v) ∈ edgeSet p.graph
  nonneg : ∀ e ∈ edgeSet p.graph, 0 ≤ weight p.graph e
  small : ∀ e ∈ edgeSet p.graph, weight p.graph e < FLT_MAX

/-- `x` is the length of the tour `t`: the sum of the weights of its edges as the machine adds them up (in some order), which is the exact length when the arithmetic is exact -/
structure Spec.TourLength [Rounding] (w : Sym2 Nat → ℚ) (t : List Nat) (x : ℚ) : Prop where
  sum : AddsUp w (tourEdges t) x
  exact : Exact → x = tourCost w t

/-- the record of a solution: the edges of the 1-tree and the recorded cycle are those of a tour, and the value is its length -/
structure Spec.Solution [Rounding] (n : Nat) (w : Sym2 Nat → ℚ) (sp : SubProblem) (t : List Nat) : Prop where
  tour : IsTour n t
  value : TourLength w t sp.value
  cycle : RecordsCycle sp t
  tree : treeEdges sp.oneTree = tourEdges t

/-- weights that are small for the number of nodes: the best value, times the number of dual steps made below the root (`n/4 + 15`), is at most
`2 n²`, so the dual variables cannot push an edge below the weight `-n` that `constrained_prim` gives to mandatory edges; and no edge can be pushed up to `FLT_MAX`.
(Cities in the unit square meet the first condition from 14 nodes on: `Gentle.unit_square`.) -/
structure Spec.Gentle (c : Cfg) (p : Problem) : Prop where
  low : p.bestValue * ((c.maxV / 4 + 15 : Nat) : ℚ) ≤ 2 * (c.maxV : ℚ) * c.maxV
  high : ∀ e ∈ edgeSet p.graph, weight p.graph e + p.bestValue * (((c.maxV * c.maxV + 25) / 50 + c.maxV + 25 : Nat) : ℚ) / 2 < FLT_MAX

/-- the root has no mandatory edge -/
def Spec.RootFree (n : Nat) (cur : SubProblem) : Prop := cur.treeLevel = 1 → ∀ u < n, ∀ v < n, cur.cons u v ≠ .mandatory

/-- `cur.value` is a lower bound for the allowed tours that are shorter than the best value (below the root) -/
def Spec.ValidValue (c : Cfg) (p : Problem) (cur : SubProblem) : Prop :=
  cur.treeLevel ≠ 1 → ∀ t, AllowedBy c.maxV cur.cons t → tourCost (weight p.graph) t < p.bestValue → cur.value ≤ tourCost (weight p.graph) t

/-- the probability of a pair of adjacent nodes -/
def Spec.edgeProb (g : Graph) (e : Sym2 Nat) : ℚ := (g.mat e.inf e.sup).prob

/-- a tour built by always going to a nearest city not yet visited -/
def Spec.NearestFirst (n : Nat) (w : Sym2 Nat → ℚ) (t : List Nat) : Prop :=
  ∀ A a b B, t = A ++ a :: b :: B → ∀ v < n, v ∉ A → v ≠ a → w s(a, b) ≤ w s(a, v)

/-- `x` is the least total weight of a 1-tree with special node `cand` -/
def Spec.MinOneTree (n : Nat) (E : EdgeSet) (w : Sym2 Nat → ℚ) (cand : Nat) (x : ℚ) : Prop :=
  (∃ T, OneTree n cand E T ∧ total w T = x) ∧ ∀ T, OneTree n cand E T → x ≤ total w T

end Verif
