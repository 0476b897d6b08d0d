import Verif.Model.Mst
import Verif.Model.Mfset
import Verif.Model.Sort

/-!
# Model of `kruskal`, `algorithms/kruskal.c`
-/
namespace Verif
set_option autoImplicit false

/-- the state of Kruskal's loop: the merge-find forest, the tree and `num_edges_inMST` -/
structure KState where
  forest : Mf.Forest
  tree : MST
  inMST : Nat

variable [Rounding]

/-- body of Kruskal's loop, kruskal.c:145-153 (the same text is at branch_and_bound.c:517-524 and 543-550): `find` both
ends, and if the roots differ, `merge` the roots and `add_edge`. `k` bounds the recursion depth of `find`. -/
def joinEdge (c : Cfg) (k : Nat) (s : KState) (e : Edge) : Res KState := do
  let (r1, f1) ← Mf.find k s.forest e.src
  let (r2, f2) ← Mf.find k f1 e.dest
  let s1 ← deref (f2 r1)
  let s2 ← deref (f2 r2)
  if s1.num ≠ s2.num then
    let f3 ← Mf.merge k f2 r1 r2
    let t' ← addEdge c s.tree e
    pure { forest := f3, tree := t', inMST := s.inMST + 1 }
  else pure { s with forest := f2 }

/-- Kruskal's loop, kruskal.c:138-155; the first argument is fuel, `iG` is `num_edges_inG`. -/
def kruskalLoop (c : Cfg) (g : Graph) : Nat → Nat → KState → Res KState
  | 0, _, _ => .error .fuel
  | fuel + 1, iG, s =>
    if iG < g.numEdges ∧ (s.inMST : Int) < (g.numNodes : Int) - 1 then do
      let s' ← joinEdge c (g.numNodes + 1) s (g.edges iG)
      kruskalLoop c g fuel (iG + 1) s'
    else pure s

/-- `kruskal`, kruskal.c:131-159: sorts the graph's edges and fills the tree. `cap` is the number of readable cells of the
edge array (see `Model/Sort.lean`), `mem` the memory of the tree before the call. -/
def kruskal (c : Cfg) (cap : Nat) (g : Graph) (mem : MST) : Res (Graph × MST) := do
  let t0 := createMst mem g.nodes g.numNodes
  let f0 := Mf.createForest g.numNodes
  let g1 ← Sort.wrapQuickSort c.hybrid cap g
  let s ← kruskalLoop c g1 (g1.numEdges + 1) 0 { forest := f0, tree := t0, inMST := 0 }
  if (s.inMST : Int) = (g1.numNodes : Int) - 1 then pure (g1, { s.tree with isValid := true }) else pure (g1, s.tree)

end Verif
