import Verif.Model.Graph

/-!
# Model of `data_structures/mst.c`
-/
namespace Verif
set_option autoImplicit false

/-- `MST`, mst.h:31-40. -/
structure MST where
  isValid : Bool
  cost : ℚ
  prob : ℚ
  numNodes : Nat
  numEdges : Nat
  nodes : Nat → Node
  edges : Nat → Edge
  mat : Nat → Nat → Int

/-- `create_mst`, mst.c:17-35; `t` is the memory before the call. -/
def createMst (t : MST) (nodes : Nat → Node) (n : Nat) : MST :=
  { isValid := false, cost := 0, prob := 0, numNodes := n, numEdges := 0
    nodes := fun i => if i < n then
        { (t.nodes i) with pos := (nodes i).pos, x := (nodes i).x, y := (nodes i).y, nn := 0 } else t.nodes i
    edges := t.edges
    mat := fun i j => if i < n ∧ j < n then -1 else t.mat i j }

variable [Rounding]

/-- `add_edge`, mst.c:38-67. -/
def addEdge (c : Cfg) (t : MST) (e : Edge) : Res MST :=
  let src := e.src
  let dest := e.dest
  let k := t.numEdges
  if k ≥ c.maxV ∨ src ≥ c.maxV ∨ dest ≥ c.maxV then .error .oob else
  let e' : Edge := { src := src, dest := dest, weight := e.weight, symbol := e.symbol, prob := e.prob, pos := k }
  if (t.nodes src).nn ≥ c.maxV - 1 then .error .oob else
  let t1 := { t with
    edges := upd t.edges k e'
    nodes := upd t.nodes src ((t.nodes src).push dest) }
  if (t1.nodes dest).nn ≥ c.maxV - 1 then .error .oob else
  let t2 := { t1 with
    nodes := upd t1.nodes dest ((t1.nodes dest).push src)
    mat := upd2 (upd2 t1.mat src dest k) dest src k
    numEdges := k + 1
    cost := fl (t1.cost + e.weight) }
  .ok (if c.hybrid then
      (if t2.numEdges = 1 then { t2 with prob := e.prob }
       else { t2 with prob := fl (fl (fl (t2.prob * fl ((t2.numEdges : ℚ) - 1)) + e.prob) / (t2.numEdges : ℚ)) })
    else t2)

end Verif
