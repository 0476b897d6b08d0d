import Verif.Base

/-!
# Model of the graph, `data_structures/graph.h`, `data_structures/graph.c`

Arrays are total functions; the capacities `MAX_VERTEX_NUM`, `MAX_EDGES_NUM` are checked on writes whose index is a running
counter. The node and edge lists passed to `create_graph` are given by the sequences their iterators enumerate (C04
proves that the iterator enumerates exactly that sequence); freeing them is not repeated here (C01).
-/
namespace Verif
set_option autoImplicit false

/-- Build-time configuration: `MAX_VERTEX_NUM`, `HYBRID` (CMakeLists.txt) and the constants `EPSILON`, `EPSILON2`,
`BETTER_PROB`, `PROB_BRANCH` of problem_settings.h:57-96. -/
structure Cfg where
  maxV : Nat
  hybrid : Bool
  eps : ℚ
  eps2 : ℚ
  betterProb : ℚ
  probBranch : ℚ

/-- `MAX_EDGES_NUM`, problem_settings.h:49. -/
def Cfg.maxE (c : Cfg) : Nat := c.maxV * (c.maxV - 1) / 2

/-- `Node`, graph.h:31-37. -/
structure Node where
  x : ℚ
  y : ℚ
  pos : Nat
  nn : Nat
  neigh : Nat → Nat

/-- the neighbours stored in a node, in order -/
def Node.list (v : Node) : List Nat := (List.range v.nn).map v.neigh

/-- `Edge`, graph.h:41-48. -/
structure Edge where
  src : Nat
  dest : Nat
  symbol : Nat
  weight : ℚ
  prob : ℚ
  pos : Nat
deriving DecidableEq

/-- `Graph`, graph.h:52-61 (`kind` is never read and not modelled). -/
structure Graph where
  cost : ℚ
  numNodes : Nat
  numEdges : Nat
  ordered : Bool
  nodes : Nat → Node
  edges : Nat → Edge
  mat : Nat → Nat → Edge

/-- `a[i][j] = v` -/
def upd2 {α : Type} (f : Nat → Nat → α) (i j : Nat) (v : α) : Nat → Nat → α :=
  fun a b => if a = i ∧ b = j then v else f a b

theorem upd2_apply {α : Type} (f : Nat → Nat → α) (i j : Nat) (v : α) (a b : Nat) :
    upd2 f i j v a b = if a = i ∧ b = j then v else f a b := rfl

/-- `node.neighbours[node.num_neighbours] = v; node.num_neighbours++` -/
def Node.push (u : Node) (v : Nat) : Node := { u with neigh := upd u.neigh u.nn v, nn := u.nn + 1 }

/-- one round of the node loop of `create_graph`, graph.c:27-35 -/
def addNode (c : Cfg) (g : Graph) (p : ℚ × ℚ) : Res Graph :=
  if g.numNodes ≥ c.maxV then .error .oob else
  let k := g.numNodes
  .ok { g with
    nodes := upd g.nodes k { (g.nodes k) with pos := k, nn := 0, x := p.1, y := p.2 }
    numNodes := k + 1 }

variable [Rounding]

/-- one round of the edge loop of `create_graph`, graph.c:40-64 (`num_edges` and `numEdges` run in step) -/
def addGraphEdge (c : Cfg) (g : Graph) (e : Edge) : Res Graph :=
  let k := g.numEdges
  let src := e.src
  let dest := e.dest
  if k ≥ c.maxE ∨ src ≥ c.maxV ∨ dest ≥ c.maxV then .error .oob else
  let e' : Edge := { src := src, dest := dest, prob := e.prob, weight := e.weight, symbol := e.symbol, pos := k }
  let g1 := { g with edges := upd g.edges k e' }
  if (g1.nodes src).nn ≥ c.maxV - 1 then .error .oob else
  let g2 := { g1 with
    nodes := upd g1.nodes src ((g1.nodes src).push dest)
    mat := upd2 g1.mat src dest e'
    cost := fl (g1.cost + e.weight) }
  let g3 := { g2 with mat := upd2 g2.mat dest src (g2.mat src dest) }
  if (g3.nodes dest).nn ≥ c.maxV - 1 then .error .oob else
  .ok { g3 with
    nodes := upd g3.nodes dest ((g3.nodes dest).push src)
    numEdges := k + 1 }

/-- a `for` loop over a list -/
def forList {α β : Type} (f : β → α → Res β) : List α → β → Res β
  | [], b => .ok b
  | a :: l, b => do let b' ← f b a; forList f l b'

/-- `create_graph`, graph.c:18-68; `g` is the memory before the call. -/
def createGraph (c : Cfg) (g : Graph) (nodes : List (ℚ × ℚ)) (edges : List Edge) : Res Graph := do
  let g0 := { g with numEdges := 0, numNodes := 0, ordered := false, cost := 0 }
  let g1 ← forList (addNode c) nodes g0
  forList (addGraphEdge c) edges g1

/-- a node of the list given to `create_euclidean_graph`: `positionInGraph`, `x`, `y` -/
structure ListNode where
  pos : Nat
  x : ℚ
  y : ℚ

/-- inner loop of `create_euclidean_graph`, graph.c:79-92, over the remaining nodes; `dist` is the (rounded) Euclidean
distance, left uninterpreted; `acc` is the list of edges so far (its length is `z`, and the edges also occupy the local
array `edges[MAX_EDGES_NUM]`). -/
def euclInner (c : Cfg) (dist : ListNode → ListNode → ℚ) (src : ListNode) : List ListNode → List Edge → Res (List Edge)
  | [], acc => .ok acc
  | d :: rest, acc =>
    let z := acc.length
    if z ≥ c.maxE then .error .oob else
    euclInner c dist src rest
      (acc ++ [{ src := src.pos, dest := d.pos, symbol := z + 1, pos := z, prob := 0, weight := dist src d }])

/-- outer loop of `create_euclidean_graph`, graph.c:77-94: for the node at index `i`, the inner loop runs over the nodes at
indices `i+1, …`, i.e. the rest of the list. -/
def euclOuter (c : Cfg) (dist : ListNode → ListNode → ℚ) : List ListNode → List Edge → Res (List Edge)
  | [], acc => .ok acc
  | s :: rest, acc => do
    let acc' ← euclInner c dist s rest acc
    euclOuter c dist rest acc'

/-- `create_euclidean_graph`, graph.c:71-98. -/
def createEuclideanGraph (c : Cfg) (dist : ListNode → ListNode → ℚ) (g : Graph) (nodes : List ListNode) : Res Graph := do
  let edges ← euclOuter c dist nodes []
  createGraph c g (nodes.map fun v => (v.x, v.y)) edges

end Verif
