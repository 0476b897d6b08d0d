import Verif.Model.Prim
import Verif.Model.Kruskal

/-!
# Model of the subproblem structure and of the two constrained minimum spanning tree functions

`data_structures/b_and_b_data.h`, `algorithms/branch_and_bound.c:503-643`.
-/
namespace Verif
set_option autoImplicit false

/-- `BBNodeType`, b_and_b_data.h:22-30. -/
inductive BBType where
  | opened | closedNN | closedNNHybrid | closedBound | closedUnfeasible | closed1Tree | closedSubgradient
deriving DecidableEq, Repr

/-- `ConstraintType`, b_and_b_data.h:34-38. -/
inductive CType where
  | nothing | mandatory | forbidden
deriving DecidableEq, Repr

/-- `SubProblem`, b_and_b_data.h:42-58, without `timeToReach` (only printed). A `ConstrainedEdge` is the pair of its fields
`src`, `dest`. The counters are unbounded naturals. -/
structure SubProblem where
  type : BBType
  id : Nat
  fatherId : Int
  value : ℚ
  treeLevel : Nat
  oneTree : MST
  numCycle : Nat
  prob : ℚ
  cycle : Nat → Nat × Nat
  numForbidden : Nat
  numMandatory : Nat
  edgeToBranch : Int
  mandatory : Nat → Nat × Nat
  cons : Nat → Nat → CType

/-- the test `num_forbidden_edges == 0 || constraints[u][v] != FORBIDDEN`, branch_and_bound.c:540 and 620 -/
def SubProblem.notForbidden (sp : SubProblem) (u v : Nat) : Bool :=
  decide (sp.numForbidden = 0) || decide (sp.cons u v ≠ .forbidden)

/-- body of the first loop of `constrained_prim`, branch_and_bound.c:579-584 -/
def cprimInit (s : PState) (i : Nat) : Res PState :=
  .ok { s with inHeap := upd s.inHeap i false, fathers := upd s.fathers i none }

/-- `values[i]`, branch_and_bound.c:582 -/
def cprimValue (i : Nat) : ℚ := if i = 0 then FLT_MAX / 2 else FLT_MAX

/-- body of the loop over the mandatory edges, branch_and_bound.c:586-597, on the copy of the graph; `pn` is
`problem->graph.num_nodes`. -/
def cprimMand (c : Cfg) (pn : Nat) (g : Graph) (sp : SubProblem) (cand : Nat) (copy : Graph) (i : Nat) : Res Graph :=
  if i ≥ c.maxV then .error .oob else
  let src := (sp.mandatory i).1
  let dest := (sp.mandatory i).2
  if src ≠ cand ∧ dest ≠ cand then
    if src ≥ c.maxV ∨ dest ≥ c.maxV ∨ (g.mat src dest).pos ≥ c.maxE then .error .oob else
    let w : ℚ := -(pn : ℚ)
    let m1 := upd2 copy.mat src dest { (copy.mat src dest) with weight := w }
    let m2 := upd2 m1 dest src { (m1 dest src) with weight := w }
    let p := (g.mat src dest).pos
    .ok { copy with mat := m2, edges := upd copy.edges p { (copy.edges p) with weight := w } }
  else .ok copy

/-- body of the insertion loop, branch_and_bound.c:600-605 -/
def cprimInsert (cand : Nat) (s : PState) (i : Nat) : Res PState :=
  if i ≠ cand then do
    let h ← Fib.createInsertNode s.heap i i (cprimValue i)
    pure { s with heap := h, inHeap := upd s.inHeap i true }
  else pure s

variable [Rounding]

/-- `constrained_prim`, branch_and_bound.c:565-643. `loc` is the memory of the local variables. -/
def constrainedPrim (c : Cfg) (pn : Nat) (g : Graph) (sp : SubProblem) (cand : Nat) (loc : PState) : Res SubProblem := do
  let t0 := createMst sp.oneTree g.nodes g.numNodes
  let s0 := { loc with heap := Fib.createHeap loc.heap }
  let s1 ← forList cprimInit (List.range g.numNodes) s0
  let copy ← forList (cprimMand c pn g sp cand) (List.range sp.numMandatory) g
  let s2 ← forList (cprimInsert cand) (List.range copy.numNodes) s1
  let s3 ← primLoop copy sp.notForbidden (copy.numNodes + 1) s2
  let t1 ← forList (addFather c g s3.fathers) (List.range g.numNodes) t0
  if (t1.numEdges : Int) = (g.numNodes : Int) - 2 then pure { sp with oneTree := { t1 with isValid := true } }
  else pure { sp with oneTree := { t1 with isValid := false } }

/-- body of the loop over the mandatory edges of `constrained_kruskal`, branch_and_bound.c:510-527 -/
def ckruskalMand (c : Cfg) (g : Graph) (sp : SubProblem) (cand : Nat) (s : KState) (i : Nat) : Res KState :=
  if i ≥ c.maxV then .error .oob else
  let src := (sp.mandatory i).1
  let dest := (sp.mandatory i).2
  if src ≥ c.maxV ∨ dest ≥ c.maxV then .error .oob else
  let e := g.mat src dest
  if e.src ≠ cand ∧ e.dest ≠ cand then joinEdge c (g.numNodes + 1) s e else pure s

/-- the sweep of `constrained_kruskal`, branch_and_bound.c:531-555; the first argument is fuel -/
def ckruskalLoop (c : Cfg) (g : Graph) (sp : SubProblem) (cand : Nat) : Nat → Nat → KState → Res KState
  | 0, _, _ => .error .fuel
  | fuel + 1, iG, s =>
    if iG < g.numEdges ∧ (s.inMST : Int) < (g.numNodes : Int) - 2 then do
      let e := g.edges iG
      let s' ← (if e.src ≠ cand ∧ e.dest ≠ cand then
          if sp.notForbidden e.src e.dest then joinEdge c (g.numNodes + 1) s e else pure s
        else pure s)
      ckruskalLoop c g sp cand fuel (iG + 1) s'
    else pure s

/-- `constrained_kruskal`, branch_and_bound.c:503-562. -/
def constrainedKruskal (c : Cfg) (cap : Nat) (g : Graph) (sp : SubProblem) (cand : Nat) : Res (Graph × SubProblem) := do
  let t0 := createMst sp.oneTree g.nodes g.numNodes
  let f0 := Mf.createForestConstrained g.numNodes cand
  let g1 ← Sort.wrapQuickSort c.hybrid cap g
  let s1 ← forList (ckruskalMand c g1 sp cand) (List.range sp.numMandatory) { forest := f0, tree := t0, inMST := 0 }
  let s2 ← ckruskalLoop c g1 sp cand (g1.numEdges + 1) 0 s1
  if (s2.inMST : Int) = (g1.numNodes : Int) - 2 then pure (g1, { sp with oneTree := { s2.tree with isValid := true } })
  else pure (g1, { sp with oneTree := { s2.tree with isValid := false } })

end Verif
