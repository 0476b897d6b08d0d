import Verif.Model.SubProblem

/-!
# Model of `mst_to_one_tree`, `algorithms/branch_and_bound.c:88-164`
-/
namespace Verif
set_option autoImplicit false

/-- the local variables of the scan of the candidate's neighbours, branch_and_bound.c:91-96. `others` is the list of the first
`num_others` entries of the array of that name. `bestEdgesWeight` is not kept here: it is written at the same index as
`bestEdgesPos` and not read before it is set again. -/
structure Scan where
  toAdd : Nat
  pos : Nat → Nat
  others : List Nat

/-- body of the scan, branch_and_bound.c:98-112; the first test is the second half of the loop condition. A write at index 2 of
the two-element arrays is a fault. -/
def scanSpoke (g : Graph) (sp : SubProblem) (src : Nat) (s : Scan) (dest : Nat) : Res Scan :=
  if s.toAdd ≤ 2 then
    if sp.numMandatory > 0 ∧ sp.cons src dest = .mandatory then
      if s.toAdd ≥ 2 then .error (.oobAt .bestEdges)
      else .ok { s with pos := upd s.pos s.toAdd (g.mat src dest).pos, toAdd := s.toAdd + 1 }
    else if sp.numForbidden = 0 ∨ sp.cons src dest = .nothing then
      .ok { s with others := s.others ++ [dest] }
    else .ok s
  else .ok s

/-- body of the loop for one missing edge, branch_and_bound.c:126-134: (`bestFoundPos`, `bestFoundWeight`) -/
def best1 (g : Graph) (src : Nat) (b : Int × ℚ) (dest : Nat) : Int × ℚ :=
  let e := g.mat src dest
  if b.2 > e.weight then ((e.pos : Int), e.weight) else b

/-- body of the loop for two missing edges, branch_and_bound.c:146-158: entries 0 and 1 of (`bestEdgesPos`, `bestEdgesWeight`) -/
def best2 (g : Graph) (src : Nat) (b : (Int × ℚ) × (Int × ℚ)) (dest : Nat) : (Int × ℚ) × (Int × ℚ) :=
  let e := g.mat src dest
  if b.1.2 > e.weight then (((e.pos : Int), e.weight), b.1)
  else if b.2.2 > e.weight then (b.1, ((e.pos : Int), e.weight))
  else b

variable [Rounding]

/-- `add_edge(&oneTree, &graph->edges[pos])` -/
def addAt (c : Cfg) (g : Graph) (t : MST) (pos : Int) : Res MST :=
  if pos < 0 then .error (.oobAt .minusOne) else if pos ≥ c.maxE then .error .oob else addEdge c t (g.edges pos.toNat)

/-- `mst_to_one_tree`, branch_and_bound.c:88-164; `cand` is `problem->candidateNodeId`. -/
def mstToOneTree (c : Cfg) (g : Graph) (sp : SubProblem) (cand : Nat) : Res (BBType × SubProblem) := do
  let src := (g.nodes cand).pos
  let s ← forList (scanSpoke g sp src) (g.nodes cand).list { toAdd := 0, pos := fun _ => 0, others := [] }
  if s.toAdd > 2 ∨ s.toAdd + s.others.length < 2 then
    pure (.closedUnfeasible, sp)
  else if s.toAdd = 2 then do
    let t1 ← addAt c g sp.oneTree (s.pos 0)
    let t2 ← addAt c g t1 (s.pos 1)
    pure (.opened, { sp with oneTree := t2 })
  else if s.toAdd = 1 then do
    let t1 ← addAt c g sp.oneTree (s.pos 0)
    let b := s.others.foldl (best1 g src) (-1, INFINITE)
    let t2 ← addAt c g t1 b.1
    pure (.opened, { sp with oneTree := t2 })
  else do
    let b := s.others.foldl (best2 g src) ((-1, INFINITE), (-1, INFINITE))
    let t1 ← addAt c g sp.oneTree b.1.1
    let t2 ← addAt c g t1 b.2.1
    pure (.opened, { sp with oneTree := t2 })

end Verif
