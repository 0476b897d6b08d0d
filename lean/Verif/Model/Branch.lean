import Verif.Model.SubProblem

/-!
# Model of the constraint matrix functions, of `branch` and of the order of the open list

`algorithms/branch_and_bound.c:167-339, 646-654`, `data_structures/b_and_b_data.h:62-76`. The list of open subproblems is the
sequence it represents (C05); `branch` inserts at an index below the size or at the bottom.
-/
namespace Verif
set_option autoImplicit false

/-- `Problem`, b_and_b_data.h:62-76, without the clock readings. Counters are unbounded. -/
structure Problem where
  graph : Graph
  reform : Graph
  cand : Nat
  totLevels : Nat
  best : SubProblem
  bestValue : ℚ
  generated : Nat
  explored : Nat
  fixed : Nat
  interrupted : Bool

/-- the index pairs of the nested loops `for i < n, for j = i … n-1`, in order -/
def upperPairs (n : Nat) : List (Nat × Nat) := (List.range n).flatMap fun i => (List.range' i (n - i)).map fun j => (i, j)

/-- `constraints[i][j] = constraints[j][i] = x` -/
def setCons (cons : Nat → Nat → CType) (i j : Nat) (x : CType) : Nat → Nat → CType := upd2 (upd2 cons i j x) j i x

/-- loop body of `initialize_matrix`, branch_and_bound.c:173-180 -/
def initCell (sp : SubProblem) (p : Nat × Nat) : SubProblem :=
  if p.2 = p.1 then { sp with cons := upd2 sp.cons p.1 p.2 .forbidden }
  else { sp with cons := setCons sp.cons p.1 p.2 .nothing }

/-- `initialize_matrix`, branch_and_bound.c:167-183 -/
def initializeMatrix (c : Cfg) (sp : SubProblem) : SubProblem :=
  (upperPairs c.maxV).foldl initCell { sp with numMandatory := 0, numForbidden := 0 }

/-- `mandatoryEdges[num_mandatory_edges] = (u, v); num_mandatory_edges++`: a write at index `MAX_VERTEX_NUM` or more is a fault -/
def pushMandatory (c : Cfg) (sp : SubProblem) (u v : Nat) : Res SubProblem :=
  if sp.numMandatory ≥ c.maxV then .error (.oobAt .mandatoryEdges)
  else .ok { sp with mandatory := upd sp.mandatory sp.numMandatory (u, v), numMandatory := sp.numMandatory + 1 }

/-- body of the loop that forbids, branch_and_bound.c:208-213; the counter is `problem->num_fixed_edges` -/
def inferForbid (i : Nat) (s : SubProblem × Nat) (j : Nat) : Res (SubProblem × Nat) :=
  .ok ({ s.1 with cons := setCons s.1.cons i j .forbidden, numForbidden := s.1.numForbidden + 1 }, s.2 + 1)

/-- body of the loop that makes mandatory, branch_and_bound.c:219-226 -/
def inferMandatory (c : Cfg) (i : Nat) (s : SubProblem × Nat) (j : Nat) : Res (SubProblem × Nat) := do
  let sp ← pushMandatory c { s.1 with cons := setCons s.1.cons i j .mandatory } i j
  pure (sp, s.2 + 1)

/-- `nothing_nodes`, branch_and_bound.c:196-206 -/
def nothingNodes (n : Nat) (cons : Nat → Nat → CType) (i : Nat) : List Nat := (List.range n).filter fun j => cons i j = .nothing

/-- the number of entries of row `i` with the given constraint, branch_and_bound.c:196-206 -/
def rowCount (n : Nat) (cons : Nat → Nat → CType) (i : Nat) (x : CType) : Nat := ((List.range n).filter fun j => cons i j = x).length

/-- one round of the row loop of `infer_constraints`, branch_and_bound.c:191-229, with the loop condition `valid` -/
def inferRow (c : Cfg) (s : (SubProblem × Nat) × Bool) (i : Nat) : Res ((SubProblem × Nat) × Bool) :=
  if s.2 then
    let cons := s.1.1.cons
    let nothing := nothingNodes c.maxV cons i
    let mand := rowCount c.maxV cons i .mandatory
    let forb := rowCount c.maxV cons i .forbidden
    if mand = 2 then do
      let r ← forList (inferForbid i) nothing s.1
      pure (r, true)
    else if mand > 2 ∨ c.maxV - forb < 2 then pure (s.1, false)
    else if c.maxV - forb = 2 then
      if nothing.length + mand = 2 then do
        let r ← forList (inferMandatory c i) nothing s.1
        pure (r, true)
      else pure (s.1, true)
    else pure (s.1, true)
  else pure s

/-- `infer_constraints`, branch_and_bound.c:186-232: the subproblem, `num_fixed_edges` and the answer -/
def inferConstraints (c : Cfg) (sp : SubProblem) (fixed : Nat) : Res ((SubProblem × Nat) × Bool) :=
  forList (inferRow c) (List.range c.maxV) ((sp, fixed), true)

/-- loop body of `copy_constraints`, branch_and_bound.c:240-250 -/
def copyCell (c : Cfg) (other : SubProblem) (sp : SubProblem) (p : Nat × Nat) : Res SubProblem :=
  let sp1 := { sp with cons := upd2 (upd2 sp.cons p.1 p.2 (other.cons p.1 p.2)) p.2 p.1 (other.cons p.2 p.1) }
  if sp1.cons p.1 p.2 = .mandatory then pushMandatory c sp1 p.1 p.2
  else if sp1.cons p.1 p.2 = .forbidden then .ok { sp1 with numForbidden := sp1.numForbidden + 1 }
  else .ok sp1

/-- `copy_constraints`, branch_and_bound.c:235-253 -/
def copyConstraints (c : Cfg) (sp other : SubProblem) : Res SubProblem :=
  forList (copyCell c other) (upperPairs c.maxV) { sp with numMandatory := 0, numForbidden := 0 }

/-- the child requires the edge, branch_and_bound.c:282-286, 297-301, 306-310 -/
def requireEdge (c : Cfg) (sp : SubProblem) (e : Edge) : Res SubProblem :=
  pushMandatory c { sp with cons := setCons sp.cons e.src e.dest .mandatory } e.src e.dest

/-- the child forbids the edge, branch_and_bound.c:288-290, 293-295, 312-314 -/
def forbidEdge (sp : SubProblem) (e : Edge) : SubProblem :=
  { sp with cons := setCons sp.cons e.src e.dest .forbidden, numForbidden := sp.numForbidden + 1 }

/-- whether the child number `i` (0 or 1) requires the edge, branch_and_bound.c:278-316 -/
def childRequires (c : Cfg) (prob : ℚ) (i : Nat) : Bool :=
  if c.hybrid then (if prob ≥ c.probBranch then decide (i = 0) else !decide (i = 0)) else decide (i = 0)

/-- the child before inference, branch_and_bound.c:265-316; `mem` is the memory of the local variable `child`, `id` is
`problem->generatedBBNodes` after its increment. -/
def makeChild (c : Cfg) (mem cur : SubProblem) (e : Edge) (id i : Nat) : Res SubProblem := do
  let child0 := { mem with
    numCycle := 0, type := .opened, prob := cur.prob, id := id, fatherId := cur.id, value := cur.value
    treeLevel := cur.treeLevel + 1, edgeToBranch := -1 }
  let child ← copyConstraints c child0 cur
  if childRequires c e.prob i then requireEdge c child e else pure (forbidEdge child e)

variable [Rounding]

/-- `compare_subproblems(a, b)`, branch_and_bound.c:647-654 -/
def compareSub (c : Cfg) (a b : SubProblem) : Bool :=
  if c.hybrid then decide (fl (b.value - a.value) > c.eps ∨ (b.value > a.value ∧ fl (a.prob - b.prob) ≥ c.betterProb))
  else decide (fl (b.value - a.value) > c.eps)

/-- the search for the position and the insertion, branch_and_bound.c:319-336 -/
def insertOpen (c : Cfg) (child : SubProblem) (open' : List SubProblem) : List SubProblem :=
  match open'.findIdx? (fun o => compareSub c child o) with
  | none => open' ++ [child]
  | some j => open'.take j ++ child :: open'.drop j

/-- one round of the loop over the children, branch_and_bound.c:263-338; `mem i` is the memory of `child` before round `i` -/
def branchChild (c : Cfg) (mem : Nat → SubProblem) (cur : SubProblem) (e : Edge) (s : List SubProblem × Problem) (i : Nat) : Res (List SubProblem × Problem) := do
  let p := { s.2 with generated := s.2.generated + 1 }
  let child ← makeChild c (mem i) cur e p.generated i
  let r ← inferConstraints c child p.fixed
  let p' := { p with fixed := r.1.2 }
  if r.2 then pure (insertOpen c r.1.1 s.1, p') else pure (s.1, p')

/-- `branch`, branch_and_bound.c:256-339 -/
def branch (c : Cfg) (mem : Nat → SubProblem) (p : Problem) (open' : List SubProblem) (cur : SubProblem) : Res (List SubProblem × Problem) :=
  let p1 := if cur.treeLevel + 1 > p.totLevels then { p with totLevels := p.totLevels + 1 } else p
  if cur.edgeToBranch < 0 ∨ cur.edgeToBranch ≥ c.maxE then .error .oob else
  let e := p1.graph.edges cur.edgeToBranch.toNat
  forList (branchChild c mem cur e) [0, 1] (open', p1)

end Verif
