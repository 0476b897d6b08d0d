import Verif.Model.OneTree
import Verif.Model.Reweight
import Verif.Model.Fixing
import Mathlib.Algebra.Order.AbsoluteValue.Basic
import Mathlib.Algebra.Order.Group.Unbundled.Abs

/-!
# Model of `bound`, `algorithms/branch_and_bound.c:657-836`

`PRIM` is 1 (problem_settings.h:45), so the spanning trees come from `constrained_prim`. `used_graph` points to `problem->graph` in the first
iteration and to `problem->reformulationGraph` afterwards. The list of generated subproblems is the sequence it represents (C05). `clock()` only sets
`timeToReach`, which is not modelled. The literals 0.6, 0.4, 0.5 are the decimal fractions.
-/
namespace Verif
set_option autoImplicit false

/-- `max_iter`, branch_and_bound.c:667-669 with problem_settings.h:104, 108 (the casts to `int` truncate) -/
def maxIter (c : Cfg) (level : Nat) : Nat :=
  (if level = 1 then (c.maxV * c.maxV + 25) / 50 + c.maxV + 15 else c.maxV / 4 + 5) + 10

/-- the local variables of `bound` that live across iterations, branch_and_bound.c:663-677, and the problem. `t_0` is set before it is read. -/
structure BState where
  pi : Nat → ℚ
  v : Nat → ℚ
  vOld : Nat → ℚ
  totalPi : ℚ
  bestLB : ℚ
  t0 : ℚ
  gen : List SubProblem
  first : Bool
  score : Nat → ℚ
  prob : Problem

variable [Rounding]

/-- body of the loop over the edges of the 1-tree, branch_and_bound.c:711-720: (`value`, `prob_branch`); `count` is the test
`iter > max_iter - k`. Reading an edge that the tree does not have is a fault. -/
def sumEdge (c : Cfg) (g : Graph) (t : MST) (count : Bool) (s : ℚ × (Nat → ℚ)) (e : Nat) : Res (ℚ × (Nat → ℚ)) :=
  if e ≥ c.maxV then .error .oob else
  if e ≥ t.numEdges then .error .uninit else
  let m := g.mat (t.edges e).src (t.edges e).dest
  if count then
    if m.pos ≥ c.maxE then .error .oob
    else .ok (fl (s.1 + m.weight), upd s.2 m.pos (fl (fl (fl (s.2 m.pos * 10) + 1) / 10)))
  else .ok (fl (s.1 + m.weight), s.2)

/-- the step length `t`, branch_and_bound.c:763-767 -/
def stepLen (N iter : Nat) (t0 : ℚ) : ℚ :=
  fl (fl (fl (fl (((iter : ℚ) - 1) * fl (fl (2 * (N : ℚ) - 5) / fl (2 * ((N : ℚ) - 1)))) * t0) - fl (fl ((iter : ℚ) - 2) * t0)) +
    fl (fl (fl (t0 * fl ((iter : ℚ) - 1)) * fl ((iter : ℚ) - 2)) / fl (fl (2 * fl ((N : ℚ) - 1)) * fl ((N : ℚ) - 2))))

/-- body of the loop that moves the dual variables, branch_and_bound.c:771-777: (`pi`, `v_old`, `total_pi`) -/
def dualStep (v : Nat → ℚ) (t : ℚ) (s : (Nat → ℚ) × (Nat → ℚ) × ℚ) (j : Nat) : (Nat → ℚ) × (Nat → ℚ) × ℚ :=
  let pi := if v j ≠ 0 then upd s.1 j (fl (s.1 j + fl (fl (fl (fl (3 / 5) * t) * v j) + fl (fl (fl (2 / 5) * t) * s.2.1 j)))) else s.1
  (pi, upd s.2.1 j (v j), fl (s.2.2 + pi j))

/-- the update of the best value, branch_and_bound.c:722-734; `a` is `analyzedSubProblem` with its new value -/
def judge (c : Cfg) (iter : Nat) (p : Problem) (a : SubProblem) : Res (SubProblem × Problem) :=
  if fl (p.bestValue - a.value) ≤ c.eps then .ok ({ a with type := .closedBound }, p)
  else do
    let (a1, ham) ← checkHamiltonian c p.graph { a with numCycle := 0 } p.cand
    if ham then
      let a2 := { a1 with type := if iter = 1 then .closed1Tree else .closedSubgradient }
      pure (a2, { p with bestValue := a.value, best := a2 })
    else pure ({ a1 with type := .opened }, p)

/-- the end of an iteration, branch_and_bound.c:743-777; `p` is the problem after `judge` -/
def dualUpdate (c : Cfg) (N iter : Nat) (s : BState) (a : SubProblem) (p : Problem) (score : Nat → ℚ) : BState :=
  let lb := fl (a.oneTree.cost - fl (2 * s.totalPi))
  let better := decide (lb > s.bestLB) || s.first
  let bestLB := if better then lb else s.bestLB
  let t0 := if better then fl (bestLB / (2 * (c.maxV : ℚ))) else s.t0
  let v := fun i => if i < p.graph.numNodes then (((a.oneTree.nodes i).nn : ℚ) - 2) else s.v i
  let t := stepLen N iter t0
  let d := (List.range p.graph.numNodes).foldl (dualStep v t) (s.pi, s.vOld, 0)
  { pi := d.1, v := v, vOld := d.2.1, totalPi := d.2.2, bestLB := bestLB, t0 := t0, gen := s.gen ++ [a], first := false
    score := score, prob := { p with reform := p.graph } }

/-- one iteration, branch_and_bound.c:681-787: the new state, or the problem and the type with which `bound` returns -/
def boundIter (c : Cfg) (cur : SubProblem) (loc : PState) (N iter : Nat) (s : BState) : Res (BState ⊕ (Problem × BBType)) := do
  let used := if s.first then s.prob.graph else applyPi s.pi s.prob.graph.numEdges s.prob.reform
  let p := if s.first then s.prob else { s.prob with reform := used }
  let a1 ← constrainedPrim c p.graph.numNodes used cur p.cand loc
  if a1.oneTree.isValid then do
    let (type, a2) ← mstToOneTree c used a1 p.cand
    if type = .opened then do
      let (value, score) ← forList (sumEdge c p.graph a2.oneTree (decide (iter > N - 10))) (List.range p.graph.numNodes) (0, s.score)
      let (a3, p3) ← judge c iter p { a2 with prob := a2.oneTree.prob, type := type, value := value }
      if a3.type ≠ .opened ∧ (iter = 1 ∨ a3.type = .closedSubgradient) then pure (.inr (p3, a3.type))
      else pure (.inl (dualUpdate c N iter s a3 p3 score))
    else pure (.inr (p, .closedUnfeasible))
  else pure (.inr (p, .closedUnfeasible))

/-- the loop, branch_and_bound.c:679-789; the first argument is the number of iterations left. `loc iter` is the memory of the local variables of
`constrained_prim`. -/
def boundLoop (c : Cfg) (cur : SubProblem) (loc : Nat → PState) (N : Nat) : Nat → Nat → BState → Res (BState ⊕ (Problem × BBType))
  | 0, _, s => .ok (.inl s)
  | left + 1, iter, s => do
    match ← boundIter c cur (loc iter) N iter s with
    | .inl s' => boundLoop c cur loc N left (iter + 1) s'
    | .inr r => pure (.inr r)

/-- body of the loop over the generated subproblems, branch_and_bound.c:795-801 -/
def pickBest (lb : ℚ) (best x : SubProblem) : SubProblem := if x.value > best.value ∧ x.value ≤ lb then x else best

/-- body of the search for the branching edge, branch_and_bound.c:812-830: (`best_prob_branch`, `best_prob`, `edge_to_branch`) -/
def pickEdge (c : Cfg) (g : Graph) (cur best : SubProblem) (score : Nat → ℚ) (s : ℚ × ℚ × Int) (i : Nat) : ℚ × ℚ × Int :=
  let e := g.edges i
  if cur.cons e.src e.dest = .nothing ∧ best.oneTree.mat e.src e.dest ≠ -1 ∧
      (|fl (score i - 1 / 2)| < |fl (s.1 - 1 / 2)| ∨ (c.hybrid = true ∧ |fl (score i - 1 / 2)| = |fl (s.1 - 1 / 2)| ∧ e.prob > s.2.1)) then
    (score i, e.prob, (i : Int))
  else s

/-- `bound`, branch_and_bound.c:657-836: the problem and the subproblem -/
def bound (c : Cfg) (loc : Nat → PState) (p : Problem) (cur : SubProblem) : Res (Problem × SubProblem) :=
  if fl (p.best.value - cur.value) > c.eps ∨ cur.treeLevel = 1 then do
    let N := maxIter c cur.treeLevel
    let s0 : BState := { pi := fun _ => 0, v := fun _ => 0, vOld := fun _ => 0, totalPi := 0, bestLB := 0, t0 := 0, gen := [], first := true
                         score := fun _ => 0, prob := { p with explored := p.explored + 1 } }
    match ← boundLoop c cur loc N N 1 s0 with
    | .inr (p1, type) => pure (p1, { cur with type := type })
    | .inl s =>
      match s.gen with
      | [] => .error .null
      | a :: _ =>
        let cur1 := { a with oneTree := { a.oneTree with cost := a.value } }
        let best := s.gen.foldl (pickBest s.bestLB) cur1
        let cur2 := { cur1 with type := best.type, value := best.value }
        if cur2.type = .opened then
          let r := (List.range s.prob.graph.numEdges).foldl (pickEdge c s.prob.graph cur2 best s.score) (-1, -1, cur2.edgeToBranch)
          pure (s.prob, { cur2 with edgeToBranch := r.2.2 })
        else pure (s.prob, cur2)
  else pure (p, { cur with type := .closedBound })

end Verif
