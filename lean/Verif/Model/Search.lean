import Verif.Model.Bound

/-!
# Model of the search, `algorithms/branch_and_bound.c:839-1065`

The clock is an arbitrary function: the `k`-th call of `time_limit_reached` in the main loop answers `clk k`. The contents of the memory of local
variables before they are set are arbitrary too. The list of open subproblems is the sequence it represents (C05). `timeToReach`, `start`, `end` and
the output are not modelled. Loop counters are unbounded (`check_feasibility` counts in a `short`, so more than 32767 nodes are outside the model).
-/
namespace Verif
set_option autoImplicit false

/-- one round of the search for the best neighbour, branch_and_bound.c:867-876 (`prob = false`) and 911-920 (`prob = true`):
(`best_edge_value` or `best_edge_prob`, `best_neighbour`); `v` is `neighbours[i]` -/
def nnPick (c : Cfg) (prob : Bool) (g : Graph) (cur : Nat) (visited : Nat → Bool) (s : ℚ × Nat) (v : Nat) : Res (ℚ × Nat) :=
  if v ≥ c.maxV then .error .oob else
  let e := g.mat cur v
  if prob then (if e.prob > s.1 ∧ visited v = false then .ok (e.prob, v) else .ok s)
  else (if e.weight < s.1 ∧ visited v = false then .ok (e.weight, v) else .ok s)

/-- the local variables of the loop: the subproblem, `current_node` and `visited` -/
structure NNState where
  sp : SubProblem
  cur : Nat
  visited : Nat → Bool

variable [Rounding]

/-- `add_edge(&sp.oneTree, &edges_matrix[u][v])` and the record of the cycle edge, branch_and_bound.c:859-863, 877-881 -/
def nnAdd (c : Cfg) (g : Graph) (sp : SubProblem) (u v : Nat) : Res SubProblem := do
  let t ← addEdge c sp.oneTree (g.mat u v)
  if sp.numCycle ≥ c.maxV then .error .oob
  else pure { sp with oneTree := t, cycle := upd sp.cycle sp.numCycle (u, v), numCycle := sp.numCycle + 1 }

/-- one round of the tour loop, branch_and_bound.c:856-885 and 900-929; `k` is `visited_count` -/
def nnStep (c : Cfg) (prob : Bool) (g : Graph) (start : Nat) (s : NNState) (k : Nat) : Res NNState :=
  if s.cur ≥ c.maxV then .error .oob else
  if k + 1 = g.numNodes then do
    let sp ← nnAdd c g s.sp s.cur start
    pure { s with sp := sp }
  else do
    let r ← forList (nnPick c prob g s.cur s.visited) (g.nodes s.cur).list (if prob then -1 else INFINITE, s.cur)
    let sp ← nnAdd c g s.sp s.cur r.2
    pure { sp := sp, cur := r.2, visited := upd s.visited s.cur true }

/-- the tour built by one of the two loops of `nearest_prob_neighbour`, branch_and_bound.c:845-889 and 893-933; `mem` is the memory of the local variable -/
def nnTour (c : Cfg) (prob : Bool) (mem : SubProblem) (g : Graph) (start : Nat) : Res SubProblem := do
  let sp0 := { mem with numForbidden := 0, numMandatory := 0, numCycle := 0, oneTree := createMst mem.oneTree g.nodes g.numNodes }
  let s ← forList (nnStep c prob g start) (List.range g.numNodes) { sp := sp0, cur := start, visited := fun _ => false }
  let sp := { s.sp with value := s.sp.oneTree.cost, oneTree := { s.sp.oneTree with isValid := true } }
  pure { sp with type := if prob then .closedNNHybrid else .closedNN, prob := sp.oneTree.prob }

/-- `nearest_prob_neighbour`, branch_and_bound.c:844-947 -/
def nearestNeighbour (c : Cfg) (mem pmem : SubProblem) (p : Problem) (start : Nat) : Res Problem := do
  let nn ← nnTour c false mem p.graph start
  if c.hybrid then do
    let pnn ← nnTour c true pmem p.graph start
    let best := if pnn.value < nn.value then pnn else nn
    pure (if best.value < p.bestValue then { p with bestValue := best.value, best := best } else p)
  else pure (if nn.value < p.bestValue then { p with bestValue := nn.value, best := nn } else p)

/-- `compare_candidate_node(a, b)`, branch_and_bound.c:951-959; the arguments are (`value`, `prob`) -/
def compareCandidate (c : Cfg) (a b : ℚ × ℚ) : Bool :=
  if c.hybrid then decide (fl (a.1 - b.1) > c.eps ∨ (a.1 > b.1 ∧ fl (a.2 - b.2) ≥ c.betterProb))
  else decide (fl (a.1 - b.1) ≥ c.eps)

/-- everything the run does not determine: the contents of uninitialised memory and the clock -/
structure Env where
  nn : Nat → SubProblem
  pnn : Nat → SubProblem
  cand : Nat → SubProblem
  candLoc : Nat → PState
  root : SubProblem
  child : Nat → Nat → SubProblem
  loc : Nat → Nat → PState
  clk : Nat → Bool

/-- one round of `find_candidate_node`, branch_and_bound.c:969-992: (the problem, `best_candidate`, value and probability of `best_subProblem`) -/
def candStep (c : Cfg) (env : Env) (s : Problem × Nat × ℚ × ℚ) (i : Nat) : Res (Problem × Nat × ℚ × ℚ) := do
  let p ← nearestNeighbour c (env.nn i) (env.pnn i) { s.1 with cand := i } i
  let sp1 ← constrainedPrim c p.graph.numNodes p.graph { env.cand i with numForbidden := 0, numMandatory := 0 } i (env.candLoc i)
  let r ← mstToOneTree c p.graph sp1 p.cand
  let a := (r.2.oneTree.cost, r.2.oneTree.prob)
  if compareCandidate c a s.2.2 then pure (p, i, a) else pure (p, s.2)

/-- `find_candidate_node`, branch_and_bound.c:962-994: the problem and the answer -/
def findCandidate (c : Cfg) (env : Env) (p : Problem) : Res (Problem × Nat) := do
  let s ← forList (candStep c env) (List.range p.graph.numNodes) (p, 0, 0, 0)
  pure (s.1, s.2.1)

/-- `check_feasibility`, branch_and_bound.c:997-1009 -/
def checkFeasibility (g : Graph) : Bool := (List.range g.numNodes).all fun i => !decide ((g.nodes i).nn < 2)

/-- one round of the main loop, branch_and_bound.c:1048-1055; `k` numbers the rounds -/
def bbRound (c : Cfg) (env : Env) (k : Nat) (p : Problem) (cur : SubProblem) (rest : List SubProblem) : Res (Problem × List SubProblem) := do
  let (p1, cur1) ← bound c (env.loc k) p cur
  if cur1.type = .opened ∧ cur1.edgeToBranch ≠ -1 then do
    let (cur2, fixed) ← variableFixing c p1 cur1
    let (open2, p2) ← branch c (env.child k) { p1 with fixed := p1.fixed + fixed } rest cur2
    pure (p2, open2)
  else pure (p1, rest)

/-- the main loop, branch_and_bound.c:1047-1056: the problem, the open list and the number of calls of `time_limit_reached` so far -/
def bbLoop (c : Cfg) (env : Env) : Nat → Nat → Problem → List SubProblem → Res (Problem × List SubProblem × Nat)
  | 0, _, _, _ => .error .fuel
  | _ + 1, k, p, [] => .ok (p, [], k)
  | fuel + 1, k, p, cur :: rest =>
    if env.clk k then .ok (p, cur :: rest, k + 1)
    else do
      let (p', open') ← bbRound c env k p cur rest
      bbLoop c env fuel (k + 1) p' open'

/-- the problem when the main loop starts, branch_and_bound.c:1018-1030 -/
def bbStart (p : Problem) (cand : Nat) : Problem :=
  { p with cand := cand, best := { p.best with id := 0, treeLevel := 0, fatherId := -1 }, explored := 0, generated := 1, totLevels := 1
           interrupted := false, reform := p.graph, fixed := 0 }

/-- the first subproblem, branch_and_bound.c:1032-1041 -/
def bbRoot (c : Cfg) (env : Env) : SubProblem :=
  initializeMatrix c { env.root with treeLevel := 1, id := 1, fatherId := 0, type := .opened, prob := 0, value := INFINITE, numCycle := 0, edgeToBranch := -1 }

/-- `branch_and_bound`, branch_and_bound.c:1012-1065: the problem and the open list when the loop ends -/
def branchAndBound (c : Cfg) (env : Env) (fuel : Nat) (p : Problem) : Res (Problem × List SubProblem) :=
  if checkFeasibility p.graph then do
    let (p1, cand) ← findCandidate c env { p with bestValue := INFINITE }
    let (p2, open', k) ← bbLoop c env fuel 0 (bbStart p1 cand) [bbRoot c env]
    pure (if env.clk k then { p2 with interrupted := true } else p2, open')
  else pure (p, [])

end Verif
