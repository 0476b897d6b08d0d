import Verif.Model.Branch
import Verif.Model.Dfs

/-!
# Model of `max_edge_path_1Tree` and `variable_fixing`, `algorithms/branch_and_bound.c:342-500`

`forbidEdge` and `requireEdge` (Model/Branch.lean) are the statements by which `branch` fixes an edge; `variable_fixing` has its own copies
of them, branch_and_bound.c:455-457 and 479-483, 488-492. The stack is the sequence of nodes in the `List` the code uses, as in the model of `dfs`.
-/
namespace Verif
set_option autoImplicit false

/-- the arrays and the stack of `max_edge_path_1Tree`, branch_and_bound.c:344-349; `none` is the parent `-1`. -/
structure PathState where
  parent : Nat → Option Nat
  visited : Nat → Bool
  stack : List Node

/-- body of the loop over the neighbours, branch_and_bound.c:367-374 -/
def pathNbr (t : MST) (cand : Nat) (cur : Node) (s : PathState) (dest : Nat) : Res PathState :=
  if dest ≥ t.numNodes then .error .oob else
  if s.visited dest = false ∧ cand ≠ dest then
    .ok { s with parent := upd s.parent dest (some cur.pos), stack := t.nodes dest :: s.stack }
  else .ok s

/-- one round of the search for the popped node, branch_and_bound.c:363-375 -/
def pathStep (t : MST) (cand : Nat) (s : PathState) (cur : Node) (rest : List Node) : Res PathState :=
  if cur.pos ≥ t.numNodes then .error .oob else
  if s.visited cur.pos = false then
    forList (pathNbr t cand cur) cur.list { s with stack := rest, visited := upd s.visited cur.pos true }
  else .ok { s with stack := rest }

/-- the search, branch_and_bound.c:362-376; the first argument is fuel -/
def pathLoop (t : MST) (cand stop : Nat) : Nat → PathState → Res PathState
  | 0, _ => .error .fuel
  | fuel + 1, s =>
    match s.stack with
    | [] => .ok s
    | cur :: rest =>
      if s.parent stop = none then do
        let s' ← pathStep t cand s cur rest
        pathLoop t cand stop fuel s'
      else .ok s

variable [Rounding]

/-- the walk back along the parents, branch_and_bound.c:382-414; the first argument is fuel, `w` is `edge_nin_1tree_weight`, the
result is (`max_edge_weight`, `replacement_costs`). A parent `-1` indexes the matrices outside their bounds. -/
def pathWalk (c : Cfg) (g : Graph) (sp : SubProblem) (parent : Nat → Option Nat) (start : Nat) (w : ℚ) :
    Nat → Nat → ℚ × (Nat → ℚ) → Res (ℚ × (Nat → ℚ))
  | 0, _, _ => .error .fuel
  | fuel + 1, dst, s =>
    match parent dst with
    | none => .error .oob
    | some fr =>
      if sp.oneTree.mat fr dst ≠ -1 then do
        let s' ← (if sp.cons fr dst = .nothing then
            let p := sp.oneTree.mat fr dst
            if p < 0 ∨ p ≥ c.maxV then .error .oob else
            let e := sp.oneTree.edges p.toNat
            let we := (g.mat e.src e.dest).weight
            if e.pos ≥ c.maxV - 2 then .error .oob else
            .ok (if we > s.1 then we else s.1, if w < fl (we + s.2 e.pos) then upd s.2 e.pos (fl (w - we)) else s.2)
          else .ok s)
        if fr = start then .ok s' else pathWalk c g sp parent start w fuel fr s'
      else .error .exit

/-- `max_edge_path_1Tree`, branch_and_bound.c:342-418: (the result, `replacement_costs`) -/
def maxEdgePath (c : Cfg) (g : Graph) (sp : SubProblem) (cand : Nat) (repl : Nat → ℚ) (start stop : Nat) : Res (ℚ × (Nat → ℚ)) :=
  let t := sp.oneTree
  match findStart t start with
  | none => .error .uninit
  | some node => do
    let s ← pathLoop t cand stop (((List.range t.numNodes).map fun i => (t.nodes i).nn).sum + 2)
      { parent := fun _ => none, visited := fun _ => false, stack := [node] }
    let r ← pathWalk c g sp s.parent start (g.mat start stop).weight (t.numNodes + 1) stop (-1, repl)
    pure (if r.1 = -1 then -INFINITE else r.1, r.2)

/-- the variables of `variable_fixing`, branch_and_bound.c:422-424 -/
structure FixState where
  sp : SubProblem
  num : Nat
  repl : Nat → ℚ
  candRepl : ℚ

/-- body of the loop over the graph's edges, branch_and_bound.c:431-468 -/
def fixForbid (c : Cfg) (p : Problem) (s : FixState) (i : Nat) : Res FixState :=
  let e := p.graph.edges i
  if s.sp.cons e.src e.dest = .nothing then do
    let s1 ← (if s.sp.oneTree.mat e.src e.dest = -1 then do
        let r ← (if e.dest ≠ p.cand ∧ e.src ≠ p.cand then maxEdgePath c p.graph s.sp p.cand s.repl e.src e.dest
          else if (s.sp.oneTree.nodes p.cand).nn < 2 then .error .uninit
          else
            let w1 := (p.graph.mat p.cand ((s.sp.oneTree.nodes p.cand).neigh 0)).weight
            let w2 := (p.graph.mat p.cand ((s.sp.oneTree.nodes p.cand).neigh 1)).weight
            .ok (if w1 > w2 then w1 else w2, s.repl))
        let s' := { s with repl := r.2 }
        if fl (fl (s'.sp.oneTree.cost + e.weight) - r.1) ≥ p.bestValue then
          pure { s' with sp := forbidEdge s'.sp e, num := s'.num + 1 }
        else pure s'
      else pure s)
    if e.src = p.cand ∨ e.dest = p.cand then
      if e.weight < s1.candRepl then pure { s1 with candRepl := e.weight } else pure s1
    else pure s1
  else pure s

/-- body of the loop over the edges of the 1-tree, branch_and_bound.c:473-496 -/
def fixMandatory (c : Cfg) (p : Problem) (s : FixState) (i : Nat) : Res FixState :=
  let e := s.sp.oneTree.edges i
  let w := (p.graph.mat e.src e.dest).weight
  if s.sp.cons e.src e.dest = .nothing then
    if e.src ≠ p.cand ∧ e.dest ≠ p.cand then
      if i ≥ c.maxV - 2 then .error .oob else
      if fl (fl (s.sp.oneTree.cost + s.repl i) - w) ≥ p.bestValue then do
        let sp ← requireEdge c s.sp e
        pure { s with sp := sp, num := s.num + 1 }
      else pure s
    else
      if fl (fl (s.sp.oneTree.cost + s.candRepl) - w) ≥ p.bestValue then do
        let sp ← requireEdge c s.sp e
        pure { s with sp := sp, num := s.num + 1 }
      else pure s
  else pure s

/-- `variable_fixing`, branch_and_bound.c:421-500: the subproblem and the number of edges fixed -/
def variableFixing (c : Cfg) (p : Problem) (sp : SubProblem) : Res (SubProblem × Nat) := do
  let s1 ← forList (fixForbid c p) (List.range p.graph.numEdges) { sp := sp, num := 0, repl := fun _ => INFINITE, candRepl := INFINITE }
  let s2 ← forList (fixMandatory c p) (List.range c.maxV) s1
  pure (s2.sp, s2.num)

end Verif
