import Verif.Model.SubProblem

/-!
# Model of `dfs` and `check_hamiltonian`, `algorithms/branch_and_bound.c:18-85`

The stack is the sequence of nodes in the `List` the code uses (C01 relates the two: append at the bottom, read and delete at
index 0, insert at index 0 of a list). The `Node` of the start and the nodes pointed to are taken by value; the tree does not change
during the search.
-/
namespace Verif
set_option autoImplicit false

/-- the arrays and the stack of `dfs`, branch_and_bound.c:19-24; `none` is the parent `-1`. -/
structure DState where
  parent : Nat → Option Nat
  len : Nat → Nat
  visited : Nat → Bool
  stack : List Node

/-- the search for the start node, branch_and_bound.c:26-30: the last node with the wanted position -/
def findStart (t : MST) (p : Nat) : Option Node :=
  (List.range t.numNodes).foldl (fun r i => if (t.nodes i).pos = p then some (t.nodes i) else r) none

/-- body of the loop over the neighbours, branch_and_bound.c:43-58 -/
def dfsNbr (t : MST) (cur : Node) (s : DState) (dest : Nat) : Res DState :=
  if dest ≥ t.numNodes then .error .oob else
  if s.visited dest = false then
    .ok { s with
      len := upd s.len dest (s.len cur.pos + 1)
      parent := upd s.parent dest (some cur.pos)
      stack := t.nodes dest :: s.stack }
  else if s.parent dest = none then
    let path := s.len cur.pos + 1
    if path > 2 then .ok { s with parent := upd s.parent dest (some cur.pos), len := upd s.len dest path } else .ok s
  else .ok s

/-- one round of the main loop for the popped node, branch_and_bound.c:38-60 -/
def dfsStep (t : MST) (s : DState) (cur : Node) (rest : List Node) : Res DState :=
  if cur.pos ≥ t.numNodes then .error .oob else
  if s.visited cur.pos = false then
    forList (dfsNbr t cur) cur.list { s with stack := rest, visited := upd s.visited cur.pos true }
  else .ok { s with stack := rest }

/-- the main loop, branch_and_bound.c:37-61; the first argument is fuel -/
def dfsLoop (t : MST) (start : Nat) : Nat → DState → Res DState
  | 0, _ => .error .fuel
  | fuel + 1, s =>
    match s.stack with
    | [] => .ok s
    | cur :: rest =>
      if s.parent start = none then do
        let s' ← dfsStep t s cur rest
        dfsLoop t start fuel s'
      else .ok s

/-- the walk back along the parents, branch_and_bound.c:69-78; the first argument is fuel. A parent `-1` indexes the matrix
outside its bounds. -/
def walkCycle (c : Cfg) (g : Graph) (parent : Nat → Option Nat) (start : Nat) : Nat → Nat → SubProblem → Res SubProblem
  | 0, _, _ => .error .fuel
  | fuel + 1, dst, sp =>
    match parent dst with
    | none => .error .oob
    | some fr =>
      if sp.numCycle ≥ c.maxV then .error .oob else
      let e := g.mat fr dst
      let sp' := { sp with cycle := upd sp.cycle sp.numCycle (e.src, e.dest), numCycle := sp.numCycle + 1 }
      if fr = start then .ok sp' else walkCycle c g parent start fuel fr sp'

/-- `dfs`, branch_and_bound.c:18-80; `g` is `problem->graph`, `cand` is `problem->candidateNodeId`. -/
def dfs (c : Cfg) (g : Graph) (sp : SubProblem) (cand : Nat) : Res SubProblem :=
  let t := sp.oneTree
  match findStart t (g.nodes cand).pos with
  | none => .error .uninit
  | some start =>
    if start.pos ≥ t.numNodes then .error .oob else do
    let s ← dfsLoop t start.pos (((List.range t.numNodes).map fun i => (t.nodes i).nn).sum + 2)
      { parent := fun _ => none, len := fun _ => 0, visited := fun _ => false, stack := [start] }
    if s.len start.pos > 2 then walkCycle c g s.parent start.pos (t.numNodes + 1) start.pos sp else .ok sp

/-- `check_hamiltonian`, branch_and_bound.c:82-85: the updated subproblem and the answer -/
def checkHamiltonian (c : Cfg) (g : Graph) (sp : SubProblem) (cand : Nat) : Res (SubProblem × Bool) := do
  let sp' ← dfs c g sp cand
  pure (sp', decide (sp'.numCycle = sp'.oneTree.numEdges))

end Verif
