import Verif.Model.Dll
import Verif.Model.Search

/-!
# The linked lists inside the search

`Model/Search.lean` and `Model/Dfs.lean` treat the list of open subproblems and the stack of `dfs` as sequences. Here are the same functions
on the cells themselves: every call of the list functions of `b_and_b_data.c`, `list_functions.c` that `branch`, `branch_and_bound` and `dfs` make,
in their order. Everything that does not touch a list is the function of the other files.
-/
namespace Verif
open Verif.Dll
set_option autoImplicit false

variable [Rounding]

/-! ## the remaining functions of b_and_b_data.c: the same text as list_iterator.c and list_functions.c with other names -/

/-- `create_SubProblemList_iterator`, b_and_b_data.c:158-167 (non-NULL list) -/
def spCreateIter {α : Type} (s : DList α) : Iter := { curr := s.head, index := 0 }

/-- `is_SubProblemList_iterator_valid`, b_and_b_data.c:169-171 -/
def spIterValid {α : Type} (s : DList α) (it : Iter) : Bool := it.index < getSize s

/-- `get_current_openSubProblemList_iterator_element`, b_and_b_data.c:173-175 -/
def spIterCurrent {α : Type} (s : DList α) (it : Iter) : Res (Option α) :=
  match it.curr with
  | none => pure none
  | some a => do
    let (_, c) ← rd s (some a)
    pure (some c.value)

/-- `list_openSubProblemList_next`, b_and_b_data.c:177-185 -/
def spIterNext {α : Type} (s : DList α) (it : Iter) : Res Iter :=
  if spIterValid s it then
    let it1 := { it with index := it.index + 1 }
    if spIterValid s it1 then do
      let (_, c) ← rd s it1.curr
      pure { it1 with curr := c.next }
    else pure it1
  else pure it

/-- `SubProblemList_iterator_get_next`, b_and_b_data.c:187-195 -/
def spIterGetNext {α : Type} (s : DList α) (it : Iter) : Res (Option α × Iter) :=
  if spIterValid s it then do
    let e ← spIterCurrent s it
    let it' ← spIterNext s it
    pure (e, it')
  else pure (none, it)

/-- `delete_SubProblemList`, b_and_b_data.c:23-36; the second argument is fuel, the third is `current` -/
def spDelete {α : Type} (s : DList α) : Nat → Option Nat → Res (DList α)
  | _, none => pure s
  | 0, some _ => .error .fuel
  | n + 1, some a => do
    let (_, c) ← rd s (some a)
    spDelete (free s a) n c.next

/-! ## branch_and_bound.c -/

/-- the loop `for (j = 0; j < openSubProblems->size && position == -1; j++)`, branch_and_bound.c:324-329: the position (`none` is `-1`);
the first argument is fuel. A NULL answer of the iterator would be dereferenced by `compare_subproblems`. -/
def findPosition (c : Cfg) (child : SubProblem) (s : DList SubProblem) : Nat → Nat → Iter → Res (Option Nat)
  | 0, _, _ => .error .fuel
  | fuel + 1, j, it =>
    if j < s.size then do
      let (o, it') ← spIterGetNext s it
      let o ← deref o
      if compareSub c child o then pure (some j) else findPosition c child s fuel (j + 1) it'
    else pure none

/-- branch_and_bound.c:319-336 -/
def insertOpenL (c : Cfg) (child : SubProblem) (s : DList SubProblem) : Res (DList SubProblem) := do
  let position ← findPosition c child s (s.size + 1) 0 (spCreateIter s)
  match position with
  | none => spAddBottom s child
  | some j => spAddIndex s child j

/-- one round of the loop over the children, branch_and_bound.c:263-338 -/
def branchChildL (c : Cfg) (mem : Nat → SubProblem) (cur : SubProblem) (e : Edge) (s : DList SubProblem × Problem) (i : Nat) :
    Res (DList SubProblem × Problem) := do
  let p := { s.2 with generated := s.2.generated + 1 }
  let child ← makeChild c (mem i) cur e p.generated i
  let r ← inferConstraints c child p.fixed
  let p' := { p with fixed := r.1.2 }
  if r.2 then do
    let s' ← insertOpenL c r.1.1 s.1
    pure (s', p')
  else pure (s.1, p')

/-- `branch`, branch_and_bound.c:256-339 -/
def branchL (c : Cfg) (mem : Nat → SubProblem) (p : Problem) (s : DList SubProblem) (cur : SubProblem) : Res (DList SubProblem × Problem) :=
  let p1 := if cur.treeLevel + 1 > p.totLevels then { p with totLevels := p.totLevels + 1 } else p
  if cur.edgeToBranch < 0 ∨ cur.edgeToBranch ≥ c.maxE then .error .oob else
  let e := p1.graph.edges cur.edgeToBranch.toNat
  forList (branchChildL c mem cur e) [0, 1] (s, p1)

/-- one round of the main loop, branch_and_bound.c:1048-1055: read and delete the element at index 0, bound it, branch -/
def bbRoundL (c : Cfg) (env : Env) (k : Nat) (p : Problem) (s : DList SubProblem) : Res (Problem × DList SubProblem) := do
  let o ← spGetIndex s 0
  let cur ← deref o
  let s1 ← spDeleteIndex s 0
  let (p1, cur1) ← bound c (env.loc k) p cur
  if cur1.type = .opened ∧ cur1.edgeToBranch ≠ -1 then do
    let (cur2, fixed) ← variableFixing c p1 cur1
    let (s2, p2) ← branchL c (env.child k) { p1 with fixed := p1.fixed + fixed } s1 cur2
    pure (p2, s2)
  else pure (p1, s1)

/-- the main loop, branch_and_bound.c:1047-1056 -/
def bbLoopL (c : Cfg) (env : Env) : Nat → Nat → Problem → DList SubProblem → Res (Problem × DList SubProblem × Nat)
  | 0, _, _, _ => .error .fuel
  | fuel + 1, k, p, s =>
    if s.size ≠ 0 then
      if env.clk k then .ok (p, s, k + 1)
      else do
        let (p', s') ← bbRoundL c env k p s
        bbLoopL c env fuel (k + 1) p' s'
    else .ok (p, s, k)

/-- `branch_and_bound`, branch_and_bound.c:1012-1065: the problem, the list when the loop ends and the cells that are left after
`delete_SubProblemList` -/
def branchAndBoundL (c : Cfg) (env : Env) (fuel : Nat) (p : Problem) : Res (Problem × DList SubProblem × DList SubProblem) :=
  if checkFeasibility p.graph then do
    let (p1, cand) ← findCandidate c env { p with bestValue := INFINITE }
    let s0 ← spAddBottom newList (bbRoot c env)
    let (p2, s, k) ← bbLoopL c env fuel 0 (bbStart p1 cand) s0
    let s' ← spDelete s s.size s.head
    pure (if env.clk k then { p2 with interrupted := true } else p2, s, s')
  else pure (p, newList, newList)

/-! ## dfs -/

/-- the arrays and the stack of `dfs`, branch_and_bound.c:19-24; the list holds pointers to nodes of the tree, which does not change meanwhile:
the node itself is kept -/
structure DStateL where
  parent : Nat → Option Nat
  len : Nat → Nat
  visited : Nat → Bool
  stack : DList Node

/-- body of the loop over the neighbours, branch_and_bound.c:43-58 -/
def dfsNbrL (t : MST) (cur : Node) (s : DStateL) (dest : Nat) : Res DStateL :=
  if dest ≥ t.numNodes then .error .oob else
  if s.visited dest = false then do
    let stack ← addIndex s.stack (t.nodes dest) 0
    pure { s with
      len := upd s.len dest (s.len cur.pos + 1)
      parent := upd s.parent dest (some cur.pos)
      stack := stack }
  else if s.parent dest = none then
    let path := s.len cur.pos + 1
    if path > 2 then .ok { s with parent := upd s.parent dest (some cur.pos), len := upd s.len dest path } else .ok s
  else .ok s

/-- one round of the main loop, branch_and_bound.c:38-60 -/
def dfsStepL (t : MST) (s : DStateL) : Res DStateL := do
  let o ← getIndex s.stack 0
  let stack ← deleteIndex s.stack 0
  let cur ← deref o
  if cur.pos ≥ t.numNodes then .error .oob else
  if s.visited cur.pos = false then
    forList (dfsNbrL t cur) cur.list { s with stack := stack, visited := upd s.visited cur.pos true }
  else .ok { s with stack := stack }

/-- the main loop, branch_and_bound.c:37-61; the first argument is fuel -/
def dfsLoopL (t : MST) (start : Nat) : Nat → DStateL → Res DStateL
  | 0, _ => .error .fuel
  | fuel + 1, s =>
    if s.stack.size > 0 then
      if s.parent start = none then do
        let s' ← dfsStepL t s
        dfsLoopL t start fuel s'
      else .ok s
    else .ok s

/-- `dfs`, branch_and_bound.c:18-80: the subproblem and the cells of the stack left after `del_list` -/
def dfsL (c : Cfg) (g : Graph) (sp : SubProblem) (cand : Nat) : Res (SubProblem × DList Node) :=
  let t := sp.oneTree
  match findStart t (g.nodes cand).pos with
  | none => .error .uninit
  | some start =>
    if start.pos ≥ t.numNodes then .error .oob else do
    let stack ← addBottom newList start
    let s ← dfsLoopL t start.pos (((List.range t.numNodes).map fun i => (t.nodes i).nn).sum + 2)
      { parent := fun _ => none, len := fun _ => 0, visited := fun _ => false, stack := stack }
    let left ← delList s.stack s.stack.size s.stack.head
    let sp' ← if s.len start.pos > 2 then walkCycle c g s.parent start.pos (t.numNodes + 1) start.pos sp else .ok sp
    pure (sp', left)

end Verif
