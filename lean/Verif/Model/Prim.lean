import Verif.Model.Mst
import Verif.Model.FibHeap

/-!
# Model of `prim`, `algorithms/prim.c`

The main loops of `prim` and of `constrained_prim` (branch_and_bound.c:606-627) are the same text except for the test of
the constraint matrix; they are modelled once, with that test as the parameter `allow` (constantly true for `prim`).
`tree_nodes[i]` is the heap node with address `i`; `fathers[i] == -1` is `none`.
-/
namespace Verif
set_option autoImplicit false

/-- local variables of `prim`: the heap with `tree_nodes`, `in_heap`, `fathers` -/
structure PState where
  heap : Fib.Heap
  inHeap : Nat → Bool
  fathers : Nat → Option Nat

/-- body of the neighbour loop, prim.c:46-53 and branch_and_bound.c:615-624, for the neighbour `v` of `u`;
`in_heap` has `num_nodes` entries. -/
def relax (g : Graph) (allow : Nat → Nat → Bool) (u : Nat) (s : PState) (v : Nat) : Res PState :=
  if v ≠ u then
    if v ≥ g.numNodes then .error .oob else
    if s.inHeap v then
      let w := (g.mat u v).weight
      if w < s.heap.value v then
        if allow u v then do
          let s1 := { s with fathers := upd s.fathers v (some u) }
          let h ← Fib.decreaseValue s1.heap v w
          pure { s1 with heap := h }
        else pure s
      else pure s
    else pure s
  else pure s

/-- main loop, prim.c:37-56 and branch_and_bound.c:606-627; the first argument is fuel -/
def primLoop (g : Graph) (allow : Nat → Nat → Bool) : Nat → PState → Res PState
  | 0, _ => .error .fuel
  | fuel + 1, s =>
    if s.heap.numNodes ≠ 0 then do
      let (r, h) ← Fib.extractMin s.heap
      match r with
      | none => .error .exit
      | some u =>
        if u ≥ g.numNodes then .error .oob else
        let s1 := { s with heap := h, inHeap := upd s.inHeap u false }
        let s2 ← forList (relax g allow u) (g.nodes u).list s1
        primLoop g allow fuel s2
    else pure s

variable [Rounding]

/-- final loop, prim.c:58-62 and branch_and_bound.c:629-633, for node `i` -/
def addFather (c : Cfg) (g : Graph) (fathers : Nat → Option Nat) (t : MST) (i : Nat) : Res MST :=
  match fathers i with
  | none => pure t
  | some p => addEdge c t (g.mat i p)

/-- first loop of `prim`, prim.c:26-35, for node `i`; `start` holds at the first node -/
def primInsert (s : PState × Bool) (i : Nat) : Res (PState × Bool) := do
  let (s, start) := s
  let h ← Fib.createInsertNode s.heap i i (if start then 0 else DBL_MAX)
  pure ({ s with heap := h, inHeap := upd s.inHeap i true, fathers := upd s.fathers i none }, false)

/-- `prim`, prim.c:16-71. `mem` is the memory of the tree, `loc` that of the local variables before the call. -/
def prim (c : Cfg) (g : Graph) (mem : MST) (loc : PState) : Res MST := do
  let t0 := createMst mem g.nodes g.numNodes
  let s0 := { loc with heap := Fib.createHeap loc.heap }
  let (s1, _) ← forList primInsert (List.range g.numNodes) (s0, true)
  let s2 ← primLoop g (fun _ _ => true) (g.numNodes + 1) s1
  let t1 ← forList (addFather c g s2.fathers) (List.range g.numNodes) t0
  if (t1.numEdges : Int) = (g.numNodes : Int) - 1 then pure { t1 with isValid := true }
  else pure { t1 with isValid := false }

end Verif
