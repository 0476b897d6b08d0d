import Verif.Base
import Mathlib.Data.Nat.Log

/-!
# Model of the Fibonacci heap, `data_structures/fibonacci_heap.c`

Pointer level. Nodes are addresses (`Nat`) of client memory (in the code: entries of an `OrdTreeNode` array); the
memory is kept field by field (`H.value x` is `x->value`), which is the same information as an
array of structures. Nullable pointers are `Option Nat` and dereferencing `none` is a fault. `left_sibling` and
`right_sibling` are plain addresses: every assignment in the code stores the address of a node
that was just dereferenced, so they are never NULL. Counters are unbounded naturals.
-/
namespace Verif.Fib
open Verif
set_option autoImplicit false

/-- `FibonacciHeap` and the node memory, fibonacci_heap.h:26-48. -/
structure Heap where
  key : Nat → Nat
  value : Nat → ℚ
  parent : Nat → Option Nat
  left : Nat → Nat
  right : Nat → Nat
  headC : Nat → Option Nat
  tailC : Nat → Option Nat
  numC : Nat → Nat
  marked : Nat → Bool
  isRoot : Nat → Bool
  minRoot : Option Nat
  head : Option Nat
  tail : Option Nat
  numNodes : Nat
  numTrees : Nat

/-- `create_fibonacci_heap`, fibonacci_heap.c:16-22; `H` is the (arbitrary) memory before the call. -/
def createHeap (H : Heap) : Heap :=
  { H with minRoot := none, head := none, tail := none, numNodes := 0, numTrees := 0 }

/-- `create_node`, fibonacci_heap.c:25-35. -/
def createNode (H : Heap) (x key : Nat) (value : ℚ) : Heap :=
  { H with
    value := upd H.value x value
    key := upd H.key x key
    parent := upd H.parent x none
    left := upd H.left x x
    right := upd H.right x x
    headC := upd H.headC x none
    tailC := upd H.tailC x none
    numC := upd H.numC x 0 }

/-- The fragment that links `c` after the tail of the root list; it occurs in `insert_node` (fibonacci_heap.c:52-56),
`consolidate` (163-167), `extract_min` (206-210) and `cut` (271-275). -/
def appendRoot (H : Heap) (c : Nat) : Res Heap := do
  let t ← deref H.tail
  let h ← deref H.head
  pure { H with
    right := upd (upd H.right t c) c h
    left := upd (upd H.left h c) c t
    tail := some c }

/-- The fragment that unlinks `c` from its sibling circle: `link_trees` (fibonacci_heap.c:71-72),
`extract_min` (202-203, 227-228), `cut` (267-268). The two assignments write different fields and the
pointers they go through are `c`'s own, so they commute. -/
def unlink (H : Heap) (c : Nat) : Heap :=
  { H with
    right := upd H.right (H.left c) (H.right c)
    left := upd H.left (H.right c) (H.left c) }

/-- `insert_node`, fibonacci_heap.c:38-60. -/
def insertNode (H : Heap) (c : Nat) : Res Heap := do
  let H1 := { H with marked := upd H.marked c false, isRoot := upd H.isRoot c true }
  let H2 ← (if H1.numTrees = 0 then
      pure { H1 with minRoot := some c, head := some c, tail := some c }
    else do
      let m ← deref H1.minRoot
      let H2 := if H1.value c < H1.value m then { H1 with minRoot := some c } else H1
      appendRoot H2 c)
  pure { H2 with numNodes := H2.numNodes + 1, numTrees := H2.numTrees + 1 }

/-- `create_insert_node`, fibonacci_heap.c:63-66. -/
def createInsertNode (H : Heap) (x key : Nat) (value : ℚ) : Res Heap :=
  insertNode (createNode H x key value) x

/-- `link_trees`, fibonacci_heap.c:69-92. -/
def linkTrees (H : Heap) (child father : Nat) : Res Heap := do
  let H1 := { H with marked := upd H.marked child false }
  let H2 := unlink H1 child
  let H3 := { H2 with
    isRoot := upd H2.isRoot child false
    numTrees := H2.numTrees - 1
    parent := upd H2.parent child (some father)
    numC := upd H2.numC father (H2.numC father + 1) }
  if H3.numC father = 1 then
    pure { H3 with
      headC := upd H3.headC father (some child)
      tailC := upd H3.tailC father (some child)
      left := upd H3.left child child
      right := upd H3.right child child }
  else do
    let t ← deref (H3.tailC father)
    let h ← deref (H3.headC father)
    pure { H3 with
      right := upd (upd H3.right t child) child h
      left := upd (upd H3.left h child) child t
      tailC := upd H3.tailC father (some child) }

/-- Size of `degree_list`, fibonacci_heap.c:116: `((int) ceil(log(num_nodes) / log(2))) + 2`
(the floating point logarithm is taken to be exact). -/
def dimension (numNodes : Nat) : Nat := Nat.clog 2 numNodes + 2

/-- The inner `while` of `consolidate`, fibonacci_heap.c:131-146, followed by line 147; access outside
`degree_list` is an `oobAt .degreeList` fault. The first argument is fuel. -/
def linkLoop (dim : Nat) : Nat → Heap → (Nat → Option Nat) → Nat → Nat → Res (Heap × (Nat → Option Nat))
  | 0, _, _, _, _ => .error .fuel
  | fuel + 1, H, dl, cur, deg =>
    if deg ≥ dim then .error (.oobAt .degreeList) else
    match dl deg with
    | none => pure (H, upd dl deg (some cur))
    | some same =>
      let (cur', child) := if H.value cur > H.value same then (same, cur) else (cur, same)
      do
        let H' ← linkTrees H child cur'
        linkLoop dim fuel H' (upd dl deg none) cur' (deg + 1)

/-- The outer `for` of `consolidate`, fibonacci_heap.c:126-148. -/
def scanRoots (dim : Nat) : Nat → Heap → (Nat → Option Nat) → Nat → Res (Heap × (Nat → Option Nat))
  | 0, H, dl, _ => pure (H, dl)
  | k + 1, H, dl, iter => do
    let deg := H.numC iter
    let next := H.right iter
    let (H', dl') ← linkLoop dim (dim + 1) H dl iter deg
    scanRoots dim k H' dl' next

/-- The last `for` of `consolidate`, fibonacci_heap.c:152-170: entries `i, i+1, …` of `degree_list`. -/
def rebuild (dl : Nat → Option Nat) : Nat → Nat → Heap → Res Heap
  | 0, _, H => pure H
  | k + 1, i, H =>
    match dl i with
    | none => rebuild dl k (i + 1) H
    | some d =>
      match H.minRoot with
      | none => rebuild dl k (i + 1) { H with minRoot := some d, head := some d, tail := some d }
      | some m => do
        let H1 := if H.value m > H.value d then { H with minRoot := some d } else H
        let H2 ← appendRoot H1 d
        rebuild dl k (i + 1) H2

/-- `consolidate`, fibonacci_heap.c:114-172. -/
def consolidate (H : Heap) : Res Heap := do
  let dim := dimension H.numNodes
  let iter ← deref H.head
  let (H1, dl) ← scanRoots dim H.numTrees H (fun _ => none) iter
  rebuild dl dim 0 { H1 with minRoot := none }

/-- The `for` over the children of the minimum, fibonacci_heap.c:186-216 (`m` is `heap->min_root`, `n - i`
is the number `k + 1` of children left). -/
def promote (m : Nat) : Nat → Heap → Option Nat → Res Heap
  | 0, H, _ => pure H
  | k + 1, H, childp => do
    let child ← deref childp
    let H1 := { H with
      parent := upd H.parent child none
      isRoot := upd H.isRoot child true
      marked := upd H.marked child false }
    let H2 ← (if k + 1 = 1 then
        pure { H1 with headC := upd H1.headC m none, tailC := upd H1.tailC m none }
      else do
        let h ← deref (H1.headC m)
        let H2 := if H1.key h = H1.key child then { H1 with headC := upd H1.headC m (some (H1.right child)) } else H1
        let t ← deref (H2.tailC m)
        let H3 := if H2.key t = H2.key child then { H2 with tailC := upd H2.tailC m (some (H2.left child)) } else H2
        pure (unlink H3 child))
    let H3 ← appendRoot H2 child
    let H4 := { H3 with numTrees := H3.numTrees + 1 }
    let childp' := H4.headC m
    promote m k { H4 with numC := upd H4.numC m (H4.numC m - 1) } childp'

/-- `extract_min`, fibonacci_heap.c:175-248; the result `-1` of the empty heap is `none`. -/
def extractMin (H : Heap) : Res (Option Nat × Heap) :=
  match H.minRoot with
  | none => pure (none, H)
  | some m => do
    let minPos := H.key m
    let H1 ← promote m (H.numC m) H (H.headC m)
    let H2 := { H1 with numTrees := H1.numTrees - 1 }
    let h ← deref H2.head
    let H3 := if H2.key h = H2.key m then { H2 with head := some (H2.right h) } else H2
    let t ← deref H3.tail
    let H4 := if H3.key t = H3.key m then { H3 with tail := some (H3.left t) } else H3
    let H5 := unlink H4 m
    let H6 ← (if H5.key m = H5.key (H5.right m) then
        pure { H5 with minRoot := none, tail := none, head := none, numTrees := 0 }
      else consolidate { H5 with minRoot := some (H5.right m) })
    pure (some minPos, { H6 with numNodes := H6.numNodes - 1 })

/-- `cut`, fibonacci_heap.c:251-277. -/
def cut (H : Heap) (node parent : Nat) : Res Heap := do
  let H1 := { H with
    parent := upd H.parent node none
    isRoot := upd H.isRoot node true
    marked := upd H.marked node false
    numC := upd H.numC parent (H.numC parent - 1) }
  let H2 ← (if H1.numC parent = 0 then
      pure { H1 with headC := upd H1.headC parent none, tailC := upd H1.tailC parent none }
    else do
      let h ← deref (H1.headC parent)
      let H2 := if H1.key h = H1.key node then { H1 with headC := upd H1.headC parent (some (H1.right node)) } else H1
      let t ← deref (H2.tailC parent)
      let H3 := if H2.key t = H2.key node then { H2 with tailC := upd H2.tailC parent (some (H2.left node)) } else H2
      pure (unlink H3 node))
  let H3 ← appendRoot H2 node
  pure { H3 with numTrees := H3.numTrees + 1 }

/-- `cascading_cut`, fibonacci_heap.c:280-291; the first argument bounds the recursion. -/
def cascadingCut : Nat → Heap → Nat → Res Heap
  | 0, _, _ => .error .fuel
  | k + 1, H, node =>
    match H.parent node with
    | none => pure H
    | some p =>
      if H.marked node = false then pure { H with marked := upd H.marked node true }
      else do
        let H' ← cut H node p
        cascadingCut k H' p

/-- `decrease_value`, fibonacci_heap.c:294-310. The recursion bound given to `cascading_cut` is the number of nodes
plus one. -/
def decreaseValue (H : Heap) (node : Nat) (v : ℚ) : Res Heap :=
  if v > H.value node then .error .exit
  else do
    let H1 := { H with value := upd H.value node v }
    let H2 ← (match H1.parent node with
      | none => pure H1
      | some p =>
        if H1.value node < H1.value p then do
          let H2 ← cut H1 node p
          cascadingCut (H2.numNodes + 1) H2 p
        else pure H1)
    let m ← deref H2.minRoot
    pure (if H2.value node < H2.value m then { H2 with minRoot := some node } else H2)

/-- `delete_node`, fibonacci_heap.c:312-315. -/
def deleteNode (H : Heap) (node : Nat) : Res Heap := do
  let H1 ← decreaseValue H node (-FLT_MAX)
  let (_, H2) ← extractMin H1
  pure H2

end Verif.Fib
