import Verif.Props.FibHeap
import Verif.Model.Prim

/-!
# C13: a history that leaves the table of `consolidate`

All nodes are inserted with the same value, the first is extracted, all the others are decreased to 2 (one of them to 1), and then one node after the other is decreased to 1 and extracted. The nodes to be
extracted are chosen such that the root of a tree of degree 8 keeps all its children. When 64 nodes are left, the table has 8 entries (indices 0 to 7) and the root is stored at index 8.
-/
namespace Verif.Fib
open Verif Verif.Spec
set_option autoImplicit false

/-- the order in which the nodes 2, … are extracted -/
def victims : List Nat := [2, 63, 62, 61, 60, 59, 58, 56, 57, 55, 54, 53, 52, 51, 50, 48, 47, 46, 65, 49, 45, 44, 43, 42, 40, 41, 39, 38, 37, 36, 35, 34, 32, 31, 30, 29, 28, 27, 26, 24, 33, 25, 23, 22, 21, 20, 
  19, 18, 16, 15, 14, 17, 13, 12, 11, 10, 8, 9, 7, 6, 5, 4, 3, 257, 258, 79, 78, 81, 77, 76, 75, 74, 72, 73, 71, 70, 69, 68, 67, 66, 64, 84, 83, 82, 80, 85, 129, 97, 91, 103, 102, 101, 
  100, 99, 98, 96, 95, 104, 105, 108, 115, 114, 112, 111, 116, 120, 121, 124, 159, 158, 157, 156, 155, 154, 152, 161, 153, 151, 150, 149, 148, 147, 146, 144, 143, 142, 145, 141, 140, 
  139, 138, 136, 137, 135, 134, 133, 132, 131, 130, 128, 169, 167, 166, 165, 164, 163, 162, 160, 170, 168, 173, 179, 178, 176, 175, 180, 184, 185, 188, 207, 206, 209, 205, 204, 203, 202, 
  200, 201, 199, 198, 197, 196, 195, 194, 192, 212, 211, 210, 208, 213, 216, 225, 220, 233, 231, 230, 229, 228, 227, 226, 224, 234, 232, 237]

/-- insert the nodes 1 to `k` with the value `FLT_MAX` -/
def insertAll (H : Heap) : Nat → Res Heap
  | 0 => .ok H
  | k + 1 => do let H ← insertAll H k; createInsertNode H (k + 1) (k + 1) FLT_MAX

/-- decrease a node to 1 if it is the first victim, otherwise to 2 -/
def lower (H : Heap) (v : Nat) : Res Heap := decreaseValue H v (if v = 2 then 1 else 2)

/-- extract the first node of the list and decrease the next one to 1, and so on; fails if another node is extracted -/
def chain (H : Heap) : List Nat → Res Heap
  | [] => .ok H
  | [_] => .ok H
  | x :: y :: l => do
    let r ← extractMin H
    if r.1 = some x then do
      let H ← decreaseValue r.2 y 1
      chain H (y :: l)
    else .error .exit

/-- the history -/
def history (mem : Heap) : Res Heap := do
  let H ← insertAll (createHeap mem) 258
  let r ← extractMin H
  if r.1 = some 1 then do
    let H ← forList lower (List.range' 2 257) r.2
    chain H victims
  else .error .exit

/-- the run succeeds, 64 nodes are left and the next `extract_min` leaves the table -/
def overflows (r : Res Heap) : Bool := match r with
  | .ok H => H.numNodes == 64 && decide (faultOf (extractMin H) = some (.oobAt .degreeList))
  | .error _ => false

set_option maxRecDepth 100000 in
theorem history_overflows : overflows (history mem0) = true := by decide +kernel

end Verif.Fib
