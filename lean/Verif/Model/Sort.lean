import Verif.Model.Graph

/-!
# Model of the quicksort in `algorithms/kruskal.c`

`cap` is the number of `Edge` cells that may be read from `graph->edges` (`MAX_EDGES_NUM` for a strict reading of C); a read
at or after `cap` is an `oob` fault. The functions below read whole edges (`Edge i_edge = edges[i]`).
-/
namespace Verif.Sort
open Verif
set_option autoImplicit false

/-- `edges[i]` -/
def rd (cap : Nat) (g : Graph) (i : Nat) : Res Edge := if i < cap then .ok (g.edges i) else .error .oob

/-- assignment `graph->edges_matrix[a][b].positionInGraph = p` -/
def setPos (g : Graph) (a b p : Nat) : Graph := { g with mat := upd2 g.mat a b { (g.mat a b) with pos := p } }

/-- `swap`, kruskal.c:18-36. -/
def swap (g : Graph) (a b : Nat) : Graph :=
  let g1 := setPos g (g.edges a).src (g.edges a).dest b
  let g2 := setPos g1 (g1.edges b).src (g1.edges b).dest a
  let g3 := setPos g2 (g2.edges a).dest (g2.edges a).src b
  let g4 := setPos g3 (g3.edges b).dest (g3.edges b).src a
  let g5 := { g4 with edges := upd g4.edges a { (g4.edges a) with pos := b } }
  let g6 := { g5 with edges := upd g5.edges b { (g5.edges b) with pos := a } }
  let temp := g6.edges a
  let g7 := { g6 with edges := upd g6.edges a (g6.edges b) }
  { g7 with edges := upd g7.edges b temp }

/-- the test `x.weight > y.weight || (HYBRID && x.weight == y.weight && x.prob < y.prob)`, kruskal.c:48-73, 88-89 -/
def gt (hybrid : Bool) (x y : Edge) : Bool :=
  decide (x.weight > y.weight) || (hybrid && decide (x.weight = y.weight) && decide (x.prob < y.prob))

/-- the test of the upward scan, kruskal.c:82-83 -/
def up (hybrid : Bool) (pw pp : ℚ) (e : Edge) : Bool :=
  (!hybrid && decide (pw ≥ e.weight)) ||
    (hybrid && (decide (pw > e.weight) || (decide (pw = e.weight) && decide (pp ≤ e.prob))))

/-- the test of the downward scan, kruskal.c:88-89 -/
def down (hybrid : Bool) (pw pp : ℚ) (e : Edge) : Bool :=
  decide (e.weight > pw) || (hybrid && (decide (e.weight = pw) && decide (e.prob < pp)))

/-- choice of the pivot, kruskal.c:41-76: median of three moved to `first`; returns its weight and probability. -/
def choosePivot (hybrid : Bool) (cap : Nat) (g : Graph) (first last : Nat) : Res (Graph × ℚ × ℚ) := do
  let le ← rd cap g last
  let fe ← rd cap g first
  let middle := (first + last) / 2
  let me ← rd cap g middle
  if gt hybrid le fe then
    if gt hybrid le me then
      if gt hybrid me fe then pure (swap g first middle, me.weight, me.prob)
      else pure (g, fe.weight, fe.prob)
    else pure (swap g first last, le.weight, le.prob)
  else if gt hybrid le me then pure (swap g first last, le.weight, le.prob)
  else if gt hybrid fe me then pure (swap g first middle, me.weight, me.prob)
  else pure (g, fe.weight, fe.prob)

/-- the upward scan, kruskal.c:81-86; the first argument is fuel -/
def scanUp (hybrid : Bool) (cap : Nat) (g : Graph) (pw pp : ℚ) (j : Nat) : Nat → Nat → Res Nat
  | 0, _ => .error .fuel
  | k + 1, i => do
    let e ← rd cap g i
    if decide (i ≤ j) && up hybrid pw pp e then scanUp hybrid cap g pw pp j k (i + 1) else pure i

/-- the downward scan, kruskal.c:87-92 -/
def scanDown (hybrid : Bool) (cap : Nat) (g : Graph) (pw pp : ℚ) (i : Nat) : Nat → Nat → Res Nat
  | 0, _ => .error .fuel
  | k + 1, j => do
    let e ← rd cap g j
    if decide (i ≤ j) && down hybrid pw pp e then scanDown hybrid cap g pw pp i k (j - 1) else pure j

/-- the partition loop, kruskal.c:80-99; returns the final `j` -/
def partLoop (hybrid : Bool) (cap : Nat) (pw pp : ℚ) : Nat → Graph → Nat → Nat → Res (Graph × Nat)
  | 0, _, _, _ => .error .fuel
  | k + 1, g, i, j => do
    let i' ← scanUp hybrid cap g pw pp j (j + 2 - i + 1) i
    let j' ← scanDown hybrid cap g pw pp i' (j + 1) j
    if i' ≤ j' then partLoop hybrid cap pw pp k (swap g i' j') i' j' else pure (g, j')

/-- `pivot_quicksort`, kruskal.c:39-107. -/
def pivotQuicksort (hybrid : Bool) (cap : Nat) (g : Graph) (first last : Nat) : Res (Graph × Nat) := do
  let (g1, pw, pp) ← choosePivot hybrid cap g first last
  let (g2, j) ← partLoop hybrid cap pw pp (last - first + 2) g1 (first + 1) last
  if j ≠ first then pure (swap g2 first j, j) else pure (g2, j)

/-- `quick_sort`, kruskal.c:110-120. The comparison `pivot - 1 > first` is on `int`s. The first argument is fuel. -/
def quickSort (hybrid : Bool) (cap : Nat) : Nat → Graph → Nat → Nat → Res Graph
  | 0, _, _, _ => .error .fuel
  | k + 1, g, first, last =>
    if first < last then do
      let (g1, pivot) ← pivotQuicksort hybrid cap g first last
      let g2 ← (if (pivot : Int) - 1 > first then quickSort hybrid cap k g1 first (pivot - 1) else pure g1)
      if pivot + 1 < last then quickSort hybrid cap k g2 (pivot + 1) last else pure g2
    else pure g

/-- `wrap_quick_sort`, kruskal.c:123-128; `num_edges - 1` is converted to `unsigned short`. -/
def wrapQuickSort (hybrid : Bool) (cap : Nat) (g : Graph) : Res Graph :=
  if !g.ordered then
    let g0 := { g with ordered := true }
    quickSort hybrid cap (g.numEdges + 1) g0 0 ((g.numEdges + 65535) % 65536)
  else pure g

end Verif.Sort
