import Verif.Model.Graph

/-!
# Model of the reweighting with dual variables, `algorithms/branch_and_bound.c:683-694` (in `bound`)
-/
namespace Verif
set_option autoImplicit false
variable [Rounding]

/-- body of the loop over the edges, branch_and_bound.c:685-692 -/
def applyPi1 (pi : Nat → ℚ) (g : Graph) (j : Nat) : Graph :=
  let e := g.edges j
  if fl (pi e.src + pi e.dest) ≠ 0 then
    let w := fl (e.weight + fl (pi e.src + pi e.dest))
    let m1 := upd2 g.mat e.src e.dest { (g.mat e.src e.dest) with weight := w }
    { g with
      edges := upd g.edges j { e with weight := w }
      mat := upd2 m1 e.dest e.src { (m1 e.dest e.src) with weight := w }
      ordered := false }
  else g

/-- the loop, branch_and_bound.c:684-693, on the first `m` edges (`m` is `problem->graph.num_edges`; the counter is 16 bits
wide, so the loop only ends for `m ≤ 65535`). -/
def applyPi (pi : Nat → ℚ) (m : Nat) (g : Graph) : Graph := (List.range m).foldl (applyPi1 pi) g

end Verif
