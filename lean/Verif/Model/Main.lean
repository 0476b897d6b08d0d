import Verif.Model.Reader
import Verif.Model.Search

/-!
# Model of the printed cycle and of `main`
-/
namespace Verif
set_option autoImplicit false

variable [Rounding]

/-- the leg that `print_subProblem` prints for the edge number `i`, branch_and_bound.c:1100-1130; `last` is `last_dest` (its new value is the second component of the leg).
The entry `num_edges_in_cycle - 1` is only read when `i < num_edges_in_cycle`, so it exists. -/
def printLeg (sp : SubProblem) (last i : Nat) : Nat × Nat :=
  let src := (sp.cycle i).1
  let dest := (sp.cycle i).2
  if i = 0 then
    if src = (sp.cycle (sp.numCycle - 1)).2 ∨ src = (sp.cycle (sp.numCycle - 1)).1 then (src, dest) else (dest, src)
  else if src = last then (src, dest) else (dest, src)

/-- the loop over the edges of the cycle, branch_and_bound.c:1097-1131, from the edge number `i` on; the first argument is the number of edges left -/
def printLegs (sp : SubProblem) : Nat → Nat → Nat → List (Nat × Nat)
  | 0, _, _ => []
  | k + 1, last, i => printLeg sp last i :: printLegs sp k (printLeg sp last i).2 (i + 1)

/-- the legs `a <-> b` that `print_subProblem` prints, branch_and_bound.c:1095-1131 (the other fields are printed as they are) -/
def printCycle (sp : SubProblem) : List (Nat × Nat) := printLegs sp sp.numCycle 0 0

/-- `main`, main.c:24-61, without the file handling: the matrix file is read into the static problem `p0`, the search is run; the result is the problem, whose fields `print_problem` prints
(branch_and_bound.c:1138-1154), and the legs of the cycle it prints. (When the instance has no feasible solution `branch_and_bound` has printed that, and `p0.best` is printed.) -/
def mainRun (c : Cfg) (num : List Char → Option (ℚ × List Char)) (env : Env) (fuel : Nat) (p0 : Problem) (text : List Char) : Res (Problem × List (Nat × Nat)) := do
  let g ← readCsv c num p0.graph text
  let r ← branchAndBound c env fuel { p0 with graph := g }
  pure (r.1, printCycle r.1.best)

end Verif
