import Verif.Model.Search
import Verif.Spec.Instance

/-!
# The states of a run of the main loop, and the subproblems made in it
-/
namespace Verif.Spec
open Verif
set_option autoImplicit false

variable [Rounding] (c : Cfg) (env : Env)

/-- the subproblems made in one round of the main loop, in order: none, or the two children of the round's subproblem, as they are before inference -/
inductive Makes (k : Nat) (p : Problem) (cur : SubProblem) (rest : List SubProblem) : List SubProblem → Prop where
  | none {p1 : Problem} {cur1 : SubProblem} (h1 : bound c (env.loc k) p cur = .ok (p1, cur1)) (h2 : ¬ (cur1.type = .opened ∧ cur1.edgeToBranch ≠ -1)) :
      Makes k p cur rest []
  | two {p1 p2 : Problem} {cur1 cur2 a b : SubProblem} {fixed : Nat} {o : List SubProblem} (h1 : bound c (env.loc k) p cur = .ok (p1, cur1))
      (h2 : cur1.type = .opened ∧ cur1.edgeToBranch ≠ -1) (h3 : variableFixing c p1 cur1 = .ok (cur2, fixed))
      (h4 : makeChild c (env.child k 0) cur2 (p1.graph.edges cur2.edgeToBranch.toNat) (p1.generated + 1) 0 = .ok a)
      (h5 : branchChild c (env.child k) cur2 (p1.graph.edges cur2.edgeToBranch.toNat) (rest, { p1 with fixed := p1.fixed + fixed }) 0 = .ok (o, p2))
      (h6 : makeChild c (env.child k 1) cur2 (p1.graph.edges cur2.edgeToBranch.toNat) (p2.generated + 1) 1 = .ok b) : Makes k p cur rest [a, b]

/-- the states of the main loop that starts with problem `p0` and open list `o0`: after `k` rounds the problem, the open list, and all the subproblems
made so far -/
inductive Run (p0 : Problem) (o0 : List SubProblem) : Nat → Problem → List SubProblem → List SubProblem → Prop where
  | start : Run p0 o0 0 p0 o0 o0
  | round {k : Nat} {p p' : Problem} {cur : SubProblem} {rest o' made new : List SubProblem} (h : Run p0 o0 k p (cur :: rest) made) (hclk : env.clk k = false)
      (e : bbRound c env k p cur rest = .ok (p', o')) (hn : Makes c env k p cur rest new) : Run p0 o0 (k + 1) p' o' (made ++ new)

end Verif.Spec
