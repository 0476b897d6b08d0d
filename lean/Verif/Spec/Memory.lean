import Verif.Model.Search

/-!
# What can be observed of a run of the search

A `Problem` and the subproblems contain arrays of which only a prefix is meaningful (`cycle` up to `numCycle`, `mandatory` up to `numMandatory`,
the constraint matrix for node numbers below the number of nodes). Two outcomes are the same if they agree there.
-/
namespace Verif
set_option autoImplicit false

/-- the same solution: kind, length, probability, origin and the recorded closed walk -/
structure Spec.SameSolution (a b : SubProblem) : Prop where
  type : b.type = a.type
  value : b.value = a.value
  prob : b.prob = a.prob
  id : b.id = a.id
  fatherId : b.fatherId = a.fatherId
  treeLevel : b.treeLevel = a.treeLevel
  numCycle : b.numCycle = a.numCycle
  cycle : ∀ i < a.numCycle, b.cycle i = a.cycle i

/-- the same open subproblem on `n` nodes: origin, bound and constraints -/
structure Spec.SameOpen (n : Nat) (a b : SubProblem) : Prop where
  same : Spec.SameSolution a b
  edgeToBranch : b.edgeToBranch = a.edgeToBranch
  numForbidden : b.numForbidden = a.numForbidden
  numMandatory : b.numMandatory = a.numMandatory
  mandatory : ∀ i < a.numMandatory, b.mandatory i = a.mandatory i
  constraint : ∀ u < n, ∀ v < n, b.cons u v = a.cons u v

/-- the same result of `branch_and_bound`: solution, statistics and open subproblems, in the same order -/
structure Spec.SameResult (n : Nat) (r r' : Problem × List SubProblem) : Prop where
  best : Spec.SameSolution r.1.best r'.1.best
  bestValue : r'.1.bestValue = r.1.bestValue
  cand : r'.1.cand = r.1.cand
  generated : r'.1.generated = r.1.generated
  explored : r'.1.explored = r.1.explored
  fixed : r'.1.fixed = r.1.fixed
  totLevels : r'.1.totLevels = r.1.totLevels
  interrupted : r'.1.interrupted = r.1.interrupted
  graph : r'.1.graph = r.1.graph
  length : r'.2.length = r.2.length
  list : ∀ i (h : i < r.2.length) (h' : i < r'.2.length), Spec.SameOpen n r.2[i] r'.2[i]

/-- both runs end with the same fault, or both succeed with the same result -/
def Spec.SameRun (n : Nat) : Res (Problem × List SubProblem) → Res (Problem × List SubProblem) → Prop
  | .ok r, .ok r' => Spec.SameResult n r r'
  | .error e, .error e' => e' = e
  | _, _ => False

end Verif
