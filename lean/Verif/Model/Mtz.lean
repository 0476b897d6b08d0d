import Mathlib.Algebra.Order.Field.Basic
import Mathlib.Algebra.BigOperators.Group.List.Basic

/-!
# Model of the CPLEX program `TSPmtz.mod`

The numbers of the program are the elements of an ordered field `K`; CPLEX's numerical tolerances are not modelled.
-/
namespace Verif
set_option autoImplicit false

variable {K : Type} [Field K] [LinearOrder K] [IsStrictOrderedRing K]

/-- values of the decision variables, TSPmtz.mod:13-18: `dvar boolean x[cities][cities]`, `dvar float+ u[cities]` -/
structure MtzVars (K : Type) where
  x : Nat → Nat → Bool
  u : Nat → K

/-- `range cities = 1 .. n`, TSPmtz.mod:9 -/
def cities (n : Nat) : List Nat := List.range' 1 n

/-- a `boolean` variable in an arithmetic expression -/
def num01 (b : Bool) : K := if b then 1 else 0

/-- `sum (i in cities) sum(j in cities) x[i][j] * Cost[i][j]`, TSPmtz.mod:22 -/
def mtzObjective (n : Nat) (cost : Nat → Nat → K) (v : MtzVars K) : K :=
  ((cities n).map fun i => ((cities n).map fun j => num01 (v.x i j) * cost i j).sum).sum

/-- the constraints, TSPmtz.mod:26-38, and the domain of `u` -/
structure MtzFeasible (n : Nat) (v : MtzVars K) : Prop where
  nonneg : ∀ i ∈ cities n, 0 ≤ v.u i
  one : ∀ i ∈ cities n, (((cities n).filter fun j => j ≠ i).map fun j => (num01 (v.x i j) : K)).sum = 1
  two : ∀ j ∈ cities n, (((cities n).filter fun i => i ≠ j).map fun i => (num01 (v.x i j) : K)).sum = 1
  three : ∀ i ∈ cities n, 2 ≤ i → ∀ j ∈ cities n, 2 ≤ j ∧ j ≠ i → v.u i - v.u j + (n : K) * num01 (v.x i j) ≤ (n : K) - 1
  start : v.u 1 = 0

/-- the lines `i ---> j` that `POSTPROCESS` prints, in order, TSPmtz.mod:42-47 -/
def mtzPrinted (n : Nat) (v : MtzVars K) : List (Nat × Nat) :=
  (cities n).flatMap fun i => ((cities n).filter fun j => v.x i j).map fun j => (i, j)

end Verif
