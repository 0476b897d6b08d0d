import Verif.Spec.Instance

/-!
# Arithmetic with a bounded error
-/
namespace Verif
open Verif.Spec
set_option autoImplicit false

/-- rounding a number of absolute value at most `M` changes it by at most `ε`; a rounded number is not changed by rounding it again. (Exact arithmetic has it with `ε = 0` for every `M`, `Near.of_exact`;
the arithmetic of `double` has it with `ε = M / 2 ^ 53`.) -/
structure Spec.Near [Rounding] (ε M : ℚ) : Prop where
  nonneg : 0 ≤ ε
  err : ∀ x, |x| ≤ M → |fl x - x| ≤ ε
  idem : ∀ x, fl (fl x) = fl x

/-- bounds for a run of the search: of the best value, of the weights, and of the error of a rounding -/
structure Spec.Scale where
  U : ℚ
  W : ℚ
  ε : ℚ

/-- how much the rounding errors can hide: a multiple of the error of one operation -/
def Spec.Scale.slack (z : Scale) (n : Nat) : ℚ := (5 * (n : ℚ) + 6) * z.ε

/-- the largest initial step length -/
def Spec.Scale.T [Rounding] (z : Scale) (n : Nat) : ℚ := fl (z.U / (2 * (n : ℚ)))

/-- the largest error of a dual variable in one of `N` steps -/
def Spec.Scale.drift [Rounding] (z : Scale) (n N : Nat) : ℚ := (n : ℚ) * ((N : ℚ) + 14) * (z.T n + 1) * z.ε

/-- the largest dual variable in `N` steps -/
def Spec.Scale.P [Rounding] (z : Scale) (n N : Nat) : ℚ := (n : ℚ) * z.T n * ((N : ℚ) / 2) + N * z.drift n N

/-- the largest number that occurs in `N` steps -/
def Spec.Scale.need [Rounding] (z : Scale) (eps : ℚ) (n N : Nat) : ℚ := z.U + eps + 4 * (n : ℚ) * (z.W + z.P n N + z.T n + 2) + 4 * ((N : ℚ) * N) * (z.T n + 2) + 4

/-- the part of `slack` that a lower bound can be too large -/
def Spec.Scale.gap (z : Scale) (n : Nat) : ℚ := (5 * (n : ℚ) + 2) * z.ε

/-- `cur.value` is, up to rounding errors, a lower bound for the allowed tours that are shorter than the best value by more than rounding errors (below the root) -/
def Spec.ValidUpTo (z : Scale) (c : Cfg) (p : Problem) (cur : SubProblem) : Prop :=
  cur.treeLevel ≠ 1 → ∀ t, AllowedBy c.maxV cur.cons t → tourCost (weight p.graph) t < p.bestValue - z.slack c.maxV → cur.value ≤ tourCost (weight p.graph) t + z.gap c.maxV

/-- the bounds `z` fit the problem `p`, as far as the original weights go: `z.U` bounds the best value, `z.W` the weights, which are machine numbers, and `z.ε` the error of rounding sums of weights -/
structure Spec.Fine [Rounding] (z : Scale) (c : Cfg) (p : Problem) : Prop where
  near : Near z.ε (z.U + 4 * (c.maxV : ℚ) * (z.W + 1))
  U0 : 0 ≤ z.U
  W0 : 0 ≤ z.W
  best : p.bestValue ≤ z.U
  weights : ∀ e ∈ edgeSet p.graph, weight p.graph e ≤ z.W ∧ fl (weight p.graph e) = weight p.graph e
  small : 17 * ((c.maxV : ℚ) * z.ε) ≤ 1

/-- the largest number of dual steps `bound` makes, at the root, problem_settings.h:104 -/
def Spec.rootSteps (n : Nat) : Nat := (n * n + 25) / 50 + n + 25

/-- the number of dual steps `bound` makes below the root, problem_settings.h:108 -/
def Spec.nodeSteps (n : Nat) : Nat := n / 4 + 15

/-- the bounds `z` fit the problem `p` and the whole search: `z.U` bounds the best value and `z.W` the weights, which are machine numbers; `z.ε` bounds the error of rounding all numbers that can occur in the
search, up to `z.need`; the error of a dual variable stays below one per step; integers up to the square of the number of steps are machine numbers; and, as in `Gentle`, the dual variables cannot push an edge
below the weight `-n` that `constrained_prim` gives to mandatory edges, or up to `FLT_MAX`. -/
structure Spec.Fits [Rounding] (z : Scale) (c : Cfg) (p : Problem) : Prop where
  near : Near z.ε (z.need c.eps c.maxV (rootSteps c.maxV))
  ints : ∀ m : Nat, m ≤ 2 * (rootSteps c.maxV * rootSteps c.maxV) → fl (m : ℚ) = m
  U0 : 0 ≤ z.U
  W0 : 0 ≤ z.W
  best : p.bestValue ≤ z.U
  weights : ∀ e ∈ edgeSet p.graph, weight p.graph e ≤ z.W ∧ fl (weight p.graph e) = weight p.graph e
  fine : z.drift c.maxV (rootSteps c.maxV) ≤ 1
  low : z.T c.maxV * nodeSteps c.maxV + 2 * nodeSteps c.maxV * z.drift c.maxV (nodeSteps c.maxV) + 2 * z.ε ≤ c.maxV
  high : ∀ e ∈ edgeSet p.graph, weight p.graph e + c.maxV * z.T c.maxV * rootSteps c.maxV + 2 * rootSteps c.maxV * z.drift c.maxV (rootSteps c.maxV) + 2 * z.ε < FLT_MAX

end Verif
