import Mathlib.Data.Rat.Defs
import Mathlib.Algebra.Order.Ring.Rat
import Mathlib.Algebra.BigOperators.Group.List.Basic

/-!
# The largest values of a list; the value of a path
-/
namespace Verif.Spec
set_option autoImplicit false

/-- `topk f len k` are the indices of `k` largest values among `f 0 … f (len - 1)`, the largest first; ties are broken in any way -/
structure IsTopK (topk : (Nat → ℚ) → Nat → Nat → List Nat) : Prop where
  length : ∀ f len k, k ≤ len → (topk f len k).length = k
  nodup : ∀ f len k, k ≤ len → (topk f len k).Nodup
  lt : ∀ f len k, k ≤ len → ∀ i ∈ topk f len k, i < len
  sorted : ∀ f len k, k ≤ len → (topk f len k).Pairwise fun i j => f j ≤ f i
  largest : ∀ f len k, k ≤ len → ∀ i < len, i ∉ topk f len k → ∀ j ∈ topk f len k, f i ≤ f j

/-- the product of the probabilities of the steps of a path -/
def pathProb (y : Nat → Nat → ℚ) (p : List Nat) : ℚ := (List.zipWith y p p.tail).prod

/-- the sum of the values of the steps of a path -/
def pathSum (y : Nat → Nat → ℚ) (p : List Nat) : ℚ := (List.zipWith y p p.tail).sum

end Verif.Spec
