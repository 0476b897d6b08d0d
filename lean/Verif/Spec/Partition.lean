import Mathlib.Logic.Relation

/-!
# Specification of the merge-find set: partitions generated by merged pairs
-/
namespace Verif.Spec
set_option autoImplicit false

/-- operations on a merge-find set -/
inductive MfOp where
  | find (x : Nat)
  | merge (x y : Nat)
deriving DecidableEq

/-- the pairs merged by a history -/
def mergedPairs : List MfOp → List (Nat × Nat)
  | [] => []
  | .find _ :: ops => mergedPairs ops
  | .merge x y :: ops => (x, y) :: mergedPairs ops

/-- two nodes are joined by merged pairs: the least equivalence containing them -/
def Joined (pairs : List (Nat × Nat)) : Nat → Nat → Prop :=
  Relation.EqvGen (fun a b => (a, b) ∈ pairs)

/-- all operands of the history satisfy `P` -/
def MfOp.over (P : Nat → Prop) : MfOp → Prop
  | .find x => P x
  | .merge x y => P x ∧ P y

end Verif.Spec
