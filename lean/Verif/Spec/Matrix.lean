import Verif.Spec.Tour
import Verif.Model.SubProblem

/-!
# Tours allowed by a constraint matrix, and consistency of the bookkeeping around the matrix
-/
namespace Verif.Spec
open Verif
set_option autoImplicit false

/-- the tour uses every mandatory pair and no forbidden pair of the matrix -/
def AllowedBy (n : Nat) (cons : Nat → Nat → CType) (t : List Nat) : Prop :=
  IsTour n t ∧ ∀ u < n, ∀ v < n, u ≠ v →
    (cons u v = .mandatory → s(u, v) ∈ tourEdges t) ∧ (cons u v = .forbidden → s(u, v) ∉ tourEdges t)

/-- symmetric with a forbidden diagonal -/
structure SymMatrix (n : Nat) (cons : Nat → Nat → CType) : Prop where
  symm : ∀ u < n, ∀ v < n, cons u v = cons v u
  diag : ∀ u < n, cons u u = .forbidden

/-- the matrix is symmetric with a forbidden diagonal; every mandatory pair is in the list of mandatory edges; the list holds only pairs that
have been constrained and at most `n` entries; the counter of forbidden edges is positive if some pair is forbidden -/
structure Bookkeeping (n : Nat) (sp : SubProblem) : Prop where
  sym : SymMatrix n sp.cons
  recorded : ∀ u < n, ∀ v < n, u ≠ v → sp.cons u v = .mandatory → ∃ k < sp.numMandatory, s((sp.mandatory k).1, (sp.mandatory k).2) = s(u, v)
  entries : ∀ k < sp.numMandatory, (sp.mandatory k).1 < n ∧ (sp.mandatory k).2 < n ∧ (sp.mandatory k).1 ≠ (sp.mandatory k).2 ∧
    sp.cons (sp.mandatory k).1 (sp.mandatory k).2 ≠ .nothing
  counted : ∀ u < n, ∀ v < n, u ≠ v → sp.cons u v = .forbidden → 0 < sp.numForbidden
  room : sp.numMandatory ≤ n

end Verif.Spec
