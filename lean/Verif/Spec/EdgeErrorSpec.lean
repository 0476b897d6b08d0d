import Verif.Model.EdgeError

/-!
# Fractions of wrong predictions
-/
namespace Verif.Gcn
set_option autoImplicit false

/-- the number of the ordered pairs of nodes with a property -/
def Spec.pairs {n : Nat} (p : Fin n → Fin n → Bool) : Nat := (Finset.univ.filter fun q : Fin n × Fin n => p q.1 q.2).card

/-- the mean over the instances, in per cent, of the number of wrong predictions among the pairs in question, divided by the number of these pairs -/
def Spec.percentWrong {B n : Nat} (y target : Labels B n) (inQuestion : Fin B → Fin n → Fin n → Bool) : ℚ :=
  100 * ((∑ b, (Spec.pairs (fun i j => inQuestion b i j && decide (y b i j ≠ target b i j)) : ℚ) / Spec.pairs (inQuestion b)) / B)

end Verif.Gcn
