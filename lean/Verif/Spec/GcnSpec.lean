import Verif.Model.Gcn
import Mathlib.Logic.Equiv.Basic
import Mathlib.Data.Finset.Card

/-!
# Renumbered instances, neighbours, errors of predictions
-/
namespace Verif.Gcn
set_option autoImplicit false

/-- the same mini-batch with other numbers for the cities: city `i` of the instance `b` is the old city `σ b i` -/
def Spec.renumber {B n d v : Nat} (σ : Fin B → Equiv.Perm (Fin n)) (x : Input B n d v) : Input B n d v where
  edges b i j := x.edges b (σ b i) (σ b j)
  values b i j := x.values b (σ b i) (σ b j)
  coord b i := x.coord b (σ b i)

/-- the same instances in another order -/
def Spec.reorder {B n d v : Nat} (τ : Equiv.Perm (Fin B)) (x : Input B n d v) : Input B n d v where
  edges b := x.edges (τ b)
  values b := x.values (τ b)
  coord b := x.coord (τ b)

/-- the mini-batch of one instance -/
def Spec.alone {B n d v : Nat} (x : Input B n d v) (b : Fin B) : Input 1 n d v where
  edges _ := x.edges b
  values _ := x.values b
  coord _ := x.coord b

/-- the neighbours that the reader chooses with `num_neighbors = m`: for every city `m + 1` cities (itself among them, if no other city is at the same place), no farther than the others -/
structure Spec.Nearest {n : Nat} (m : Nat) (dist : Fin n → Fin n → ℝ) (near : Fin n → Fin n → Prop) : Prop where
  number : ∀ i, {j | near i j}.ncard = m + 1
  nearest : ∀ i a b, near i a → ¬ near i b → dist i a ≤ dist i b

end Verif.Gcn
