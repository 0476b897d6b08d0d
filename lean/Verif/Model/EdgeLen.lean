import Verif.Model.Gcn

/-!
# Model of `mean_tour_len_edges`, `graph_utils.py`
-/
namespace Verif.Gcn
set_option autoImplicit false

noncomputable section

/-- `argmax` of two numbers; of equal numbers the first. (The documentation of PyTorch promises no order of equal numbers; the theorems are about different ones.) -/
def argmax2 (y : Fin 2 → ℝ) : ℝ := if y 0 < y 1 then 1 else 0

/-- `mean_tour_len_edges`, graph_utils.py:53-69, for a batch of `B` instances of `n` cities and two classes of edges; exact arithmetic -/
def meanTourLenEdges {B n : Nat} (values : Fin B → Fin n → Fin n → ℝ) (pred : EdgeTensor B n 2) : ℝ :=
  (∑ b, (∑ j, ∑ i, argmax2 (softmax (pred b i j)) * values b i j) / 2) / B

end
end Verif.Gcn
