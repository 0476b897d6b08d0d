import Verif.Model.Gcn

/-!
# Model of the error metrics of a mini-batch (utils/model_utils.py:166-224)

Accuracies are rational numbers without rounding; `none` is NaN. A comparison with NaN is false.
-/
namespace Verif.Gcn
set_option autoImplicit false

/-- labels or a mask of a mini-batch -/
abbrev Labels (B n : Nat) := Fin B → Fin n → Fin n → Nat

/-- the accuracy of one instance, model_utils.py:211-215 -/
def accuracy {B n : Nat} (y target mask : Labels B n) (b : Fin B) : Option ℚ :=
  let right : Nat := ∑ i, ∑ j, (if y b i j = target b i j then 1 else 0) * mask b i j
  let all : Nat := ∑ i, ∑ j, mask b i j
  if all = 0 then none else some ((right : ℚ) / all)

/-- the sum of the accuracies; NaN if one is -/
def sumAcc {B n : Nat} (y target mask : Labels B n) : List (Fin B) → Option ℚ
  | [] => some 0
  | b :: l => do
    let a ← accuracy y target mask b
    let s ← sumAcc y target mask l
    pure (a + s)

/-- `_edge_error`, model_utils.py:197-224: the error and the flags of the instances that are not perfect -/
def maskedError {B n : Nat} (y target mask : Labels B n) : Option ℚ × (Fin B → Bool) :=
  ((sumAcc y target mask (List.finRange B)).map fun s => 1 - s / B,
   fun b => match accuracy y target mask b with
     | some a => decide (a < 1)
     | none => false)

/-- what `edge_error` returns -/
structure EdgeErrors (B : Nat) where
  edges : Option ℚ
  tour : Option ℚ
  tsp : Option ℚ
  idxTour : Fin B → Bool
  idxTsp : Fin B → Bool

/-- `edge_error`, model_utils.py:166-194, on the predicted classes `y` (the `argmax`) -/
def edgeError {B n : Nat} (y target edges : Labels B n) : EdgeErrors B :=
  let e := maskedError y target edges
  let t := maskedError y target target
  let s := maskedError y target fun b i j => if 0 < target b i j + y b i j then 1 else 0
  ⟨e.1.map (100 * ·), t.1.map (100 * ·), s.1.map (100 * ·), t.2, s.2⟩

end Verif.Gcn
