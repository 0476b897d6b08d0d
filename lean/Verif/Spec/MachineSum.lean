import Verif.Base
import Verif.Spec.Tree

/-!
# Sums computed by the machine
-/
namespace Verif.Spec
open Verif
set_option autoImplicit false

/-- `x` is the sum of the weights of the edges of `S` as the machine adds them up, in some order. (In exact arithmetic: `x = total w S`, see `AddsUp.exact`.) -/
def AddsUp [Rounding] (w : Sym2 Nat → ℚ) (S : EdgeSet) (x : ℚ) : Prop := ∃ l : List (Sym2 Nat), l.Nodup ∧ l.toFinset = S ∧ x = flSum (l.map w)

end Verif.Spec
