import Verif.Base
import Mathlib.Data.Int.Log
import Mathlib.Data.Rat.Floor

/-!
# The roundings of IEEE 754 to the format binary64
-/
namespace Verif.Spec
open Verif
set_option autoImplicit false

/-- the nearest integer; of two, the even one -/
def nearestEven (q : ℚ) : ℤ :=
  if q - ⌊q⌋ < 1 / 2 then ⌊q⌋ else if 1 / 2 < q - ⌊q⌋ then ⌊q⌋ + 1 else if ⌊q⌋ % 2 = 0 then ⌊q⌋ else ⌊q⌋ + 1

/-- the exponent of the last of the 53 bits of the numbers of the size of `x`, which is at least -1074 -/
def lastBit (x : ℚ) : ℤ := max (Int.log 2 |x| - 52) (-1074)

/-- the rounding of `x` to 53 bits, where `r` rounds to integers -/
def roundBy (r : ℚ → ℤ) (x : ℚ) : ℚ := r (x / 2 ^ lastBit x) * 2 ^ lastBit x

/-- a rounding with relative error at most `u` on the sums of `double`s (which are multiples of `2 ^ -1074`, as are the results) -/
structure Accurate [Rounding] (u : ℚ) : Prop where
  grid : ∀ k : ℤ, ∃ k' : ℤ, fl ((k : ℚ) * 2 ^ (-1074 : ℤ)) = k' * 2 ^ (-1074 : ℤ)
  error : ∀ k : ℤ, |fl ((k : ℚ) * 2 ^ (-1074 : ℤ)) - k * 2 ^ (-1074 : ℤ)| ≤ u * |(k : ℚ) * 2 ^ (-1074 : ℤ)|

end Verif.Spec
