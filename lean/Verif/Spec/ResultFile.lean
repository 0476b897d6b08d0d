import Verif.Model.ResultText
import Mathlib.Data.Nat.Digits.Defs

/-!
# What a result file says about a run
-/
namespace Verif
set_option autoImplicit false

/-- `y` is a number with six decimals, and no such number is nearer to `x` -/
def Spec.SixDecimals (x y : ℚ) : Prop := (∃ m : ℤ, y = m / 1000000) ∧ |y - x| ≤ 1 / 2000000

/-- the text is digits, a point and digits, and `x` is the number that it denotes -/
def Spec.Decimal (t : List Char) (x : ℚ) : Prop := ∃ a b : List Char, t = a ++ ['.'] ++ b ∧ a ≠ [] ∧ b ≠ [] ∧ (∀ ch ∈ a ++ b, ch ∈ "0123456789".toList) ∧
  x * 10 ^ b.length = (Nat.ofDigits 10 ((a ++ b).reverse.map fun ch => ch.toNat - '0'.toNat) : Nat)

/-- a text made of the characters of the texts of Python floats -/
def Spec.FloatChars (t : List Char) : Prop := ∀ ch ∈ t, ch ∈ "0123456789.e+-".toList

/-- a run of the solver that ended, with everything that its result file shows: the instance, the problem at the end, the bound `GHOSH_UB`, the time of the search and the time to the solution, the
improvements (value, time) in the order in which they were found, the texts of the coordinates of the cities, and the text and the value of the time that the driver measured -/
structure Spec.Report where
  inst : Nat
  problem : Problem
  ghosh : ℚ
  elapsed : ℚ
  reach : ℚ
  updates : List (ℚ × ℚ)
  cities : List (List Char × List Char)
  wallText : List Char
  wall : ℚ

/-- no time and no length is negative, and the texts of the driver are texts of numbers; the time of the driver is written without an exponent -/
structure Spec.Report.Plain (r : Spec.Report) : Prop where
  value : 0 ≤ r.problem.best.value
  elapsed : 0 ≤ r.elapsed
  reach : 0 ≤ r.reach
  updates : ∀ u ∈ r.updates, 0 ≤ u.1 ∧ 0 ≤ u.2
  cities : ∀ q ∈ r.cities, Spec.FloatChars q.1 ∧ Spec.FloatChars q.2
  wall : Spec.Decimal r.wallText r.wall

/-- the result file of the run -/
def Spec.Report.text (c : Cfg) (r : Spec.Report) : List Char := resultText c r.ghosh r.elapsed (lfText r.reach) r.problem r.updates r.cities r.wallText

/-- what the analyzer has read about the run -/
structure Spec.Report.ReadAs (r : Spec.Report) (x : ResultFile × Option FileRow) : Prop where
  inst : x.1.inst = r.inst
  interrupted : x.1.interrupted = r.problem.interrupted
  cost : Spec.SixDecimals r.problem.best.value x.1.cost
  timeTaken : x.1.timeTaken = r.wall
  elapsed : Spec.SixDecimals r.elapsed x.1.elapsed
  timeToObtain : Spec.SixDecimals r.reach x.1.timeToObtain
  updates : List.Forall₂ (fun u v => Spec.SixDecimals u.1 v.1 ∧ Spec.SixDecimals u.2 v.2) r.updates x.1.updates
  noRow : r.problem.interrupted = true → x.2 = none
  row : r.problem.interrupted = false → ∃ row, x.2 = some row ∧ row.generated = r.problem.generated ∧ row.explored = r.problem.explored ∧ row.maxLevel = r.problem.totLevels ∧
    row.bestLevel = r.problem.best.treeLevel ∧ Spec.SixDecimals r.problem.best.prob row.prob ∧ row.number = r.problem.best.id

/-- the class that the analyzer should give to a solution -/
def Spec.trueClass : BBType → SolType
  | .closedNNHybrid => .nearestHybrid
  | .closedNN => .nearest
  | .closed1Tree => .oneTree
  | _ => .other

end Verif
