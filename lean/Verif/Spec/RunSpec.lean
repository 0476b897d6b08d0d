import Verif.Model.Run

/-!
# What a run of the driver should leave on the disk
-/
namespace Verif.Spec
open Verif
set_option autoImplicit false

/-- the build and the processes do not hang: the network, the solver and the clock have some result -/
structure Total (W : World) : Prop where
  resize : ∀ n m t, ∃ t', W.resize n m t t'
  network : ∀ n m t t', ∃ csv, W.network n m t t' csv
  solver : ∀ c csv, ∃ out, W.solver c csv out
  clock : ∃ wall, W.clock wall

/-- the file of instances with the text `text` has the instance number `i` (its line number `i`, counted from 1): the line `line` with the cities `cities` -/
def IsInstance (W : World) (text : Option Text) (i : Int) (line : Text) (cities : List (ℚ × ℚ)) : Prop :=
  1 ≤ i ∧ ∃ t, text = some t ∧ (fileLines t)[(i - 1).toNat]? = some line ∧ lineCities W.float line = .ok cities

/-- `csv` is a matrix file for the instance with this line and these cities: in classic mode the distances; in hybrid mode what the network, for `m` cities, makes of the instance alone -/
def MatrixOf (W : World) (n m : Nat) (hyb : Bool) (line : Text) (cities : List (ℚ × ℚ)) (csv : Text) : Prop :=
  if hyb then ∃ t, (if n = m then t = line else W.resize n m line t) ∧ W.network n m line t csv
  else csv = classicText W.fmt cities (adjacencyMatrix W.dist cities)

/-- the two files of the instance `i`: its matrix, and the output of a program built for this size and mode on this matrix, followed by the cities of this instance and the time -/
def Solved (W : World) (n m : Nat) (hyb : Bool) (text : Option Text) (d : Disk) (i : Int) : Prop :=
  ∃ line cities csv out wall, IsInstance W text i line cities ∧ MatrixOf W n m hyb line cities csv ∧ W.solver (n, hyb) (some csv) out ∧ W.clock wall ∧
    d.files (matrixPath n i) = some csv ∧ d.files (resultPath n hyb i) = some (out ++ driverText (cities.map fun q => (W.fmt q.1, W.fmt q.2)) wall)

/-- the result file of the instance `i` while the instance is being solved: still the old one, or the beginning of the right new one -/
def InProgress (W : World) (n m : Nat) (hyb : Bool) (text : Option Text) (old d : Disk) (i : Int) : Prop :=
  d.files (resultPath n hyb i) = old.files (resultPath n hyb i) ∨ d.files (resultPath n hyb i) = some [] ∨
  ∃ line cities csv out t, IsInstance W text i line cities ∧ MatrixOf W n m hyb line cities csv ∧ W.solver (n, hyb) (some csv) out ∧
    d.files (matrixPath n i) = some csv ∧ d.files (resultPath n hyb i) = some t ∧
    (t <+: out ∨ ∃ wall, W.clock wall ∧ t <+: out ++ driverText (cities.map fun q => (W.fmt q.1, W.fmt q.2)) wall)

/-- the files of the instance `i` are as before -/
def Untouched (n : Nat) (hyb : Bool) (old d : Disk) (i : Int) : Prop :=
  d.files (matrixPath n i) = old.files (matrixPath n i) ∧ d.files (resultPath n hyb i) = old.files (resultPath n hyb i)

/-- the disk during a run over the instances `l`: some first instances are solved, one is in progress, the others are untouched -/
def Progress (W : World) (n m : Nat) (hyb : Bool) (l : List Int) (old d : Disk) : Prop :=
  d.files (instancesPath n) = old.files (instancesPath n) ∧
  ∃ a b, l = a ++ b ∧ (∀ i ∈ a, Solved W n m hyb (old.files (instancesPath n)) d i) ∧ (∀ i, b.head? = some i → InProgress W n m hyb (old.files (instancesPath n)) old d i) ∧ ∀ i ∈ b.tail, Untouched n hyb old d i

/-- the files that a run over the instances `l` may change -/
def Own (n : Nat) (hyb : Bool) (l : List Int) (p : Text) : Prop := (hyb = true ∧ p = tempPath n) ∨ ∃ i ∈ l, p = matrixPath n i ∨ p = resultPath n hyb i

/-- Python's `int` gives no negative number for a text without a minus sign -/
def IntReader (int : Text → Option Int) : Prop := ∀ s v, '-' ∉ s → int s = some v → 0 ≤ v

end Verif.Spec
