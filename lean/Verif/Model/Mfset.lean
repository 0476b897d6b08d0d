import Verif.Base

/-!
# Model of the merge-find set, `data_structures/mfset.c`

`Set` structures are identified with their index in `forest->sets`; an entry that was never
initialised (the candidate's, in `create_forest_constrained`) is `none` and touching it is a fault.
The payload `curr` (a copy of the graph node) is not modelled: nothing reads it except printing.
-/
namespace Verif.Mf
open Verif
set_option autoImplicit false

/-- `Set`, mfset.h:19-24. -/
structure SetRec where
  parent : Option Nat
  rango : Nat
  num : Nat
deriving DecidableEq, Repr

/-- `Forest`, mfset.h:28-31. -/
abbrev Forest := Nat → Option SetRec

/-- `create_forest`, mfset.c:31-41. -/
def createForest (n : Nat) : Forest :=
  fun i => if i < n then some ⟨none, 0, i⟩ else none

/-- `create_forest_constrained`, mfset.c:17-28. -/
def createForestConstrained (n candidate : Nat) : Forest :=
  fun i => if i < n ∧ i ≠ candidate then some ⟨none, 0, i⟩ else none

/-- `find` with path compression, mfset.c:44-50; the first argument bounds the recursion depth. -/
def find : Nat → Forest → Nat → Res (Nat × Forest)
  | 0, _, _ => .error .fuel
  | k + 1, f, x => do
    let r ← deref (f x)
    match r.parent with
    | none => pure (x, f)
    | some p =>
      let (root, f') ← find k f p
      let r' ← deref (f' x)
      pure (root, upd f' x (some { r' with parent := some root }))

/-- `merge` by rank, mfset.c:53-69. -/
def merge (fuel : Nat) (f : Forest) (x y : Nat) : Res Forest := do
  let (r1, f1) ← find fuel f x
  let (r2, f2) ← find fuel f1 y
  let s1 ← deref (f2 r1)
  let s2 ← deref (f2 r2)
  if s1.num ≠ s2.num then
    if s1.rango > s2.rango then
      pure (upd f2 r2 (some { s2 with parent := some r1 }))
    else if s1.rango < s2.rango then
      pure (upd f2 r1 (some { s1 with parent := some r2 }))
    else
      let f3 := upd f2 r2 (some { s2 with parent := some r1 })
      let s1' ← deref (f3 r1)
      pure (upd f3 r1 (some { s1' with rango := s1'.rango + 1 }))
  else pure f2

end Verif.Mf
