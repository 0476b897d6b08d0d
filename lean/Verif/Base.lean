import Mathlib.Algebra.Order.Ring.Rat
import Mathlib.Algebra.Order.Field.Rat
import Mathlib.Tactic.NormNum

/-!
# Base conventions of the model

* `Fault`/`Res`: every C behaviour that is not a normal return is a distinct outcome.
* `upd`: assignment to one entry of a C array, arrays being functions on indices.
* the constants of `problem_settings.h`.
-/

namespace Verif

/-- The four places of the solver where an access outside an array is possible on good input (`C64_sites`); the fault names the place.
`mandatoryEdges` – the list of mandatory edges of a subproblem, b_and_b_data.h:56; `bestEdges` – the two-element arrays of `mst_to_one_tree`,
branch_and_bound.c:91-92; `degreeList` – the table of `consolidate`, fibonacci_heap.c:116; `minusOne` – the edge array at index `-1`,
branch_and_bound.c:134-161, when no edge was found. -/
inductive Site where
  | mandatoryEdges | bestEdges | degreeList | minusOne
deriving DecidableEq, Repr

/-- The ways a C execution can fail to return normally.
`null` – dereference of a NULL or freed pointer; `oob` – access outside an array (`oobAt`: at a named place);
`exit` – the program calls `exit(..)`; `fuel` – the fuel bound of a modelled loop was hit
(proved unreachable wherever a loop is fuelled); `uninit` – a variable is read that was never set. -/
inductive Fault where
  | null | oob | exit | fuel | uninit | oobAt (site : Site)
deriving DecidableEq, Repr

/-- Result of a C function: a value or a fault. -/
abbrev Res (α : Type) := Except Fault α

instance {α : Type} [DecidableEq α] : DecidableEq (Res α) := fun a b =>
  match a, b with
  | .ok x, .ok y => if h : x = y then isTrue (by rw [h]) else isFalse (by intro e; injection e; contradiction)
  | .error x, .error y => if h : x = y then isTrue (by rw [h]) else isFalse (by intro e; injection e; contradiction)
  | .ok _, .error _ => isFalse (by intro e; cases e)
  | .error _, .ok _ => isFalse (by intro e; cases e)

/-- The rounding of the machine's arithmetic: the result of an operation on `double`s is `fl x`, where `x` is the exact result. It is monotone and leaves the numbers of the format `binary64` as they are, as
every rounding mode of IEEE 754 does. (There is no overflow, and no `NaN`.) Theorems with a variable `[Rounding]` hold for every such rounding. -/
class Rounding where
  fl : ℚ → ℚ
  mono : Monotone fl
  exact : ∀ m e : ℤ, |m| ≤ 2 ^ 53 → -1074 ≤ e → fl (m * 2 ^ e) = m * 2 ^ e

export Rounding (fl)

/-- Exact arithmetic, the rounding that is meant where no other one is named. -/
instance exactArith : Rounding := ⟨fun x => x, fun _ _ h => h, fun _ _ _ _ => rfl⟩

@[simp] theorem fl_exact (x : ℚ) : @fl exactArith x = x := rfl

/-- the arithmetic is exact -/
def Exact [Rounding] : Prop := ∀ x : ℚ, fl x = x

theorem exact_arith : @Exact exactArith := fun _ => rfl

section
variable [Rounding]

theorem fl_mono {x y : ℚ} (h : x ≤ y) : fl x ≤ fl y := Rounding.mono h

theorem fl_int (m : ℤ) (h : |m| ≤ 2 ^ 53) : fl (m : ℚ) = m := by
  have := Rounding.exact m 0 h (by norm_num)
  simpa using this

@[simp] theorem fl_zero : fl 0 = 0 := by
  have := fl_int 0 (by norm_num)
  simpa using this

theorem fl_nonneg {x : ℚ} (h : 0 ≤ x) : 0 ≤ fl x := by
  have := fl_mono h
  rwa [fl_zero] at this

theorem fl_nonpos {x : ℚ} (h : x ≤ 0) : fl x ≤ 0 := by
  have := fl_mono h
  rwa [fl_zero] at this

theorem pos_of_fl {x : ℚ} (h : 0 < fl x) : 0 < x := by
  by_contra hn
  exact absurd (fl_nonpos (not_lt.1 hn)) (not_le.2 h)

/-- the sum of a list, added up from the left by the machine -/
def flSum (l : List ℚ) : ℚ := l.foldl (fun a x => fl (a + x)) 0

theorem flSum_append (l : List ℚ) (x : ℚ) : flSum (l ++ [x]) = fl (flSum l + x) := by
  unfold flSum; rw [List.foldl_append]; rfl

@[simp] theorem flSum_nil : flSum [] = 0 := rfl

end

/-- Dereference of a pointer: NULL is a fault. -/
def deref {α : Type} : Option α → Res α
  | some a => .ok a
  | none => .error .null

@[simp] theorem deref_some {α : Type} (a : α) : deref (some a) = .ok a := rfl
@[simp] theorem deref_none {α : Type} : deref (none : Option α) = .error .null := rfl

@[simp] theorem ok_bind {α β : Type} (a : α) (f : α → Res β) : (Except.ok a >>= f) = f a := rfl
@[simp] theorem error_bind {α β : Type} (e : Fault) (f : α → Res β) :
    ((Except.error e : Res α) >>= f) = .error e := rfl
@[simp] theorem pure_eq_ok {α : Type} (a : α) : (pure a : Res α) = .ok a := rfl

theorem bind_eq_ok {α β : Type} {x : Res α} {f : α → Res β} {b : β} :
    (x >>= f) = .ok b ↔ ∃ a, x = .ok a ∧ f a = .ok b := by
  cases x with
  | error e => simp
  | ok a => simp

/-- the fault of a result, if any -/
def faultOf {α : Type} : Res α → Option Fault
  | .error f => some f
  | .ok _ => none

theorem eq_error_iff {α : Type} {x : Res α} {f : Fault} : x = .error f ↔ faultOf x = some f := by
  cases x with
  | error e => simp [faultOf]
  | ok a => simp [faultOf]

/-- Array assignment `a[i] = v`. -/
def upd {α : Type} (f : Nat → α) (i : Nat) (v : α) : Nat → α := fun j => if j = i then v else f j

theorem upd_apply {α : Type} (f : Nat → α) (i : Nat) (v : α) (j : Nat) :
    upd f i v j = if j = i then v else f j := rfl
@[simp] theorem upd_self {α : Type} (f : Nat → α) (i : Nat) (v : α) : upd f i v i = v := by simp [upd]
theorem upd_ne {α : Type} (f : Nat → α) {i j : Nat} (v : α) (h : j ≠ i) : upd f i v j = f j := by simp [upd, h]

/-- `DBL_MAX` (float.h), the value of `INFINITE`, problem_settings.h:35. -/
def DBL_MAX : ℚ := 2 ^ 1024 - 2 ^ 971

/-- `INFINITE`, problem_settings.h:35. -/
def INFINITE : ℚ := DBL_MAX

/-- `FLT_MAX` (float.h), used by `constrained_prim`, branch_and_bound.c:582. -/
def FLT_MAX : ℚ := 2 ^ 128 - 2 ^ 104

end Verif
