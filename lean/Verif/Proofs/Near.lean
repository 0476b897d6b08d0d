import Verif.Spec.Near
import Mathlib.Tactic.Ring
import Mathlib.Tactic.Linarith
import Mathlib.Tactic.Positivity
import Mathlib.Tactic.FieldSimp

/-!
# Consequences of a bounded rounding error
-/
namespace Verif
open Verif.Spec
set_option autoImplicit false

variable [Rounding] {ε M : ℚ}

theorem Spec.Near.of_exact (hx : Exact) (M : ℚ) : Near 0 M :=
  ⟨le_refl _, fun x _ => by rw [hx]; simp, fun x => by rw [hx, hx]⟩

theorem Spec.Near.mono (h : Near ε M) {M' : ℚ} (hM : M' ≤ M) : Near ε M' := ⟨h.nonneg, fun x hx => h.err x (hx.trans hM), h.idem⟩

/-- an upper bound survives rounding, up to `ε` -/
theorem Spec.Near.le (h : Near ε M) {x y : ℚ} (hxy : x ≤ y) (hy : |y| ≤ M) : fl x ≤ y + ε := by
  have h1 := fl_mono hxy
  have h2 := (abs_le.1 (h.err y hy)).2
  linarith

theorem Spec.Near.ge (h : Near ε M) {x y : ℚ} (hxy : y ≤ x) (hy : |y| ≤ M) : y - ε ≤ fl x := by
  have h1 := fl_mono hxy
  have h2 := (abs_le.1 (h.err y hy)).1
  linarith

/-- a bound of the rounded number is one of the number -/
theorem Spec.Near.of_le (h : Near ε M) {x y : ℚ} (hfl : fl x ≤ y) (hy : 0 ≤ y) (hM : y + ε < M) : x ≤ y + ε := by
  by_contra hcon
  push Not at hcon
  have h0 := h.nonneg
  rcases le_total x M with hx | hx
  · have := (abs_le.1 (h.err x (by rw [abs_of_nonneg (by linarith)]; exact hx))).1
    linarith
  · have h1 := fl_mono hx
    have := (abs_le.1 (h.err M (by rw [abs_of_nonneg (by linarith)]))).1
    linarith

theorem Spec.Near.close (h : Near ε M) {x y d : ℚ} (hxy : |x - y| ≤ d) (hx : |y| + d ≤ M) : |fl x - y| ≤ d + ε := by
  have h1 := abs_le.1 hxy
  have hx' : |x| ≤ M := by
    have := abs_add_le (x - y) y
    rw [sub_add_cancel] at this
    linarith
  have h2 := abs_le.1 (h.err x hx')
  rw [abs_le]; constructor <;> linarith

/-- the error of a sum -/
theorem Spec.Near.sum (h : Near ε M) {B : ℚ} (l : List ℚ) (hl : ∀ x ∈ l, |x| ≤ B) (hM : (l.length : ℚ) * (B + ε) ≤ M) (hB : 0 ≤ B) :
    |flSum l - l.sum| ≤ l.length * ε ∧ |l.sum| ≤ l.length * B := by
  have h0 := h.nonneg
  induction l using List.reverseRecOn with
  | nil => simp
  | append_singleton l x ih =>
    rw [List.length_append, List.length_singleton] at hM ⊢
    push_cast at hM ⊢
    have hl0 : (0 : ℚ) ≤ l.length := by positivity
    obtain ⟨h1, h2⟩ := ih (fun y hy => hl y (by simp [hy])) (by nlinarith)
    have hx := hl x (by simp)
    rw [flSum_append, List.sum_append, List.sum_singleton]
    have h4 : |l.sum + x| ≤ (l.length + 1) * B := by
      have := abs_add_le l.sum x
      linarith
    refine ⟨?_, h4⟩
    have h3 : |flSum l + x - (l.sum + x)| ≤ l.length * ε := by
      rw [show flSum l + x - (l.sum + x) = flSum l - l.sum by ring]; exact h1
    have := h.close h3 (by linarith)
    linarith

end Verif
