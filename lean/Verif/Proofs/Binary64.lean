import Verif.Spec.Binary64
import Mathlib.Tactic.Linarith
import Mathlib.Tactic.Positivity
import Mathlib.Tactic.Ring

/-!
# The roundings of IEEE 754 are roundings
-/
namespace Verif
open Verif.Spec
set_option autoImplicit false

theorem nearestEven_int (m : ℤ) : nearestEven m = m := by
  unfold nearestEven
  simp

theorem nearestEven_bounds (q : ℚ) : ⌊q⌋ ≤ nearestEven q ∧ nearestEven q ≤ ⌊q⌋ + 1 := by
  unfold nearestEven
  split
  · omega
  · split
    · omega
    · split <;> omega

theorem nearestEven_mono : Monotone nearestEven := by
  intro x y h
  rcases lt_or_eq_of_le (Int.floor_mono h) with h1 | h1
  · have := (nearestEven_bounds x).2
    have := (nearestEven_bounds y).1
    omega
  · unfold nearestEven
    rw [h1]
    by_cases a : x - ⌊y⌋ < 1 / 2
    · rw [if_pos a]
      have := (nearestEven_bounds y).1
      exact this
    · rw [if_neg a]
      have b : ¬ y - ⌊y⌋ < 1 / 2 := by linarith
      rw [if_neg b]
      by_cases a' : 1 / 2 < x - ⌊y⌋
      · rw [if_pos a', if_pos (by linarith)]
      · rw [if_neg a']
        by_cases b' : 1 / 2 < y - ⌊y⌋
        · rw [if_pos b']; split <;> omega
        · rw [if_neg b']

theorem nearestEven_error (q : ℚ) : |(nearestEven q : ℚ) - q| ≤ 1 / 2 := by
  have h1 := Int.floor_le q
  have h2 := Int.lt_floor_add_one q
  unfold nearestEven
  rw [abs_le]
  split
  · constructor <;> linarith
  · next h =>
    split
    · next h' => push_cast; constructor <;> linarith
    · next h' => split <;> (push_cast; constructor <;> linarith)

section
variable {r : ℚ → ℤ} (hm : Monotone r) (hi : ∀ m : ℤ, r m = m)
include hm hi

theorem pow_split {e e' : ℤ} (h : e ≤ e') : ∃ k : ℕ, (2 : ℚ) ^ e' = 2 ^ k * 2 ^ e := by
  refine ⟨(e' - e).toNat, ?_⟩
  rw [← zpow_natCast, ← zpow_add₀ (by norm_num), Int.toNat_of_nonneg (by omega)]
  congr 1; omega

theorem roundAt_le {e e' m : ℤ} (h : e ≤ e') {z : ℚ} (hz : z ≤ m * 2 ^ e') : (r (z / 2 ^ e) : ℚ) * 2 ^ e ≤ m * 2 ^ e' := by
  obtain ⟨k, hk⟩ := pow_split hm hi h
  have hp : (0 : ℚ) < 2 ^ e := zpow_pos (by norm_num) _
  rw [hk, ← mul_assoc] at hz ⊢
  refine mul_le_mul_of_nonneg_right ?_ hp.le
  have h1 : z / 2 ^ e ≤ ((m * 2 ^ k : ℤ) : ℚ) := by
    rw [div_le_iff₀ hp]; push_cast; exact hz
  have := hm h1
  rw [hi] at this
  have h2 : ((r (z / 2 ^ e) : ℤ) : ℚ) ≤ ((m * 2 ^ k : ℤ) : ℚ) := by exact_mod_cast this
  push_cast at h2
  exact h2

theorem le_roundAt {e e' m : ℤ} (h : e ≤ e') {z : ℚ} (hz : (m : ℚ) * 2 ^ e' ≤ z) : (m : ℚ) * 2 ^ e' ≤ (r (z / 2 ^ e) : ℚ) * 2 ^ e := by
  obtain ⟨k, hk⟩ := pow_split hm hi h
  have hp : (0 : ℚ) < 2 ^ e := zpow_pos (by norm_num) _
  rw [hk, ← mul_assoc] at hz ⊢
  refine mul_le_mul_of_nonneg_right ?_ hp.le
  have h1 : ((m * 2 ^ k : ℤ) : ℚ) ≤ z / 2 ^ e := by
    rw [le_div_iff₀ hp]; push_cast; exact hz
  have := hm h1
  rw [hi] at this
  have h2 : ((m * 2 ^ k : ℤ) : ℚ) ≤ ((r (z / 2 ^ e) : ℤ) : ℚ) := by exact_mod_cast this
  push_cast at h2
  exact h2

omit hm hi in
theorem lastBit_mono {x y : ℚ} (hx : x ≠ 0) (h : |x| ≤ |y|) : lastBit x ≤ lastBit y := by
  unfold lastBit
  have := Int.log_mono_right (b := 2) (abs_pos.2 hx) h
  omega

omit hm hi in
/-- numbers of different sizes are separated by a power of two -/
theorem separate {x y : ℚ} (hy : y ≠ 0) (h : lastBit x < lastBit y) :
    ∃ L : ℤ, |x| ≤ 2 ^ L ∧ 2 ^ L ≤ |y| ∧ lastBit x ≤ L ∧ lastBit y ≤ L := by
  unfold lastBit at h ⊢
  refine ⟨Int.log 2 |y|, ?_, Int.zpow_log_le_self (b := 2) (by norm_num) (abs_pos.2 hy), by omega, by omega⟩
  have h1 := Int.lt_zpow_succ_log_self (b := 2) (R := ℚ) (by norm_num) |x|
  refine h1.le.trans ?_
  refine zpow_le_zpow_right₀ (by norm_num) ?_
  omega

theorem roundBy_nonneg {x : ℚ} (h : 0 ≤ x) : 0 ≤ roundBy r x := by
  have := le_roundAt hm hi (m := 0) (e := lastBit x) (le_refl _) (z := x) (by simpa using h)
  simpa [roundBy] using this

theorem roundBy_nonpos {x : ℚ} (h : x ≤ 0) : roundBy r x ≤ 0 := by
  have := roundAt_le hm hi (m := 0) (e := lastBit x) (le_refl _) (z := x) (by simpa using h)
  simpa [roundBy] using this

omit hi in
theorem roundBy_same {x y : ℚ} (h : x ≤ y) (e : lastBit x = lastBit y) : roundBy r x ≤ roundBy r y := by
  unfold roundBy
  rw [e]
  have hp : (0 : ℚ) < 2 ^ lastBit y := zpow_pos (by norm_num) _
  refine mul_le_mul_of_nonneg_right ?_ hp.le
  exact_mod_cast hm (div_le_div_of_nonneg_right h hp.le)

theorem roundBy_mono : Monotone (roundBy r) := by
  intro x y h
  rcases le_or_gt x 0 with hx | hx
  · rcases le_or_gt 0 y with hy | hy
    · exact (roundBy_nonpos hm hi hx).trans (roundBy_nonneg hm hi hy)
    · have hx' : x < 0 := lt_of_le_of_lt h hy
      have hle := lastBit_mono (x := y) (y := x) hy.ne (by rw [abs_of_neg hy, abs_of_neg hx']; linarith)
      rcases lt_or_eq_of_le hle with hlt | heq
      · obtain ⟨L, h1, h2, h3, h4⟩ := separate hx'.ne hlt
        rw [abs_of_neg hy] at h1
        rw [abs_of_neg hx'] at h2
        have k1 := roundAt_le hm hi (m := -1) h4 (z := x) (by push_cast; linarith)
        have k2 := le_roundAt hm hi (m := -1) h3 (z := y) (by push_cast; linarith)
        exact k1.trans k2
      · exact roundBy_same hm h heq.symm
  · have hy : 0 < y := lt_of_lt_of_le hx h
    have hle := lastBit_mono (x := x) (y := y) hx.ne' (by rw [abs_of_pos hx, abs_of_pos hy]; exact h)
    rcases lt_or_eq_of_le hle with hlt | heq
    · obtain ⟨L, h1, h2, h3, h4⟩ := separate hy.ne' hlt
      rw [abs_of_pos hx] at h1
      rw [abs_of_pos hy] at h2
      have k1 := roundAt_le hm hi (m := 1) h3 (z := x) (by push_cast; linarith)
      have k2 := le_roundAt hm hi (m := 1) h4 (z := y) (by push_cast; linarith)
      exact k1.trans k2
    · exact roundBy_same hm h heq

theorem roundBy_of {x : ℚ} {m e : ℤ} (hx : x = m * 2 ^ e) (he : lastBit x ≤ e) : roundBy r x = x := by
  refine le_antisymm ?_ ?_
  · have := roundAt_le hm hi he (z := x) hx.le
    rw [← hx] at this; exact this
  · have := le_roundAt hm hi he (z := x) hx.ge
    rw [← hx] at this; exact this

theorem roundBy_exact (m e : ℤ) (h : |m| ≤ 2 ^ 53) (he : -1074 ≤ e) : roundBy r ((m : ℚ) * 2 ^ e) = m * 2 ^ e := by
  by_cases h0 : m = 0
  · subst h0
    refine le_antisymm ?_ ?_
    · simpa using roundBy_nonpos hm hi (le_refl (0 : ℚ))
    · simpa using roundBy_nonneg hm hi (le_refl (0 : ℚ))
  have hp : (0 : ℚ) < 2 ^ e := zpow_pos (by norm_num) _
  have habs : |(m : ℚ) * 2 ^ e| = |(m : ℚ)| * 2 ^ e := by rw [abs_mul, abs_of_pos hp]
  have hpos : 0 < |(m : ℚ) * 2 ^ e| := abs_pos.2 (mul_ne_zero (by exact_mod_cast h0) hp.ne')
  rcases lt_or_eq_of_le h with h1 | h1
  · refine roundBy_of hm hi rfl ?_
    unfold lastBit
    have h2 : |(m : ℚ) * 2 ^ e| < 2 ^ (53 + e) := by
      rw [habs, zpow_add₀ (by norm_num)]
      refine mul_lt_mul_of_pos_right ?_ hp
      exact_mod_cast h1
    have h3 := (Int.lt_zpow_iff_log_lt (b := 2) (by norm_num) hpos).1 (by exact_mod_cast h2)
    omega
  · have hs : (m : ℚ) * 2 ^ e = ((m / 2 : ℤ) : ℚ) * 2 ^ (e + 1) := by
      have : m = 2 * (m / 2) := by
        rcases abs_choice m with h' | h' <;> omega
      rw [zpow_add₀ (by norm_num), zpow_one]
      conv_lhs => rw [this]
      push_cast; ring
    refine roundBy_of hm hi hs ?_
    unfold lastBit
    have h2 : |(m : ℚ) * 2 ^ e| < 2 ^ (54 + e) := by
      rw [habs, zpow_add₀ (by norm_num)]
      refine mul_lt_mul_of_pos_right ?_ hp
      have : |m| < 2 ^ 54 := by omega
      exact_mod_cast this
    have h3 := (Int.lt_zpow_iff_log_lt (b := 2) (by norm_num) hpos).1 (by exact_mod_cast h2)
    omega

end

/-- the arithmetic of `double` that rounds to integers by `r` -/
@[instance_reducible] def ieee (r : ℚ → ℤ) (hm : Monotone r) (hi : ∀ m : ℤ, r m = m) : Rounding := ⟨roundBy r, roundBy_mono hm hi, roundBy_exact hm hi⟩

/-- if `r` rounds to an integer at distance at most `d`, the relative error is at most `d / 2 ^ 52` -/
theorem ieee_accurate {r : ℚ → ℤ} (hm : Monotone r) (hi : ∀ m : ℤ, r m = m) {d : ℚ} (hd : ∀ q : ℚ, |(r q : ℚ) - q| ≤ d) : @Accurate (ieee r hm hi) (d / 2 ^ 52) := by
  let _ := ieee r hm hi
  have hd0 : 0 ≤ d := (abs_nonneg _).trans (hd 0)
  have hb : ∀ x : ℚ, -1074 ≤ lastBit x := fun x => le_max_right _ _
  refine ⟨?_, ?_⟩
  · intro k
    show ∃ k' : ℤ, roundBy r _ = _
    unfold roundBy
    obtain ⟨j, hj⟩ := pow_split hm hi (hb ((k : ℚ) * 2 ^ (-1074 : ℤ)))
    rw [hj]
    exact ⟨r _ * 2 ^ j, by push_cast; rw [mul_assoc]⟩
  · intro k
    show |roundBy r _ - _| ≤ _
    generalize hx : (k : ℚ) * 2 ^ (-1074 : ℤ) = x
    by_cases hx0 : x = 0
    · subst hx0
      have := roundBy_exact hm hi 0 0 (by norm_num) (by norm_num)
      simp only [Int.cast_zero, zero_mul] at this
      rw [this]; simp
    by_cases hl : lastBit x = -1074
    · rw [roundBy_of hm hi hx.symm hl.le, sub_self, abs_zero]
      positivity
    · have hlog : lastBit x = Int.log 2 |x| - 52 := by
        have := hb x
        unfold lastBit at this hl ⊢
        omega
      have hp : (0 : ℚ) < 2 ^ lastBit x := zpow_pos (by norm_num) _
      have h1 : |roundBy r x - x| = |(r (x / 2 ^ lastBit x) : ℚ) - x / 2 ^ lastBit x| * 2 ^ lastBit x := by
        unfold roundBy
        rw [← abs_of_pos hp, ← abs_mul, sub_mul, abs_of_pos hp, div_mul_cancel₀ _ hp.ne']
      rw [h1]
      have h2 : (2 : ℚ) ^ lastBit x * 2 ^ 52 ≤ |x| := by
        rw [hlog, ← zpow_natCast, ← zpow_add₀ (by norm_num)]
        have := Int.zpow_log_le_self (b := 2) (R := ℚ) (by norm_num) (abs_pos.2 hx0)
        simpa using this
      calc _ ≤ d * 2 ^ lastBit x := mul_le_mul_of_nonneg_right (hd _) hp.le
        _ = d / 2 ^ 52 * (2 ^ lastBit x * 2 ^ 52) := by field_simp
        _ ≤ d / 2 ^ 52 * |x| := mul_le_mul_of_nonneg_left h2 (by positivity)

end Verif
