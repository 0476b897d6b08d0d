import Verif.Model.Bound
import Verif.Props.Fixing
import Verif.Props.Dfs
import Verif.Proofs.Near
import Mathlib.Tactic.FieldSimp
import Mathlib.Tactic.Ring
import Mathlib.Tactic.Linarith
import Mathlib.Tactic.Positivity

/-!
# Arithmetic of the subgradient steps of `bound`
-/
namespace Verif
open Verif.Spec
set_option autoImplicit false

variable [Rounding]

/-- the step length in exact arithmetic -/
def idealStep (N iter : Nat) (t0 : ℚ) : ℚ := t0 * (1 - ((iter : ℚ) - 1) / ((N : ℚ) - 1)) * (1 - ((iter : ℚ) - 1) / (2 * ((N : ℚ) - 2)))

omit [Rounding] in
theorem idealStep_bounds {N iter : Nat} (hN : 3 ≤ N) (h1 : 1 ≤ iter) (h2 : iter ≤ N) {t0 : ℚ} (ht : 0 ≤ t0) :
    0 ≤ idealStep N iter t0 ∧ idealStep N iter t0 ≤ t0 * (1 - ((iter : ℚ) - 1) / ((N : ℚ) - 1)) := by
  have h3 : (3 : ℚ) ≤ N := by exact_mod_cast hN
  have i1 : (1 : ℚ) ≤ iter := by exact_mod_cast h1
  have i2 : (iter : ℚ) ≤ N := by exact_mod_cast h2
  have p1 : (0 : ℚ) < (N : ℚ) - 1 := by linarith
  have p2 : (0 : ℚ) < 2 * ((N : ℚ) - 2) := by linarith
  have a1 : ((iter : ℚ) - 1) / ((N : ℚ) - 1) ≤ 1 := by rw [div_le_one p1]; linarith
  have b1 : ((iter : ℚ) - 1) / (2 * ((N : ℚ) - 2)) ≤ 1 := by rw [div_le_one p2]; linarith
  have b0 : 0 ≤ ((iter : ℚ) - 1) / (2 * ((N : ℚ) - 2)) := div_nonneg (by linarith) p2.le
  have q : 0 ≤ t0 * (1 - ((iter : ℚ) - 1) / ((N : ℚ) - 1)) := mul_nonneg ht (by linarith)
  exact ⟨mul_nonneg q (by linarith), mul_le_of_le_one_right q (by linarith)⟩

/-- the error of the step length, in terms of its parts -/
theorem step_error {ε M : ℚ} (hx : Near ε M) {N m k q den t0 T : ℚ} (h3 : 3 ≤ N) (ht : 0 ≤ t0) (hT : t0 ≤ T) (hT0 : 0 ≤ T) (h0 : 0 ≤ ε) (m0 : 0 ≤ m) (mN : m ≤ N) (kN : |k| ≤ N) (q0 : 0 ≤ q) (q1 : q ≤ 1)
    (den1 : N + 1 ≤ den) (hfine : (N + 6) * (T + 1) * ε ≤ 1) (hM : 4 * (N * N) * (T + 2) ≤ M) :
    |fl (fl (fl (fl (m * fl q) * t0) - fl (k * t0)) + fl (fl (fl (t0 * m) * k) / den)) - (m * q * t0 - k * t0 + t0 * m * k / den)| ≤ (N + 6) * (T + 1) * ε := by
  -- sizes
  have NN : N ≤ N * N := by nlinarith
  have NT : 0 ≤ N * T := by positivity
  have NNT : N * T ≤ N * N * T := mul_le_mul_of_nonneg_right NN hT0
  have g1 : N * ε * T + N * ε + 6 * ε * T + 6 * ε ≤ 1 := by linarith [show (N + 6) * (T + 1) * ε = N * ε * T + N * ε + 6 * ε * T + 6 * ε by ring]
  have NeT : 0 ≤ N * ε * T := by positivity
  have Ne : 0 ≤ N * ε := by positivity
  have eT : 0 ≤ ε * T := by positivity
  have hM' : 4 * (N * N * T) + 8 * (N * N) ≤ M := by linarith [show 4 * (N * N) * (T + 2) = 4 * (N * N * T) + 8 * (N * N) by ring]
  -- the first product
  have s1 : |fl q - q| ≤ ε := hx.err q (by rw [abs_of_nonneg q0]; linarith)
  have s2 : |m * fl q - m * q| ≤ N * ε := by
    rw [← mul_sub, abs_mul, abs_of_nonneg m0]
    exact mul_le_mul mN s1 (abs_nonneg _) (by linarith)
  have mq0 : 0 ≤ m * q := mul_nonneg m0 q0
  have mqN : m * q ≤ N := by nlinarith
  have s3 : |fl (m * fl q) - m * q| ≤ N * ε + ε := hx.close s2 (by rw [abs_of_nonneg mq0]; linarith)
  have s4 : |fl (m * fl q) * t0 - m * q * t0| ≤ N * ε * T + ε * T := by
    rw [← sub_mul, abs_mul, abs_of_nonneg ht]
    have := mul_le_mul s3 hT ht (by linarith)
    linarith
  have mqt0 : 0 ≤ m * q * t0 := mul_nonneg mq0 ht
  have mqtN : m * q * t0 ≤ N * T := mul_le_mul mqN hT ht (by linarith)
  have s5 : |fl (fl (m * fl q) * t0) - m * q * t0| ≤ N * ε * T + ε * T + ε := hx.close s4 (by rw [abs_of_nonneg mqt0]; linarith)
  -- the second
  have ktN : |k * t0| ≤ N * T := by
    rw [abs_mul, abs_of_nonneg ht]; exact mul_le_mul kN hT ht (by linarith)
  have s6 : |fl (k * t0) - k * t0| ≤ ε := hx.err _ (by linarith)
  have s7 : |fl (fl (m * fl q) * t0) - fl (k * t0) - (m * q * t0 - k * t0)| ≤ N * ε * T + ε * T + 2 * ε := by
    have a := abs_le.1 s5
    have b := abs_le.1 s6
    rw [abs_le]; constructor <;> linarith
  have d1 : |m * q * t0 - k * t0| ≤ 2 * (N * T) := by
    have b := abs_le.1 ktN
    rw [abs_le]; constructor <;> linarith
  have s8 := hx.close s7 (by linarith)
  -- the quotient
  have tm0 : 0 ≤ t0 * m := mul_nonneg ht m0
  have tmN : t0 * m ≤ N * T := by
    have := mul_le_mul hT mN m0 hT0
    linarith
  have s9 : |fl (t0 * m) - t0 * m| ≤ ε := hx.err _ (by rw [abs_of_nonneg tm0]; linarith)
  have s10 : |fl (t0 * m) * k - t0 * m * k| ≤ N * ε := by
    rw [← sub_mul, abs_mul]
    have := mul_le_mul s9 kN (abs_nonneg _) h0
    linarith
  have tmk : |t0 * m * k| ≤ N * N * T := by
    rw [abs_mul, abs_of_nonneg tm0]
    have := mul_le_mul tmN kN (abs_nonneg _) NT
    linarith
  have s11 : |fl (fl (t0 * m) * k) - t0 * m * k| ≤ N * ε + ε := hx.close s10 (by linarith)
  have den0 : 0 < den := by linarith
  have s12 : |fl (fl (t0 * m) * k) / den - t0 * m * k / den| ≤ ε := by
    rw [← sub_div, abs_div, abs_of_pos den0, div_le_iff₀ den0]
    have := mul_le_mul_of_nonneg_left den1 h0
    linarith
  have d2 : |t0 * m * k / den| ≤ N * N * T := by
    rw [abs_div, abs_of_pos den0, div_le_iff₀ den0]
    exact tmk.trans (le_mul_of_one_le_right (by positivity) (by linarith))
  have s13 : |fl (fl (fl (t0 * m) * k) / den) - t0 * m * k / den| ≤ ε + ε := hx.close s12 (by linarith)
  have s14 : |fl (fl (fl (m * fl q) * t0) - fl (k * t0)) + fl (fl (fl (t0 * m) * k) / den) - (m * q * t0 - k * t0 + t0 * m * k / den)| ≤ N * ε * T + ε * T + 5 * ε := by
    have a := abs_le.1 s8
    have b := abs_le.1 s13
    rw [abs_le]; constructor <;> linarith
  have s15 := hx.close s14 (by
    have := abs_add_le (m * q * t0 - k * t0) (t0 * m * k / den)
    linarith)
  linarith [show (N + 6) * (T + 1) * ε = N * ε * T + N * ε + 6 * (ε * T) + 6 * ε by ring]

/-- the error of the step length -/
theorem stepLen_near {ε M : ℚ} (hx : Near ε M) {N iter : Nat} (hi : ∀ m : Nat, m ≤ 2 * (N * N) → fl (m : ℚ) = m) (hN : 3 ≤ N) (h1 : 1 ≤ iter) (h2 : iter ≤ N) {t0 T : ℚ} (ht : 0 ≤ t0) (hT : t0 ≤ T)
    (hfine : ((N : ℚ) + 6) * (T + 1) * ε ≤ 1) (hM : 4 * ((N : ℚ) * N) * (T + 2) ≤ M) : |stepLen N iter t0 - idealStep N iter t0| ≤ ((N : ℚ) + 6) * (T + 1) * ε := by
  have h0 := hx.nonneg
  have h3 : (3 : ℚ) ≤ N := by exact_mod_cast hN
  have i1 : (1 : ℚ) ≤ iter := by exact_mod_cast h1
  have i2 : (iter : ℚ) ≤ N := by exact_mod_cast h2
  have hT0 : 0 ≤ T := ht.trans hT
  -- the whole numbers
  have e1 : fl (2 * (N : ℚ) - 5) = 2 * (N : ℚ) - 5 := by
    have := hi (2 * N - 5) (by have := Nat.le_mul_self N; omega)
    rwa [Nat.cast_sub (by omega), Nat.cast_mul] at this
  have e2 : fl (2 * ((N : ℚ) - 1)) = 2 * ((N : ℚ) - 1) := by
    have := hi (2 * (N - 1)) (by have := Nat.le_mul_self N; omega)
    rwa [Nat.cast_mul, Nat.cast_sub (by omega), Nat.cast_ofNat, Nat.cast_one] at this
  have e3 : fl ((N : ℚ) - 1) = (N : ℚ) - 1 := by
    have := hi (N - 1) (by have := Nat.le_mul_self N; omega)
    rwa [Nat.cast_sub (by omega), Nat.cast_one] at this
  have e4 : fl ((N : ℚ) - 2) = (N : ℚ) - 2 := by
    have := hi (N - 2) (by have := Nat.le_mul_self N; omega)
    rwa [Nat.cast_sub (by omega), Nat.cast_ofNat] at this
  have e5 : fl (2 * ((N : ℚ) - 1) * ((N : ℚ) - 2)) = 2 * ((N : ℚ) - 1) * ((N : ℚ) - 2) := by
    have := hi (2 * (N - 1) * (N - 2)) (by
      have := Nat.mul_le_mul (Nat.sub_le N 1) (Nat.sub_le N 2)
      rw [Nat.mul_assoc]; omega)
    rwa [Nat.cast_mul, Nat.cast_mul, Nat.cast_sub (by omega), Nat.cast_sub (by omega), Nat.cast_ofNat, Nat.cast_one] at this
  have e6 : fl ((iter : ℚ) - 1) = (iter : ℚ) - 1 := by
    have := hi (iter - 1) (by have := Nat.le_mul_self N; omega)
    rwa [Nat.cast_sub (by omega), Nat.cast_one] at this
  have e7 : fl ((iter : ℚ) - 2) = (iter : ℚ) - 2 := by
    have := fl_int (-1) (by norm_num)
    rcases Nat.lt_or_ge iter 2 with h' | h'
    · obtain rfl : iter = 1 := by omega
      norm_num at this ⊢; exact this
    · have := hi (iter - 2) (by have := Nat.le_mul_self N; omega)
      rwa [Nat.cast_sub (by omega), Nat.cast_ofNat] at this
  have hideal : idealStep N iter t0 = (((iter : ℚ) - 1) * ((2 * (N : ℚ) - 5) / (2 * ((N : ℚ) - 1))) * t0 - ((iter : ℚ) - 2) * t0) + t0 * ((iter : ℚ) - 1) * ((iter : ℚ) - 2) / (2 * ((N : ℚ) - 1) * ((N : ℚ) - 2)) := by
    have h1 : (N : ℚ) - 1 ≠ 0 := by linarith
    have h2 : (N : ℚ) - 2 ≠ 0 := by linarith
    unfold idealStep
    field_simp
    ring
  unfold stepLen
  rw [hideal, e1, e2, e3, e2, e4, e5, e6, e7]
  set m := (iter : ℚ) - 1 with hm
  set k := (iter : ℚ) - 2 with hk
  have m0 : 0 ≤ m := by rw [hm]; linarith
  have mN : m ≤ N := by rw [hm]; linarith
  have kN : |k| ≤ N := by rw [hk, abs_le]; constructor <;> linarith
  set q := (2 * (N : ℚ) - 5) / (2 * ((N : ℚ) - 1)) with hq
  have q0 : 0 ≤ q := div_nonneg (by linarith) (by linarith)
  have q1 : q ≤ 1 := by rw [hq, div_le_one (by linarith)]; linarith
  set den := 2 * ((N : ℚ) - 1) * ((N : ℚ) - 2) with hden
  have den1 : (N : ℚ) + 1 ≤ den := by rw [hden]; nlinarith
  exact step_error hx h3 ht hT hT0 h0 m0 mN kN q0 q1 den1 hfine hM

/-- the sum of the first `m` relative step lengths (an upper bound of it) -/
def stepSum (N m : Nat) : ℚ := (m : ℚ) - (m : ℚ) * ((m : ℚ) - 1) / (2 * ((N : ℚ) - 1))

omit [Rounding] in
theorem stepSum_succ {N m : Nat} (hN : 3 ≤ N) : stepSum N (m + 1) = stepSum N m + (1 - (m : ℚ) / ((N : ℚ) - 1)) := by
  have h3 : (3 : ℚ) ≤ N := by exact_mod_cast hN
  have h1 : (N : ℚ) - 1 ≠ 0 := by linarith
  unfold stepSum
  push_cast
  field_simp
  ring

omit [Rounding] in
theorem stepSum_le {N m : Nat} (hN : 3 ≤ N) (hm : m ≤ N) : stepSum N m ≤ (N : ℚ) / 2 := by
  have h3 : (3 : ℚ) ≤ N := by exact_mod_cast hN
  have p1 : (0 : ℚ) < (N : ℚ) - 1 := by linarith
  have key : (N : ℚ) / 2 - stepSum N m = ((N : ℚ) - m) * ((N : ℚ) - m - 1) / (2 * ((N : ℚ) - 1)) := by
    unfold stepSum
    have h1 : (N : ℚ) - 1 ≠ 0 := by linarith
    field_simp
    ring
  have hnn : 0 ≤ ((N : ℚ) - m) * ((N : ℚ) - m - 1) := by
    rcases Nat.lt_or_ge m N with h | h
    · have : ((m : ℚ) + 1) ≤ N := by exact_mod_cast h
      exact mul_nonneg (by linarith) (by linarith)
    · have : m = N := le_antisymm hm h
      subst this; simp
  have := div_nonneg hnn (by linarith : (0 : ℚ) ≤ 2 * ((N : ℚ) - 1))
  linarith

omit [Rounding] in
theorem stepSum_nonneg {N m : Nat} (hN : 3 ≤ N) (hm : m ≤ N) : 0 ≤ stepSum N m := by
  have h3 : (3 : ℚ) ≤ N := by exact_mod_cast hN
  have p1 : (0 : ℚ) < 2 * ((N : ℚ) - 1) := by linarith
  have hmn : (m : ℚ) ≤ N := by exact_mod_cast hm
  have m0 : (0 : ℚ) ≤ m := by positivity
  unfold stepSum
  have : (m : ℚ) * ((m : ℚ) - 1) / (2 * ((N : ℚ) - 1)) ≤ m := by
    rw [div_le_iff₀ p1]
    exact mul_le_mul_of_nonneg_left (by linarith) m0
  linarith

/-- the move of a dual variable -/
def move (t x v vo : ℚ) : ℚ := fl (x + fl (fl (fl (fl (3 / 5) * t) * v) + fl (fl (fl (2 / 5) * t) * vo)))

/-- the loop that moves the dual variables -/
theorem dualLoop_ok (v : Nat → ℚ) (t : ℚ) (pi vo : Nat → ℚ) (k : Nat) :
    let d := (List.range k).foldl (dualStep v t) (pi, vo, 0)
    (∀ j, d.1 j = if j < k ∧ v j ≠ 0 then move t (pi j) (v j) (vo j) else pi j) ∧
    (∀ j, d.2.1 j = if j < k then v j else vo j) ∧ d.2.2 = flSum ((List.range k).map d.1) := by
  induction k with
  | zero => simp
  | succ k ih =>
    simp only at ih ⊢
    rw [List.range_succ, List.foldl_append, List.foldl_cons, List.foldl_nil]
    generalize (List.range k).foldl (dualStep v t) (pi, vo, 0) = d at ih
    obtain ⟨h1, h2, h3⟩ := ih
    have hk : d.1 k = pi k := by rw [h1, if_neg (by omega)]
    have hvk : d.2.1 k = vo k := by rw [h2, if_neg (by omega)]
    have e1 : ∀ j, (dualStep v t d k).1 j = if j < k + 1 ∧ v j ≠ 0 then move t (pi j) (v j) (vo j) else pi j := by
      intro j
      unfold dualStep
      simp only [hk, hvk]
      by_cases hjk : j = k
      · subst hjk
        by_cases hv : v j = 0
        · rw [if_neg (by simpa using hv), if_neg (by simp [hv]), hk]
        · rw [if_pos hv, if_pos ⟨by omega, hv⟩, upd_apply, if_pos rfl]
          rfl
      · have : (if v k ≠ 0 then upd d.1 k (fl (pi k + fl (fl (fl (fl (3 / 5) * t) * v k) + fl (fl (fl (2 / 5) * t) * vo k)))) else d.1) j = d.1 j := by
          split
          · rw [upd_apply, if_neg hjk]
          · rfl
        rw [this, h1]
        have : (j < k ∧ v j ≠ 0) ↔ (j < k + 1 ∧ v j ≠ 0) := by
          constructor
          · rintro ⟨a, b⟩; exact ⟨by omega, b⟩
          · rintro ⟨a, b⟩; exact ⟨by omega, b⟩
        simp only [this]
    refine ⟨e1, ?_, ?_⟩
    · intro j
      unfold dualStep
      simp only [upd_apply]
      by_cases hjk : j = k
      · subst hjk; rw [if_pos rfl, if_pos (by omega)]
      · rw [if_neg hjk, h2]
        have : j < k ↔ j < k + 1 := by omega
        simp only [this]
    · rw [List.map_append, List.map_singleton, flSum_append]
      have : (dualStep v t d k).2.2 = fl (d.2.2 + (dualStep v t d k).1 k) := rfl
      rw [this, h3]
      congr 3
      refine List.map_congr_left fun j hj => ?_
      rw [List.mem_range] at hj
      rw [e1, h1]
      have : (j < k ∧ v j ≠ 0) ↔ (j < k + 1 ∧ v j ≠ 0) := by
        constructor
        · rintro ⟨a, b⟩; exact ⟨by omega, b⟩
        · rintro ⟨a, b⟩; exact ⟨by omega, b⟩
      simp only [this]

/-- the error of a move -/
theorem move_near {ε M : ℚ} (hx : Near ε M) {t x v vo T P n : ℚ} (hT : |t| ≤ T + 1) (hT0 : 0 ≤ T) (hP : |x| ≤ P) (hn : 1 ≤ n) (hv : |v| ≤ n) (hvo : |vo| ≤ n) (hfine : n * (T + 4) * ε ≤ 1)
    (hM : P + n * (T + 4) + 4 ≤ M) : |move t x v vo - (x + (3 / 5 * t * v + 2 / 5 * t * vo))| ≤ 2 * n * (T + 2) * ε + 4 * ε := by
  have h0 := hx.nonneg
  have hP0 : 0 ≤ P := (abs_nonneg _).trans hP
  have nT : 0 ≤ n * T := by positivity
  have nnT : T ≤ n * T := by nlinarith
  have g1 : n * T * ε + 4 * (n * ε) ≤ 1 := by linarith [show n * (T + 4) * ε = n * T * ε + 4 * (n * ε) by ring]
  have nTe : 0 ≤ n * T * ε := by positivity
  have ne : 0 ≤ n * ε := by positivity
  have e_ne : ε ≤ n * ε := by nlinarith
  have Te : T * ε ≤ n * T * ε := mul_le_mul_of_nonneg_right nnT h0
  have Te0 : 0 ≤ T * ε := by positivity
  have hM' : P + n * T + 4 * n + 4 ≤ M := by linarith [show n * (T + 4) = n * T + 4 * n by ring]
  have part : ∀ {g y : ℚ}, 0 ≤ g → g ≤ 3 / 5 → |y| ≤ n → |fl (fl (fl g * t) * y) - g * t * y| ≤ n * (T + 2) * ε + ε ∧ |g * t * y| ≤ 3 / 5 * (n * T + n) := by
    intro g y hg0 hg hy
    have s1 : |fl g - g| ≤ ε := hx.err g (by rw [abs_of_nonneg hg0]; linarith)
    have s2 : |fl g * t - g * t| ≤ T * ε + ε := by
      rw [← sub_mul, abs_mul]
      have := mul_le_mul s1 hT (abs_nonneg _) h0
      linarith
    have d1 : |g * t| ≤ 3 / 5 * (T + 1) := by
      rw [abs_mul, abs_of_nonneg hg0]; exact mul_le_mul hg hT (abs_nonneg _) (by norm_num)
    have s3 : |fl (fl g * t) - g * t| ≤ T * ε + ε + ε := hx.close s2 (by linarith)
    have s4 : |fl (fl g * t) * y - g * t * y| ≤ n * (T + 2) * ε := by
      rw [← sub_mul, abs_mul]
      have := mul_le_mul s3 hy (abs_nonneg _) (by linarith)
      linarith
    have d2 : |g * t * y| ≤ 3 / 5 * (n * T + n) := by
      rw [abs_mul]
      have := mul_le_mul d1 hy (abs_nonneg _) (by linarith)
      linarith
    exact ⟨hx.close s4 (by linarith [show n * (T + 2) * ε = n * T * ε + 2 * (n * ε) by ring]), d2⟩
  obtain ⟨a1, a2⟩ := part (g := 3 / 5) (y := v) (by norm_num) (by norm_num) hv
  obtain ⟨b1, b2⟩ := part (g := 2 / 5) (y := vo) (by norm_num) (by norm_num) hvo
  have exp : n * (T + 2) * ε = n * T * ε + 2 * (n * ε) := by ring
  have s5 : |fl (fl (fl (3 / 5) * t) * v) + fl (fl (fl (2 / 5) * t) * vo) - (3 / 5 * t * v + 2 / 5 * t * vo)| ≤ 2 * (n * (T + 2) * ε) + 2 * ε := by
    have a := abs_le.1 a1
    have b := abs_le.1 b1
    rw [abs_le]; constructor <;> linarith
  have d3 : |3 / 5 * t * v + 2 / 5 * t * vo| ≤ n * T + n := by
    have c1 : |3 / 5 * t * v| ≤ 3 / 5 * (n * T + n) := a2
    have c2 : |2 / 5 * t * vo| ≤ 2 / 5 * (n * T + n) := by
      rw [abs_mul, abs_mul, abs_of_pos (by norm_num : (0 : ℚ) < 2 / 5)]
      have := mul_le_mul hT hvo (abs_nonneg _) (by linarith)
      nlinarith
    have := abs_add_le (3 / 5 * t * v) (2 / 5 * t * vo)
    linarith
  have s6 := hx.close s5 (by linarith)
  have s7 : |x + fl (fl (fl (fl (3 / 5) * t) * v) + fl (fl (fl (2 / 5) * t) * vo)) - (x + (3 / 5 * t * v + 2 / 5 * t * vo))| ≤ 2 * (n * (T + 2) * ε) + 2 * ε + ε := by
    rw [add_sub_add_left_eq_sub]; exact s6
  have s8 := hx.close s7 (by
    have := abs_add_le x (3 / 5 * t * v + 2 / 5 * t * vo)
    linarith)
  unfold move
  linarith

/-- the error of a weight -/
theorem reweigh_near {ε M : ℚ} (hx : Near ε M) {w s : ℚ} (hs : |s| + ε ≤ M) (hw : |w + s| + ε ≤ M) : |reweigh w s - (w + s)| ≤ 2 * ε := by
  have h0 := hx.nonneg
  have s1 := hx.err s (by linarith)
  unfold reweigh
  split
  · have s2 : |w + fl s - (w + s)| ≤ ε := by rw [add_sub_add_left_eq_sub]; exact s1
    have := hx.close s2 hw
    linarith
  · next h =>
    push Not at h
    rw [h] at s1
    rw [show w - (w + s) = 0 - s by ring]
    linarith

end Verif
