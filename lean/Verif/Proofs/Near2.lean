import Verif.Proofs.Binary64
import Verif.Proofs.Near
import Verif.Props.Rounding

/-!
# The arithmetic of `double` has a bounded error
-/
namespace Verif
open Verif.Spec
set_option autoImplicit false

/-- the relative error of rounding is at most `u`, for numbers that are not tiny; a rounded number is not changed by rounding it again -/
def Spec.Precise [Rounding] (u : ℚ) : Prop := ∀ M, 1 ≤ M → Near (u * M) M

theorem roundBy_error {r : ℚ → ℤ} {d : ℚ} (hd : ∀ q : ℚ, |(r q : ℚ) - q| ≤ d) {x M : ℚ} (hM : 1 ≤ M) (hx : |x| ≤ M) : |roundBy r x - x| ≤ d / 2 ^ 52 * M := by
  have hd0 : 0 ≤ d := (abs_nonneg _).trans (hd 0)
  have hp : (0 : ℚ) < 2 ^ lastBit x := zpow_pos (by norm_num) _
  have h1 : |roundBy r x - x| = |(r (x / 2 ^ lastBit x) : ℚ) - x / 2 ^ lastBit x| * 2 ^ lastBit x := by
    unfold roundBy
    rw [← abs_of_pos hp, ← abs_mul, sub_mul, abs_of_pos hp, div_mul_cancel₀ _ hp.ne']
  rw [h1]
  have h2 : (2 : ℚ) ^ lastBit x * 2 ^ 52 ≤ M := by
    rw [← zpow_natCast, ← zpow_add₀ (by norm_num)]
    rcases le_total (Int.log 2 |x| - 52) (-1074) with hl | hl
    · have : lastBit x = -1074 := by unfold lastBit; omega
      rw [this]
      refine le_trans ?_ hM
      exact zpow_le_one_of_nonpos₀ (by norm_num) (by norm_num)
    · have : lastBit x = Int.log 2 |x| - 52 := by unfold lastBit; omega
      rw [this]
      by_cases hx0 : x = 0
      · subst hx0
        simpa using hM
      have := Int.zpow_log_le_self (b := 2) (R := ℚ) (by norm_num) (abs_pos.2 hx0)
      have h3 := this.trans hx
      simpa using h3
  calc _ ≤ d * 2 ^ lastBit x := mul_le_mul_of_nonneg_right (hd _) hp.le
    _ = d / 2 ^ 52 * (2 ^ lastBit x * 2 ^ 52) := by field_simp
    _ ≤ d / 2 ^ 52 * M := mul_le_mul_of_nonneg_left h2 (by positivity)

theorem roundBy_idem {r : ℚ → ℤ} (hm : Monotone r) (hi : ∀ m : ℤ, r m = m) (x : ℚ) : roundBy r (roundBy r x) = roundBy r x := by
  have hp : (0 : ℚ) < 2 ^ lastBit x := zpow_pos (by norm_num) _
  have h1 : |x / 2 ^ lastBit x| ≤ 2 ^ 53 := by
    rw [abs_div, abs_of_pos hp, div_le_iff₀ hp]
    have h2 := Int.lt_zpow_succ_log_self (b := 2) (R := ℚ) (by norm_num) |x|
    refine h2.le.trans ?_
    rw [← zpow_natCast, ← zpow_add₀ (by norm_num)]
    refine zpow_le_zpow_right₀ (by norm_num) ?_
    unfold lastBit
    push_cast
    omega
  have h3 : |r (x / 2 ^ lastBit x)| ≤ 2 ^ 53 := by
    rw [abs_le] at h1 ⊢
    refine ⟨?_, ?_⟩
    · have := hm h1.1
      have e : (-2 ^ 53 : ℚ) = ((-2 ^ 53 : ℤ) : ℚ) := by push_cast; rfl
      rw [e, hi] at this
      exact this
    · have := hm h1.2
      have e : (2 ^ 53 : ℚ) = ((2 ^ 53 : ℤ) : ℚ) := by push_cast; rfl
      rw [e, hi] at this
      exact this
  exact roundBy_exact hm hi (r (x / 2 ^ lastBit x)) (lastBit x) h3 (le_max_right _ _)

theorem ieee_precise {r : ℚ → ℤ} (hm : Monotone r) (hi : ∀ m : ℤ, r m = m) {d : ℚ} (hd : ∀ q : ℚ, |(r q : ℚ) - q| ≤ d) : @Precise (ieee r hm hi) (d / 2 ^ 52) := by
  let _ := ieee r hm hi
  have hd0 : 0 ≤ d := (abs_nonneg _).trans (hd 0)
  intro M hM
  refine ⟨by positivity, fun x hx => roundBy_error hd hM hx, fun x => roundBy_idem hm hi x⟩

/-- rounding to the nearest has relative error at most `2 ^ -53`, rounding down or up `2 ^ -52` -/
theorem precise_machine : @Precise nearest (1 / 2 ^ 53) ∧ @Precise downward (1 / 2 ^ 52) ∧ @Precise upward (1 / 2 ^ 52) := by
  refine ⟨?_, ?_, ?_⟩
  · have := ieee_precise nearestEven_mono nearestEven_int nearestEven_error
    have e : (1 / 2 : ℚ) / 2 ^ 52 = 1 / 2 ^ 53 := by norm_num
    rw [e] at this
    exact this
  · refine ieee_precise _ _ fun q => ?_
    have h1 := Int.floor_le q
    have h2 := Int.lt_floor_add_one q
    rw [abs_le]; constructor <;> linarith
  · refine ieee_precise _ _ fun q => ?_
    have h1 := Int.le_ceil q
    have h2 := Int.ceil_lt_add_one q
    rw [abs_le]; constructor <;> linarith

section
variable [Rounding]

theorem Spec.Precise.of_exact (hx : Exact) : Precise 0 := fun M _ => by
  rw [zero_mul]; exact Near.of_exact hx M

theorem flSum_le_half (l : List ℚ) (h : ∀ x ∈ l, x ≤ 3 / 2) (hn : l.length ≤ 65535) : flSum l ≤ l.length * (3 / 2) := by
  induction l using List.reverseRecOn with
  | nil => simp
  | append_singleton l x ih =>
    rw [flSum_append]
    rw [List.length_append, List.length_singleton] at hn ⊢
    have h1 := ih (fun y hy => h y (by simp [hy])) (by omega)
    have h2 := h x (by simp)
    have h3 : flSum l + x ≤ ((l.length + 1 : Nat) : ℚ) * (3 / 2) := by push_cast; linarith
    refine (fl_mono h3).trans (le_of_eq ?_)
    have := Rounding.exact ((l.length + 1 : Nat) * 3 : ℤ) (-1) (by
      rw [abs_of_nonneg (by positivity)]
      push_cast
      omega) (by norm_num)
    have e : (((l.length + 1 : Nat) * 3 : ℤ) : ℚ) * 2 ^ (-1 : ℤ) = ((l.length + 1 : Nat) : ℚ) * (3 / 2) := by
      push_cast; norm_num; ring
    rwa [e] at this

/-- bounds for cities in the unit square: `5 n² N u`, with `N` the number of dual steps at the root, bounds the error of a rounding -/
def squareScale (n : Nat) (u : ℚ) : Scale := ⟨n * (3 / 2), 3 / 2, u * (5 * ((n : ℚ) * n) * rootSteps n)⟩

theorem squareScale_T {n : Nat} (u : ℚ) (hn : 14 ≤ n) : (squareScale n u).T n = 3 / 4 := by
  unfold Scale.T squareScale
  have h0 : (n : ℚ) ≠ 0 := by
    have : n ≠ 0 := by omega
    exact_mod_cast this
  have e : (n : ℚ) * (3 / 2) / (2 * (n : ℚ)) = ((6 : Nat) : ℚ) / 8 := by field_simp; norm_num
  simp only
  rw [e, fl_eighth 6 (by norm_num)]
  norm_num

theorem squareScale_fits {c : Cfg} {p : Problem} {u : ℚ} (hP : Precise u) (hu : u ≤ 1 / 2 ^ 52) (heps : c.eps ≤ 1) (hw : ∀ e ∈ edgeSet p.graph, weight p.graph e ≤ 3 / 2 ∧ fl (weight p.graph e) = weight p.graph e)
    (hb : p.bestValue ≤ c.maxV * (3 / 2)) (h1 : 14 ≤ c.maxV) (h2 : c.maxV ≤ 362) : Fits (squareScale c.maxV u) c p := by
  have hu0 : 0 ≤ u := by have := (hP 1 (le_refl _)).nonneg; linarith
  generalize hn : c.maxV = n at *
  have hT := squareScale_T (n := n) u h1
  have hsq : n * n ≤ 362 * 362 := Nat.mul_le_mul h2 h2
  have hsq' : 14 * n ≤ n * n := Nat.mul_le_mul_right _ h1
  have hN1 : rootSteps n ≤ 3008 := by unfold rootSteps; omega
  have hN2 : n + 25 ≤ rootSteps n := by unfold rootSteps; omega
  have hN3 : 4 * rootSteps n ≤ n * n := by unfold rootSteps; omega
  have hK1 : nodeSteps n ≤ n / 4 + 15 := le_refl _
  have hK2 : nodeSteps n ≤ 105 := by unfold nodeSteps; omega
  have hK3 : nodeSteps n ≤ rootSteps n := by unfold nodeSteps rootSteps; omega
  have hK4 : 4 * nodeSteps n ≤ n + 60 := by unfold nodeSteps; omega
  have q14 : (14 : ℚ) ≤ n := by exact_mod_cast h1
  have q362 : (n : ℚ) ≤ 362 := by exact_mod_cast h2
  have qN1 : (rootSteps n : ℚ) ≤ 3008 := by exact_mod_cast hN1
  have qN2 : (n : ℚ) + 25 ≤ rootSteps n := by exact_mod_cast hN2
  have qN3 : 4 * (rootSteps n : ℚ) ≤ n * n := by exact_mod_cast hN3
  have qK2 : (nodeSteps n : ℚ) ≤ 105 := by exact_mod_cast hK2
  have qK4 : 4 * (nodeSteps n : ℚ) ≤ n + 60 := by exact_mod_cast hK4
  have qK0 : (0 : ℚ) ≤ nodeSteps n := by positivity
  have hε : (squareScale n u).ε = u * (5 * ((n : ℚ) * n) * rootSteps n) := rfl
  have hU : (squareScale n u).U = n * (3 / 2) := rfl
  have hW : (squareScale n u).W = 3 / 2 := rfl
  have hdr : ∀ K : Nat, (squareScale n u).drift n K = n * ((K : ℚ) + 14) * (7 / 4) * (squareScale n u).ε := by
    intro K; unfold Scale.drift; rw [hT]; norm_num
  have hsmall : n ≤ 100 → (rootSteps n : ℚ) ≤ 325 ∧ (nodeSteps n : ℚ) ≤ 40 := by
    intro h
    have : n * n ≤ 100 * 100 := Nat.mul_le_mul h h
    refine ⟨?_, ?_⟩
    · have : rootSteps n ≤ 325 := by unfold rootSteps; omega
      exact_mod_cast this
    · have : nodeSteps n ≤ 40 := by unfold nodeSteps; omega
      exact_mod_cast this
  have hN0 : (0 : ℚ) ≤ rootSteps n := by positivity
  have hints : ∀ m : Nat, m ≤ 2 * (rootSteps n * rootSteps n) → fl (m : ℚ) = m := by
    intro m hm
    have : rootSteps n * rootSteps n ≤ 3008 * 3008 := Nat.mul_le_mul hN1 hN1
    have := fl_int (m : ℤ) (by rw [abs_of_nonneg (by positivity)]; norm_num; omega)
    simpa using this
  have hfine0 : 0 ≤ (squareScale n u).drift n (rootSteps n) ∧ (squareScale n u).drift n (rootSteps n) ≤ 1 := by
    rw [hdr, hε]
    generalize (rootSteps n : ℚ) = N at *
    generalize (n : ℚ) = x at *
    refine ⟨by positivity, ?_⟩
    have a1 : x * (N + 14) ≤ 362 * 3022 := mul_le_mul q362 (by linarith) (by linarith) (by norm_num)
    have a2 : 5 * (x * x) * N ≤ 5 * (362 * 362) * 3008 :=
      mul_le_mul (mul_le_mul_of_nonneg_left (mul_le_mul q362 q362 (by linarith) (by norm_num)) (by norm_num)) qN1 hN0 (by norm_num)
    have a3 : u * (5 * (x * x) * N) ≤ 1 / 2 ^ 52 * (5 * (362 * 362) * 3008) := mul_le_mul hu a2 (by positivity) (by norm_num)
    calc x * (N + 14) * (7 / 4) * (u * (5 * (x * x) * N)) ≤ 362 * 3022 * (7 / 4) * (1 / 2 ^ 52 * (5 * (362 * 362) * 3008)) :=
          mul_le_mul (mul_le_mul_of_nonneg_right a1 (by norm_num)) a3 (by positivity) (by norm_num)
      _ ≤ 1 := by norm_num
  have hnn : (14 : ℚ) * n ≤ n * n := mul_le_mul_of_nonneg_right q14 (by linarith)
  have hneed : (squareScale n u).need c.eps n (rootSteps n) ≤ 5 * ((n : ℚ) * n) * rootSteps n := by
    unfold Scale.need Scale.P
    rw [hT, hU, hW]
    generalize (squareScale n u).drift n (rootSteps n) = D at *
    generalize (rootSteps n : ℚ) = N at *
    generalize (n : ℚ) = x at *
    have b1 : N * D ≤ N := by nlinarith
    have b2 : x * (N * D) ≤ x * N := mul_le_mul_of_nonneg_left b1 (by linarith)
    have b3 : 4 * N * N ≤ x * x * N := mul_le_mul_of_nonneg_right qN3 hN0
    have b4 : 14 * x * N ≤ x * x * N := mul_le_mul_of_nonneg_right hnn hN0
    have b5 : x * 39 ≤ x * N := mul_le_mul_of_nonneg_left (by linarith) (by linarith)
    nlinarith
  refine ⟨?_, ?_, ?_, ?_, ?_, ?_, ?_, ?_, ?_⟩
  · rw [hn]
    refine Near.mono ?_ hneed
    rw [hε]
    refine hP _ ?_
    have b4 : 14 * (n : ℚ) * rootSteps n ≤ n * n * rootSteps n := mul_le_mul_of_nonneg_right hnn hN0
    have b5 : (n : ℚ) * 39 ≤ n * rootSteps n := mul_le_mul_of_nonneg_left (by linarith) (by linarith)
    linarith
  · rw [hn]; exact hints
  · rw [hU]; linarith
  · rw [hW]; norm_num
  · exact hb
  · exact hw
  · rw [hn]; exact hfine0.2
  · rw [hn, hT, hdr]
    have hE : (n : ℚ) ≤ 100 ∧ n ≤ 100 ∨ (100 : ℚ) ≤ n := by
      rcases le_total n 100 with h | h
      · exact .inl ⟨by exact_mod_cast h, h⟩
      · exact .inr (by exact_mod_cast h)
    rw [hε]
    have key : ∀ x0 N0 K0 : ℚ, (n : ℚ) ≤ x0 → (rootSteps n : ℚ) ≤ N0 → (nodeSteps n : ℚ) ≤ K0 → 
        2 * (nodeSteps n : ℚ) * (n * ((nodeSteps n : ℚ) + 14) * (7 / 4) * (u * (5 * ((n : ℚ) * n) * rootSteps n))) + 2 * (u * (5 * ((n : ℚ) * n) * rootSteps n)) ≤
        2 * K0 * (x0 * (K0 + 14) * (7 / 4) * (1 / 2 ^ 52 * (5 * (x0 * x0) * N0))) + 2 * (1 / 2 ^ 52 * (5 * (x0 * x0) * N0)) := by
      intro x0 N0 K0 hx hN hK
      have hx0 : (0 : ℚ) ≤ n := by positivity
      have hx1 : 0 ≤ x0 := hx0.trans hx
      have hNN : 0 ≤ N0 := hN0.trans hN
      have hKK : 0 ≤ K0 := qK0.trans hK
      gcongr
    rcases hE with ⟨hx, hx'⟩ | hx
    · have := key 100 325 40 hx (hsmall hx').1 (hsmall hx').2
      have e : (2 * 40 * (100 * (40 + 14) * (7 / 4) * (1 / 2 ^ 52 * (5 * (100 * 100) * 325))) + 2 * (1 / 2 ^ 52 * (5 * (100 * 100) * 325)) : ℚ) ≤ 1 / 10 := by norm_num
      linarith
    · have := key 362 3008 105 q362 qN1 qK2
      have e : (2 * 105 * (362 * (105 + 14) * (7 / 4) * (1 / 2 ^ 52 * (5 * (362 * 362) * 3008))) + 2 * (1 / 2 ^ 52 * (5 * (362 * 362) * 3008)) : ℚ) ≤ 10 := by norm_num
      linarith
  · intro e he
    have h3 := (hw e he).1
    rw [hn, hT]
    have : (10 : ℚ) ^ 30 ≤ FLT_MAX := by unfold FLT_MAX; norm_num
    have a1 : (n : ℚ) * (3 / 4) * rootSteps n ≤ 362 * (3 / 4) * 3008 := by gcongr
    have a2 : 2 * (rootSteps n : ℚ) * (squareScale n u).drift n (rootSteps n) ≤ 2 * 3008 * 1 := by
      have := hfine0
      generalize (squareScale n u).drift n (rootSteps n) = D at *
      have h0 := this.1
      have h1 := this.2
      gcongr
    have a3 : (squareScale n u).ε ≤ 1 / 2 ^ 52 * (5 * (362 * 362) * 3008) := by
      rw [hε]; gcongr
    have : (1 / 2 ^ 52 * (5 * (362 * 362) * 3008) : ℚ) ≤ 1 := by norm_num
    linarith

end

end Verif
