import Verif.Model.PrintEdges
import Verif.Proofs.Prim

/-!
# C100: printing edges
-/
namespace Verif
set_option autoImplicit false

theorem nodeText_length {k j : Nat} (h : k < 10 ^ j) (hj : 0 < j) : (nodeText k).length ≤ j := by
  unfold nodeText
  split
  · simp; omega
  · rw [List.length_map, List.length_reverse, Nat.digits_length_le_iff (by norm_num)]; exact h

theorem lt_nodeText_length {k j : Nat} (h : 10 ^ j ≤ k) : j < (nodeText k).length := by
  unfold nodeText
  rw [if_neg (by have : 0 < 10 ^ j := by positivity
                 omega), List.length_map, List.length_reverse, Nat.lt_digits_length_iff (by norm_num)]
  exact h

theorem nodeText_ne (k : Nat) : 0 < (nodeText k).length := by
  unfold nodeText
  split
  · simp
  · next h => rw [List.length_map, List.length_reverse]; exact List.length_pos_iff.2 (Nat.digits_ne_nil_iff_ne_zero.2 h)

theorem log_ten_pos : 0 < Real.log 10 := Real.log_pos (by norm_num)

/-- the size of the second buffer -/
theorem dim_small {n k : Nat} (hn : 0 < n) (hk : n < 10 ^ (k + 1)) (h16 : n ≤ 65535) {dim : ℝ} (hd : |dim - exactDim n| ≤ 1 / 2 ^ 40) : ⌊dim - 7⌋.toNat / 2 ≤ k + 1 := by
  have hlt : dim - 7 < 2 * (k : ℝ) + 4 := by
    have h1 := (abs_le.1 hd).2
    unfold exactDim at h1
    by_cases hk5 : 5 ≤ k
    · -- a 16-bit number is far below
      have hlog : Real.log n ≤ Real.log 10 * 5 := by
        have : Real.log n ≤ Real.log ((10 : ℝ) ^ (5 : ℕ)) := Real.log_le_log (by exact_mod_cast hn) (by
          have : (n : ℝ) ≤ 65535 := by exact_mod_cast h16
          norm_num; linarith)
        rw [Real.log_pow] at this
        push_cast at this
        linarith
      have hq : Real.log n / Real.log 10 ≤ 5 := by rw [div_le_iff₀ log_ten_pos]; linarith
      have hk' : (5 : ℝ) ≤ k := by exact_mod_cast hk5
      have : (1 : ℝ) / 2 ^ 40 ≤ 1 := by norm_num
      linarith
    · have hN : (n : ℝ) ≤ 10 ^ (k + 1) - 1 := by
        have : n + 1 ≤ 10 ^ (k + 1) := hk
        have : ((n + 1 : ℕ) : ℝ) ≤ ((10 ^ (k + 1) : ℕ) : ℝ) := by exact_mod_cast this
        push_cast at this
        linarith
      have hn' : (0 : ℝ) < n := by exact_mod_cast hn
      have hP : (0 : ℝ) < 10 ^ (k + 1) := by positivity
      have hP5 : (10 : ℝ) ^ (k + 1) ≤ 10 ^ 5 := pow_le_pow_right₀ (by norm_num) (by omega)
      have l1 : 1 - (10 ^ (k + 1) / (n : ℝ))⁻¹ ≤ Real.log (10 ^ (k + 1) / (n : ℝ)) := Real.one_sub_inv_le_log_of_pos (by positivity)
      rw [inv_div, Real.log_div hP.ne' hn'.ne', Real.log_pow] at l1
      push_cast at l1
      have l2 : (1 : ℝ) / 10 ^ 5 ≤ 1 - (n : ℝ) / 10 ^ (k + 1) := by
        have : (n : ℝ) / 10 ^ (k + 1) ≤ 1 - 1 / 10 ^ (k + 1) := by
          rw [div_le_iff₀ hP, sub_mul, one_div, inv_mul_cancel₀ hP.ne']; linarith
        have h2 : (1 : ℝ) / 10 ^ 5 ≤ 1 / 10 ^ (k + 1) := one_div_le_one_div_of_le hP hP5
        linarith
      have l3 : Real.log 10 ≤ 9 := by
        have := Real.log_le_sub_one_of_pos (show (0 : ℝ) < 10 by norm_num)
        linarith
      have l4 : Real.log n / Real.log 10 ≤ k + 1 - 1 / 10 ^ 6 := by
        rw [div_le_iff₀ log_ten_pos]
        have : (1 : ℝ) / 10 ^ 6 * Real.log 10 ≤ 1 / 10 ^ 6 * 9 := by gcongr
        have n1 : (1 : ℝ) / 10 ^ 6 * 9 ≤ 1 / 10 ^ 5 := by norm_num
        linarith
      have n2 : (1 : ℝ) / 2 ^ 40 < 2 * (1 / 10 ^ 6) := by norm_num
      linarith
  have hfl : ⌊dim - 7⌋ < 2 * (k : ℤ) + 4 := by
    rw [Int.floor_lt]
    push_cast
    exact hlt
  omega

/-- C100 fails. For every number of nodes from 2 to 65535 (the type is 16 bits wide) that is not a power of ten, printing writes outside the buffer for the destination as soon as an edge leads to a node whose number
is as long as that of the last node, such as the last node itself. (`dim` may have been computed with an error.) -/
theorem C100_fails {n : Nat} (h2 : 2 ≤ n) (h16 : n ≤ 65535) (hp : ∀ k, n ≠ 10 ^ k) {dim : ℝ} (hd : |dim - exactDim n| ≤ 1 / 2 ^ 40) (line : Edge → List Char → List Char) {l : List Edge} {e : Edge} (he : e ∈ l)
    (hlen : (nodeText (n - 1)).length ≤ (nodeText e.dest).length) : printEdges dim line l = .error .oob := by
  obtain ⟨k, h1, h3⟩ : ∃ k, 10 ^ k ≤ n ∧ n < 10 ^ (k + 1) := ⟨Nat.log 10 n, Nat.pow_log_le_self 10 (by omega), Nat.lt_pow_succ_log_self (by norm_num) n⟩
  have hk : 10 ^ k ≤ n - 1 := by have := hp k; omega
  have hs := dim_small (by omega) h3 h16 hd
  have hl := lt_nodeText_length hk
  have hedge : edgeText dim e.src e.dest = .error .oob := by
    have hbad : putString (⌊dim - 7⌋.toNat / 2) (nodeText e.dest) = .error .oob := by
      unfold putString
      rw [if_neg (by omega)]
    unfold edgeText
    unfold putString at hbad ⊢
    rw [hbad]
    by_cases c1 : (nodeText e.src).length + 1 ≤ ⌊dim⌋.toNat
    · rw [if_pos c1, ok_bind]
      by_cases c2 : (nodeText e.src ++ " <--> ".toList).length + 1 ≤ ⌊dim⌋.toNat
      · rw [if_pos c2, ok_bind]; rfl
      · rw [if_neg c2]; rfl
    · rw [if_neg c1]; rfl
  have hfault : ∀ (a b : Nat) (x : Fault), edgeText dim a b = .error x → x = .oob := by
    intro a b x hx
    unfold edgeText putString at hx
    split at hx
    · rw [ok_bind] at hx
      split at hx
      · rw [ok_bind] at hx
        split at hx
        · rw [ok_bind] at hx
          split at hx
          · cases hx
          · cases hx; rfl
        · cases hx; rfl
      · cases hx; rfl
    · cases hx; rfl
  induction l with
  | nil => cases he
  | cons a l ih =>
    rw [printEdges]
    rcases List.mem_cons.1 he with rfl | he
    · rw [hedge]; rfl
    · cases ht : edgeText dim a.src a.dest with
      | error x => rw [hfault _ _ _ ht]; rfl
      | ok t => rw [ok_bind, ih he]; rfl

/-- C100 for powers of ten: if the computed value is not below the exact one, every edge is printed as `src <--> dest`, in order, and nothing is written outside the buffers. -/
theorem C100_powers_partial {k : Nat} (hk : 0 < k) {dim : ℝ} (hd : exactDim (10 ^ k) ≤ dim) (line : Edge → List Char → List Char) : ∀ {l : List Edge}, (∀ e ∈ l, e.src < 10 ^ k ∧ e.dest < 10 ^ k) →
    printEdges dim line l = .ok (l.flatMap fun e => line e (nodeText e.src ++ " <--> ".toList ++ nodeText e.dest)) := by
  have hv : exactDim (10 ^ k) = 2 * (k : ℝ) + 9 := by
    unfold exactDim
    push_cast
    rw [Real.log_pow, mul_div_assoc, div_self log_ten_pos.ne']
    ring
  rw [hv] at hd
  have f1 : 2 * k + 9 ≤ ⌊dim⌋.toNat := by
    have : (2 * (k : ℤ) + 9) ≤ ⌊dim⌋ := by rw [Int.le_floor]; push_cast; exact hd
    omega
  have f2 : k + 1 ≤ ⌊dim - 7⌋.toNat / 2 := by
    have : (2 * (k : ℤ) + 2) ≤ ⌊dim - 7⌋ := by rw [Int.le_floor]; push_cast; linarith
    omega
  intro l
  induction l with
  | nil => intro _; rfl
  | cons e l ih =>
    intro h
    obtain ⟨h1, h2⟩ := h e (by simp)
    have a1 := nodeText_length h1 hk
    have a2 := nodeText_length h2 hk
    have harrow : " <--> ".toList.length = 6 := by decide
    have : edgeText dim e.src e.dest = .ok (nodeText e.src ++ " <--> ".toList ++ nodeText e.dest) := by
      unfold edgeText putString
      rw [if_pos (by omega), ok_bind, if_pos (by rw [List.length_append]; omega), ok_bind, if_pos (by omega), ok_bind, if_pos (by rw [List.length_append, List.length_append]; omega)]
    rw [printEdges, this, ok_bind, ih fun x hx => h x (by simp [hx]), ok_bind]
    rfl

/-! ### Examples -/

/-- twenty nodes (the size of the smallest network), an edge from node 3 to node 19 -/
example (line : Edge → List Char → List Char) : printEdges (exactDim 20) line [⟨0, 1, 1, 1, 0, 0⟩, ⟨3, 19, 2, 1, 0, 1⟩] = .error .oob :=
  C100_fails (n := 20) (by norm_num) (by norm_num) (by
    intro k h
    rcases k with _ | _ | k
    · omega
    · omega
    · have : 10 ^ 2 ≤ 10 ^ (k + 2) := Nat.pow_le_pow_right (by norm_num) (by omega)
      omega) (by rw [sub_self, abs_zero]; positivity) line (e := ⟨3, 19, 2, 1, 0, 1⟩) (by simp) (le_refl _)

/-- two nodes: one character is too few for `1` and the zero after it -/
example (line : Edge → List Char → List Char) : printEdges (exactDim 2) line [⟨0, 1, 1, 1, 0, 0⟩] = .error .oob :=
  C100_fails (n := 2) (by norm_num) (by norm_num) (by
    intro k h
    rcases k with _ | k
    · omega
    · have : 10 ^ 1 ≤ 10 ^ (k + 1) := Nat.pow_le_pow_right (by norm_num) (by omega)
      omega) (by rw [sub_self, abs_zero]; positivity) line (e := ⟨0, 1, 1, 1, 0, 0⟩) (by simp) (le_refl _)

/-- ten nodes -/
example : printEdges (exactDim 10) (fun _ t => t ++ ['\n']) [⟨0, 1, 1, 1, 0, 0⟩, ⟨3, 9, 2, 1, 0, 1⟩] = .ok "0 <--> 1\n3 <--> 9\n".toList := by
  have := C100_powers_partial (k := 1) (by norm_num) (dim := exactDim 10) (by norm_num) (fun _ t => t ++ ['\n']) (l := [⟨0, 1, 1, 1, 0, 0⟩, ⟨3, 9, 2, 1, 0, 1⟩]) (by decide)
  rw [this]
  simp [nodeText]

end Verif
