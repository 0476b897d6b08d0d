import Verif.Proofs.Binary64
import Verif.Props.MainExamples
import Verif.Props.ResultFails

/-!
# C94: the arithmetic of the machine
-/
namespace Verif
open Verif.Spec
set_option autoImplicit false

/-- the number is a multiple of the smallest positive `double`, as every `double` is -/
def Spec.OnGrid (x : ℚ) : Prop := ∃ k : ℤ, x = k * 2 ^ (-1074 : ℤ)

section Arith
variable [Rounding]

theorem flSum_error {u : ℚ} (hA : Accurate u) (hu : 0 ≤ u) (l : List ℚ) (hl : ∀ x ∈ l, 0 ≤ x ∧ OnGrid x) :
    OnGrid (flSum l) ∧ |flSum l - l.sum| ≤ ((1 + u) ^ l.length - 1) * l.sum := by
  induction l using List.reverseRecOn with
  | nil => exact ⟨⟨0, by simp⟩, by simp⟩
  | append_singleton l x ih =>
    obtain ⟨⟨k, hk⟩, h2⟩ := ih fun y hy => hl y (by simp [hy])
    obtain ⟨hx0, j, hj⟩ := hl x (by simp)
    have hS : 0 ≤ l.sum := List.sum_nonneg fun y hy => (hl y (by simp [hy])).1
    rw [flSum_append, List.sum_append, List.sum_singleton, List.length_append, List.length_singleton]
    have hsum : flSum l + x = ((k + j : ℤ) : ℚ) * 2 ^ (-1074 : ℤ) := by
      rw [hk, hj, Int.cast_add, add_mul]
    have h3 := hA.error (k + j)
    rw [← hsum] at h3
    refine ⟨?_, ?_⟩
    · obtain ⟨k', h'⟩ := hA.grid (k + j)
      rw [← hsum] at h'
      exact ⟨k', h'⟩
    · generalize flSum l = s at *
      generalize l.sum = S at *
      have hq : (1 : ℚ) ≤ (1 + u) ^ l.length := one_le_pow₀ (by linarith)
      generalize hpw : (1 + u) ^ l.length = q at *
      rw [pow_succ, hpw]
      have a1 : |fl (s + x) - (S + x)| ≤ |fl (s + x) - (s + x)| + |s - S| := by
        have := abs_add_le (fl (s + x) - (s + x)) (s - S)
        rwa [show fl (s + x) - (s + x) + (s - S) = fl (s + x) - (S + x) by ring] at this
      have a2 : |s + x| ≤ (S + x) + |s - S| := by
        have := abs_add_le (S + x) (s - S)
        rw [show S + x + (s - S) = s + x by ring, abs_of_nonneg (by linarith : 0 ≤ S + x)] at this
        exact this
      have a3 : u * |s + x| ≤ u * ((S + x) + |s - S|) := mul_le_mul_of_nonneg_left a2 hu
      have a4 : (1 + u) * |s - S| ≤ (1 + u) * ((q - 1) * S) := mul_le_mul_of_nonneg_left h2 (by linarith)
      have a5 : u * x ≤ (q * (1 + u) - 1) * x := by
        refine mul_le_mul_of_nonneg_right ?_ hx0
        nlinarith
      nlinarith

theorem Spec.MachineLength.error {u : ℚ} (hA : Accurate u) (hu : 0 ≤ u) {d : Nat → Nat → ℚ} {t : List Nat} {x : ℚ} (h : MachineLength d t x)
    (hd : ∀ q ∈ legs t, 0 ≤ d q.1 q.2 ∧ OnGrid (d q.1 q.2)) : |x - walkLength d t| ≤ ((1 + u) ^ t.length - 1) * walkLength d t := by
  obtain ⟨l, hl, rfl⟩ := h.sum
  have h1 := (flSum_error hA hu l fun y hy => by
    obtain ⟨q, hq, rfl⟩ := List.mem_map.1 (hl.mem_iff.1 hy)
    exact hd q hq).2
  have hlen : l.length = t.length := by
    rw [hl.length_eq, List.length_map]; simp [legs]
  have hsum : l.sum = walkLength d t := hl.sum_eq
  rw [hlen, hsum] at h1
  exact h1

variable {c : Cfg} {env : Env} {num : List Char → Option (ℚ × List Char)} {text : List Char} {xs : List (ℚ × ℚ)} {w pr : Nat → Nat → ℚ} {p0 : Problem}

/-- C94. Whatever the rounding of the machine's arithmetic, if its relative error is at most `u`, the cost that the program prints for `n` cities differs from the length of the tour that it prints by at most
`(1 + u) ^ n - 1` times that length. (The distances are `double`s.) -/
theorem C94_cost_error {u : ℚ} (hA : Accurate u) (hu : 0 ≤ u) (hf : CsvFile num text xs w pr) (h : SolverInput c xs.length w pr) (hw : ∀ i < xs.length, ∀ j < xs.length, i ≠ j → OnGrid (w i j))
    (hc : p0.cand < c.maxV) {fuel : Nat} {p' : Problem} {out : List (Nat × Nat)} (e : mainRun c num env fuel p0 text = .ok (p', out)) :
    ∃ t, IsTour xs.length t ∧ out = legs t ∧ |p'.best.value - walkLength w t| ≤ ((1 + u) ^ xs.length - 1) * walkLength w t := by
  obtain ⟨t, ht, ho, hv⟩ := C57_tour hf h hc e
  refine ⟨t, ht, ho, ?_⟩
  have hlen : t.length = xs.length := by rw [ht.length_eq, List.length_range]
  have h2 : 2 ≤ xs.length := by have := h.three; omega
  have h0 := legs_each_nonneg (fun i hi j hj hij => (h.pos i hi j hj hij).1.le) h2 ht
  rw [← hlen]
  refine hv.error hA hu fun q hq => ⟨h0 q hq, ?_⟩
  obtain ⟨i, hi, rfl⟩ := List.getElem_of_mem hq
  have hi' : i < t.length := by simpa [legs] using hi
  have hnd : t.Nodup := (ht.nodup_iff).2 List.nodup_range
  have e : (legs t)[i] = (t[i], t[(i + 1) % t.length]'(Nat.mod_lt _ (by omega))) := by
    simp only [legs, List.getElem_zip, List.getElem_rotate]
  rw [e]
  have hlt : ∀ x ∈ t, x < xs.length := fun x hx => List.mem_range.1 (ht.mem_iff.1 hx)
  refine hw _ (hlt _ (List.getElem_mem _)) _ (hlt _ (List.getElem_mem _)) ?_
  intro e'
  have := (List.Nodup.getElem_inj_iff hnd).1 e'
  rcases Nat.lt_or_ge (i + 1) t.length with h' | h'
  · rw [Nat.mod_eq_of_lt h'] at this; omega
  · rw [show i + 1 = t.length by omega, Nat.mod_self] at this; omega

end Arith

/-- the usual arithmetic of `double`: to the nearest, of two to the even one -/
@[instance_reducible] def nearest : Rounding := ieee nearestEven nearestEven_mono nearestEven_int

/-- rounding down, and up -/
@[instance_reducible] def downward : Rounding := ieee (fun q => ⌊q⌋) (fun _ _ h => Int.floor_mono h) (fun m => Int.floor_intCast m)
@[instance_reducible] def upward : Rounding := ieee (fun q => ⌈q⌉) (fun _ _ h => Int.ceil_mono h) (fun m => Int.ceil_intCast m)

/-- C94, the arithmetics: rounding to the nearest has relative error at most `2 ^ -53`, rounding down or up `2 ^ -52`. -/
theorem C94_accuracy : @Accurate nearest (1 / 2 ^ 53) ∧ @Accurate downward (1 / 2 ^ 52) ∧ @Accurate upward (1 / 2 ^ 52) := by
  refine ⟨?_, ?_, ?_⟩
  · have := ieee_accurate nearestEven_mono nearestEven_int nearestEven_error
    have e : (1 / 2 : ℚ) / 2 ^ 52 = 1 / 2 ^ 53 := by norm_num
    rw [e] at this
    exact this
  · refine ieee_accurate _ _ fun q => ?_
    have h1 := Int.floor_le q
    have h2 := Int.lt_floor_add_one q
    rw [abs_le]; constructor <;> linarith
  · refine ieee_accurate _ _ fun q => ?_
    have h1 := Int.le_ceil q
    have h2 := Int.ceil_lt_add_one q
    rw [abs_le]; constructor <;> linarith

/-- C94, in numbers: with rounding to the nearest and at most 362 cities, the relative error of the cost is less than `10 ^ -13`. -/
theorem C94_nearest {c : Cfg} {env : Env} {num : List Char → Option (ℚ × List Char)} {text : List Char} {xs : List (ℚ × ℚ)} {w pr : Nat → Nat → ℚ} {p0 : Problem} (hf : CsvFile num text xs w pr)
    (h : SolverInput c xs.length w pr) (hw : ∀ i < xs.length, ∀ j < xs.length, i ≠ j → OnGrid (w i j)) (hc : p0.cand < c.maxV) {fuel : Nat} {p' : Problem} {out : List (Nat × Nat)}
    (e : @mainRun nearest c num env fuel p0 text = .ok (p', out)) : ∃ t, IsTour xs.length t ∧ out = legs t ∧ |p'.best.value - walkLength w t| ≤ 1 / 10 ^ 13 * walkLength w t := by
  obtain ⟨t, ht, ho, hv⟩ := @C94_cost_error nearest _ _ _ _ _ _ _ _ _ C94_accuracy.1 (by norm_num) hf h hw hc _ _ _ e
  refine ⟨t, ht, ho, hv.trans (mul_le_mul_of_nonneg_right ?_ ?_)⟩
  · have h1 : (1 + 1 / 2 ^ 53 : ℚ) ^ xs.length ≤ (1 + 1 / 2 ^ 53) ^ 362 := pow_le_pow_right₀ (by norm_num) h.small
    have h2 : (1 + 1 / 2 ^ 53 : ℚ) ^ 362 - 1 ≤ 1 / 10 ^ 13 := by decide +kernel
    exact (sub_le_sub_right h1 1).trans h2
  · unfold walkLength
    refine List.sum_nonneg fun y hy => ?_
    obtain ⟨q, hq, rfl⟩ := List.mem_map.1 hy
    exact legs_each_nonneg (fun i hi j hj hij => (h.pos i hi j hj hij).1.le) (by have := h.three; omega) ht q hq

/-- the rounding is not the exact arithmetic -/
example : @fl nearest (1 / 10) ≠ 1 / 10 := by decide +kernel

/-- C94: on the four corners of a rectangle the program, with rounding to the nearest, prints a tour. -/
example : ∃ (text : List Char) (w pr : Nat → Nat → ℚ) (p0 p' : Problem) (out : List (Nat × Nat)), CsvFile Ex.num text Ex.rect w pr ∧ SolverInput Ex.c4 Ex.rect.length w pr ∧
    (∀ i < Ex.rect.length, ∀ j < Ex.rect.length, i ≠ j → OnGrid (w i j)) ∧ p0.cand < Ex.c4.maxV ∧ @mainRun nearest Ex.c4 Ex.num Ex.env 10 p0 text = .ok (p', out) ∧
    out = [(0, 2), (2, 1), (1, 3), (3, 0)] ∧ p'.best.value = 14 := by
  obtain ⟨h1, h2, h3⟩ := Ex.rect_classic
  have hf := csvText_file (num := Ex.num) (xs := Ex.rect) (ct := Ex.rect.map fun q => (Ex.fmt q.1, Ex.fmt q.2)) (rt := fun i j => (Ex.fmt (adjacencyMatrix Ex.rectDist Ex.rect i j), ['0']))
      (w := adjacencyMatrix Ex.rectDist Ex.rect) (pr := fun _ _ => 0) (by simp) (by
        intro i hi
        simp only [List.getElem_map]
        exact h2 _ (List.getElem_mem _)) (fun i hi j hj => ⟨h3 i hi j hj, h1⟩)
  have hs : SolverInput Ex.c4 Ex.rect.length (adjacencyMatrix Ex.rectDist Ex.rect) (fun _ _ => 0) := by
    refine ⟨rfl, by decide, by decide, fun i _ j _ => adjacencyMatrix_symm _ _ i j, ?_, fun _ _ _ _ _ => le_refl _, by norm_num [Ex.c4]⟩
    decide +kernel
  generalize ht : csvText _ _ = text at hf
  have h : Ex.okAnd (@mainRun nearest Ex.c4 Ex.num Ex.env 10 (Ex.probN Ex.mem) text) (fun r => decide (r.2 = [(0, 2), (2, 1), (1, 3), (3, 0)]) && decide (r.1.best.value = 14)) = true := by
    rw [← ht]
    decide +kernel
  obtain ⟨⟨p', out⟩, e, h⟩ := Ex.okAnd_elim h
  simp only [Bool.and_eq_true, decide_eq_true_eq] at h
  refine ⟨text, _, _, Ex.probN Ex.mem, p', out, hf, hs, ?_, by decide, e, h.1, h.2⟩
  have key : ∀ i < Ex.rect.length, ∀ j < Ex.rect.length, i ≠ j → adjacencyMatrix Ex.rectDist Ex.rect i j = 3 ∨ adjacencyMatrix Ex.rectDist Ex.rect i j = 4 ∨ adjacencyMatrix Ex.rectDist Ex.rect i j = 5 := by
    decide +kernel
  have grid : ∀ k : ℤ, OnGrid k := fun k => ⟨k * 2 ^ 1074, by
    rw [Int.cast_mul, mul_assoc, zpow_neg]
    have : (((2 : ℤ) ^ 1074 : ℤ) : ℚ) = (2 : ℚ) ^ (1074 : ℤ) := by rw [Int.cast_pow]; rfl
    rw [this, mul_inv_cancel₀ (zpow_ne_zero _ (by norm_num)), mul_one]⟩
  intro i hi j hj hij
  rcases key i hi j hj hij with e | e | e <;> rw [e]
  · exact grid 3
  · exact grid 4
  · exact grid 5

end Verif
