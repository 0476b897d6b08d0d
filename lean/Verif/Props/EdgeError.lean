import Verif.Spec.EdgeErrorSpec
import Verif.Props.Gcn
import Mathlib.Algebra.Order.BigOperators.Group.Finset
import Mathlib.Algebra.BigOperators.Fin

/-!
# C89: the error metrics
-/
namespace Verif.Gcn
set_option autoImplicit false

section
variable {B n : Nat} {y target mask : Labels B n}

theorem sumAcc_some (h : ∀ b, 0 < ∑ i, ∑ j, mask b i j) (l : List (Fin B)) :
    sumAcc y target mask l = some ((l.map fun b => ((∑ i, ∑ j, (if y b i j = target b i j then 1 else 0) * mask b i j : Nat) : ℚ) / (∑ i, ∑ j, mask b i j : Nat)).sum) := by
  induction l with
  | nil => rfl
  | cons b l ih =>
    unfold sumAcc
    rw [ih]
    have : accuracy y target mask b = some (((∑ i, ∑ j, (if y b i j = target b i j then 1 else 0) * mask b i j : Nat) : ℚ) / (∑ i, ∑ j, mask b i j : Nat)) := by
      unfold accuracy
      rw [if_neg (h b).ne']
    rw [this]
    rfl

theorem accuracy_some (b : Fin B) (h : 0 < ∑ i, ∑ j, mask b i j) :
    accuracy y target mask b = some (((∑ i, ∑ j, (if y b i j = target b i j then 1 else 0) * mask b i j : Nat) : ℚ) / (∑ i, ∑ j, mask b i j : Nat)) := by
  unfold accuracy
  rw [if_neg h.ne']

/-- right and wrong make up the mask -/
theorem right_add_wrong (b : Fin B) : (∑ i, ∑ j, (if y b i j = target b i j then 1 else 0) * mask b i j) + (∑ i, ∑ j, (if y b i j = target b i j then 0 else 1) * mask b i j) = ∑ i, ∑ j, mask b i j := by
  rw [← Finset.sum_add_distrib]
  refine Finset.sum_congr rfl fun i _ => ?_
  rw [← Finset.sum_add_distrib]
  refine Finset.sum_congr rfl fun j _ => ?_
  split <;> simp

/-- the error is the mean of the weighted fractions of wrong predictions -/
theorem maskedError_eq (hB : 0 < B) (h : ∀ b, 0 < ∑ i, ∑ j, mask b i j) :
    (maskedError y target mask).1 = some ((∑ b, ((∑ i, ∑ j, (if y b i j = target b i j then 0 else 1) * mask b i j : Nat) : ℚ) / (∑ i, ∑ j, mask b i j : Nat)) / B) := by
  unfold maskedError
  rw [sumAcc_some h]
  simp only [Option.map_some, Option.some.injEq]
  have e : ∀ b : Fin B, ((∑ i, ∑ j, (if y b i j = target b i j then 1 else 0) * mask b i j : Nat) : ℚ) / (∑ i, ∑ j, mask b i j : Nat) =
      1 - ((∑ i, ∑ j, (if y b i j = target b i j then 0 else 1) * mask b i j : Nat) : ℚ) / (∑ i, ∑ j, mask b i j : Nat) := by
    intro b
    have h1 := right_add_wrong (y := y) (target := target) (mask := mask) b
    have h2 : ((∑ i, ∑ j, mask b i j : Nat) : ℚ) ≠ 0 := by exact_mod_cast (h b).ne'
    rw [eq_sub_iff_add_eq, ← add_div, div_eq_one_iff_eq h2]
    exact_mod_cast h1
  have hs : ((List.finRange B).map fun b => ((∑ i, ∑ j, (if y b i j = target b i j then 1 else 0) * mask b i j : Nat) : ℚ) / (∑ i, ∑ j, mask b i j : Nat)).sum =
      ∑ b, ((∑ i, ∑ j, (if y b i j = target b i j then 1 else 0) * mask b i j : Nat) : ℚ) / (∑ i, ∑ j, mask b i j : Nat) := by
    rw [Fin.sum_univ_def]
  rw [hs, Finset.sum_congr rfl fun b _ => e b, Finset.sum_sub_distrib]
  have hB' : (B : ℚ) ≠ 0 := by exact_mod_cast hB.ne'
  simp only [Finset.sum_const, Finset.card_univ, Fintype.card_fin, nsmul_eq_mul, mul_one]
  rw [sub_div, div_self hB', sub_sub_cancel]

/-- an instance is flagged if a prediction that counts is wrong -/
theorem maskedError_flag (b : Fin B) (h : 0 < ∑ i, ∑ j, mask b i j) : (maskedError y target mask).2 b = true ↔ ∃ i j, 0 < mask b i j ∧ y b i j ≠ target b i j := by
  unfold maskedError
  simp only [accuracy_some b h, decide_eq_true_eq]
  rw [div_lt_one (by exact_mod_cast h), Nat.cast_lt]
  have h1 := right_add_wrong (y := y) (target := target) (mask := mask) b
  have h2 : (0 < ∑ i, ∑ j, (if y b i j = target b i j then 0 else 1) * mask b i j) ↔ ∃ i j, 0 < mask b i j ∧ y b i j ≠ target b i j := by
    rw [Finset.sum_pos_iff]
    simp only [Finset.mem_univ, true_and, Finset.sum_pos_iff]
    refine exists_congr fun i => exists_congr fun j => ?_
    split <;> simp_all
  rw [← h2]
  omega

/-- the number of pairs is a sum over the rows -/
theorem pairs_sum (p : Fin n → Fin n → Bool) : Spec.pairs p = ∑ i, ∑ j, if p i j then 1 else 0 := by
  unfold Spec.pairs
  rw [Finset.card_filter, Fintype.sum_prod_type]

/-- for a mask of zeros and ones -/
theorem maskedError_pairs (hB : 0 < B) (q : Fin B → Fin n → Fin n → Bool) (h : ∀ b, 0 < Spec.pairs (q b)) (hm : ∀ b i j, mask b i j = if q b i j then 1 else 0) :
    (maskedError y target mask).1.map (100 * ·) = some (Spec.percentWrong y target q) := by
  have hs : ∀ b, ∑ i, ∑ j, mask b i j = Spec.pairs (q b) := by
    intro b
    rw [pairs_sum]
    exact Finset.sum_congr rfl fun i _ => Finset.sum_congr rfl fun j _ => hm b i j
  have hw : ∀ b, ∑ i, ∑ j, (if y b i j = target b i j then 0 else 1) * mask b i j = Spec.pairs (fun i j => q b i j && decide (y b i j ≠ target b i j)) := by
    intro b
    rw [pairs_sum]
    refine Finset.sum_congr rfl fun i _ => Finset.sum_congr rfl fun j _ => ?_
    rw [hm]
    by_cases e : y b i j = target b i j <;> cases q b i j <;> simp [e]
  rw [maskedError_eq hB fun b => by rw [hs]; exact h b]
  simp only [hs, hw]
  rfl

end

/-- **C89** (the tour edges). The second number is the mean percentage of the edges of the tours that are not predicted; the flag of an instance says that an edge of its tour is missed. -/
theorem C89_tour {B n : Nat} (hB : 0 < B) {y target edges : Labels B n} (hy : ∀ b i j, y b i j ≤ 1) (ht : ∀ b i j, target b i j ≤ 1) (hne : ∀ b, ∃ i j, target b i j = 1) :
    (edgeError y target edges).tour = some (Spec.percentWrong y target fun b i j => decide (target b i j = 1)) ∧
    ∀ b, (edgeError y target edges).idxTour b = true ↔ ∃ i j, target b i j = 1 ∧ y b i j = 0 := by
  have hm : ∀ b i j, target b i j = if decide (target b i j = 1) then 1 else 0 := by
    intro b i j
    have := ht b i j
    by_cases e : target b i j = 1 <;> simp [e]; omega
  have hp : ∀ b, 0 < Spec.pairs fun i j => decide (target b i j = 1) := by
    intro b
    obtain ⟨i, j, e⟩ := hne b
    exact Finset.card_pos.2 ⟨(i, j), by simp [e]⟩
  refine ⟨maskedError_pairs hB _ hp hm, fun b => ?_⟩
  refine (maskedError_flag b ?_).trans (exists_congr fun i => exists_congr fun j => ?_)
  · have := hp b
    rw [pairs_sum] at this
    rw [Finset.sum_congr rfl fun i _ => Finset.sum_congr rfl fun j _ => hm b i j]
    exact this
  · have := ht b i j
    have := hy b i j
    omega

/-- **C89** (tour edges and predicted edges). The third number is the mean percentage of the wrong predictions among the edges that are in the tour or predicted. It is 0, and no instance is flagged, exactly if all predictions are
right: no error is missed. -/
theorem C89_tsp {B n : Nat} (hB : 0 < B) {y target edges : Labels B n} (hne : ∀ b, ∃ i j, target b i j = 1) :
    (edgeError y target edges).tsp = some (Spec.percentWrong y target fun b i j => decide (target b i j ≠ 0 ∨ y b i j ≠ 0)) ∧
    (∀ b, (edgeError y target edges).idxTsp b = true ↔ ∃ i j, y b i j ≠ target b i j) ∧
    ((edgeError y target edges).tsp = some 0 ↔ y = target) := by
  have hm : ∀ b i j, (if 0 < target b i j + y b i j then 1 else 0) = if decide (target b i j ≠ 0 ∨ y b i j ≠ 0) then 1 else 0 := by
    intro b i j
    have : (0 < target b i j + y b i j) ↔ (target b i j ≠ 0 ∨ y b i j ≠ 0) := by omega
    simp only [this, decide_eq_true_eq]
  have hp : ∀ b, 0 < Spec.pairs fun i j => decide (target b i j ≠ 0 ∨ y b i j ≠ 0) := by
    intro b
    obtain ⟨i, j, e⟩ := hne b
    exact Finset.card_pos.2 ⟨(i, j), by simp [e]⟩
  have hsum : ∀ b, 0 < ∑ i, ∑ j, (if 0 < target b i j + y b i j then 1 else 0) := by
    intro b
    have := hp b
    rw [pairs_sum] at this
    rw [Finset.sum_congr rfl fun i _ => Finset.sum_congr rfl fun j _ => hm b i j]
    exact this
  have h1 : (edgeError y target edges).tsp = some (Spec.percentWrong y target fun b i j => decide (target b i j ≠ 0 ∨ y b i j ≠ 0)) := maskedError_pairs hB _ hp hm
  refine ⟨h1, fun b => ?_, ?_⟩
  · refine (maskedError_flag b (hsum b)).trans (exists_congr fun i => exists_congr fun j => ?_)
    constructor
    · exact fun h => h.2
    · intro h
      refine ⟨?_, h⟩
      rw [if_pos (by omega)]
      exact one_pos
  · rw [h1, Option.some.injEq]
    unfold Spec.percentWrong
    have hB' : (B : ℚ) ≠ 0 := by exact_mod_cast hB.ne'
    rw [mul_eq_zero, or_iff_right (by norm_num), div_eq_zero_iff, or_iff_left hB', Finset.sum_eq_zero_iff_of_nonneg (fun b _ => by positivity)]
    constructor
    · intro h
      funext b i j
      have := h b (Finset.mem_univ _)
      rw [div_eq_zero_iff, or_iff_left (by exact_mod_cast (hp b).ne'), Nat.cast_eq_zero] at this
      unfold Spec.pairs at this
      rw [Finset.card_eq_zero, Finset.filter_eq_empty_iff] at this
      by_contra hn
      refine this (x := (i, j)) (Finset.mem_univ _) ?_
      simp only [Bool.and_eq_true, decide_eq_true_eq]
      exact ⟨by omega, hn⟩
    · rintro rfl b -
      have : (Spec.pairs fun i j => decide (y b i j ≠ 0 ∨ y b i j ≠ 0) && decide (y b i j ≠ y b i j)) = 0 := by
        unfold Spec.pairs
        rw [Finset.card_eq_zero, Finset.filter_eq_empty_iff]
        intro q _
        simp
      rw [this, Nat.cast_zero, zero_div]

/-- the sum of the tags: each connected pair of different nodes counts once, each node twice -/
theorem sum_tags {n : Nat} (near : Fin n → Fin n → Prop) [∀ i j, Decidable (near i j)] (f : Fin n → Fin n → Nat) :
    ∑ i, ∑ j, f i j * ((tag near i j : Fin 3) : Nat) = (∑ i, ∑ j, if decide (i ≠ j ∧ near i j) then f i j else 0) + 2 * ∑ i, f i i := by
  rw [Finset.mul_sum, ← Finset.sum_add_distrib]
  refine Finset.sum_congr rfl fun i _ => ?_
  have : ∑ j, f i j * ((tag near i j : Fin 3) : Nat) = ∑ j, ((if decide (i ≠ j ∧ near i j) then f i j else 0) + if i = j then 2 * f i j else 0) := by
    refine Finset.sum_congr rfl fun j _ => ?_
    unfold tag
    by_cases e : i = j
    · subst e; simp; ring
    · by_cases hn : near i j <;> simp [e, hn]
  rw [this, Finset.sum_add_distrib, Finset.sum_ite_eq]
  simp

/-- **C89** (connected edges, partial): the first number is the mean of the weighted percentages in which each node counts as two more edges. Missing: it is not the percentage of the connected edges, see `C89_fails`. -/
theorem C89_edges_partial {B n : Nat} (hB : 0 < B) (hn : 0 < n) {y target : Labels B n} (near : Fin B → Fin n → Fin n → Prop) [∀ b i j, Decidable (near b i j)] :
    (edgeError y target fun b i j => (tag (near b) i j : Nat)).edges =
      some (100 * ((∑ b, ((Spec.pairs (fun i j => decide (i ≠ j ∧ near b i j) && decide (y b i j ≠ target b i j)) : ℚ) + 2 * ((Finset.univ.filter fun i => y b i i ≠ target b i i).card : ℚ)) /
        ((Spec.pairs fun i j => decide (i ≠ j ∧ near b i j) : ℚ) + 2 * n)) / B)) := by
  have hs : ∀ b, ∑ i, ∑ j, ((tag (near b) i j : Fin 3) : Nat) = (Spec.pairs fun i j => decide (i ≠ j ∧ near b i j)) + 2 * n := by
    intro b
    have := sum_tags (near b) fun _ _ => 1
    simp only [one_mul] at this
    rw [this, pairs_sum]
    simp
  have hw : ∀ b, ∑ i, ∑ j, (if y b i j = target b i j then 0 else 1) * ((tag (near b) i j : Fin 3) : Nat) =
      (Spec.pairs fun i j => decide (i ≠ j ∧ near b i j) && decide (y b i j ≠ target b i j)) + 2 * (Finset.univ.filter fun i => y b i i ≠ target b i i).card := by
    intro b
    rw [sum_tags, pairs_sum, Finset.card_filter]
    congr 1
    · refine Finset.sum_congr rfl fun i _ => Finset.sum_congr rfl fun j _ => ?_
      by_cases h1 : (i ≠ j ∧ near b i j) <;> by_cases h2 : y b i j = target b i j <;> simp [h1, h2]
    · congr 1
      refine Finset.sum_congr rfl fun i _ => ?_
      by_cases h2 : y b i i = target b i i <;> simp [h2]
  have h := maskedError_eq (y := y) (target := target) (mask := fun b i j => (tag (near b) i j : Nat)) hB fun b => by rw [hs]; omega
  unfold edgeError
  simp only [h, hs, hw]
  simp only [Option.map_some]
  push_cast
  rfl

/-- **C89** is false for the connected edges: one instance, the diagonal predicted right and some connected edge wrong; then the number is less than the percentage of the connected edges that are wrong. -/
theorem C89_fails {n : Nat} {y target : Labels 1 n} (near : Fin n → Fin n → Prop) [∀ i j, Decidable (near i j)] (hd : ∀ i, y 0 i i = target 0 i i) {i j : Fin n} (hij : i ≠ j) (hnear : near i j)
    (hw : y 0 i j ≠ target 0 i j) : ∃ e, (edgeError y target fun _ i j => (tag near i j : Nat)).edges = some e ∧ e < Spec.percentWrong y target fun _ i j => decide (i ≠ j ∧ near i j) := by
  have hn : 0 < n := Nat.lt_of_le_of_lt (Nat.zero_le _) i.2
  refine ⟨_, C89_edges_partial one_pos hn (fun _ => near), ?_⟩
  unfold Spec.percentWrong
  have h0 : (Finset.univ.filter fun i => y 0 i i ≠ target 0 i i) = ∅ := by
    rw [Finset.filter_eq_empty_iff]; intro i _; simp [hd i]
  have h1 : 0 < Spec.pairs fun i j => decide (i ≠ j ∧ near i j) && decide (y 0 i j ≠ target 0 i j) :=
    Finset.card_pos.2 ⟨(i, j), by simp [hij, hnear, hw]⟩
  have h2 : 0 < Spec.pairs fun i j => decide (i ≠ j ∧ near i j) :=
    Finset.card_pos.2 ⟨(i, j), by simp [hij, hnear]⟩
  simp only [Finset.univ_unique, Fin.default_eq_zero, Finset.sum_singleton, h0, Finset.card_empty, Nat.cast_zero, mul_zero, add_zero, Nat.cast_one, div_one]
  refine mul_lt_mul_of_pos_left ?_ (by norm_num)
  refine div_lt_div_of_pos_left (by exact_mod_cast h1) (by exact_mod_cast h2) ?_
  have : (0 : ℚ) < n := by exact_mod_cast hn
  linarith

/-- **C89** (no tour). One instance without a tour edge makes the second number of the whole mini-batch NaN, and that instance is never flagged. -/
theorem C89_nan {B n : Nat} {y target edges : Labels B n} (b : Fin B) (h : ∀ i j, target b i j = 0) :
    (edgeError y target edges).tour = none ∧ (edgeError y target edges).idxTour b = false := by
  have ha : accuracy y target target b = none := by
    unfold accuracy
    rw [if_pos]
    exact Finset.sum_eq_zero fun i _ => Finset.sum_eq_zero fun j _ => h i j
  have hs : ∀ l : List (Fin B), b ∈ l → sumAcc y target target l = none := by
    intro l
    induction l with
    | nil => intro hb; exact absurd hb List.not_mem_nil
    | cons a l ih =>
      intro hb
      unfold sumAcc
      rcases List.mem_cons.1 hb with e | e
      · subst e; rw [ha]; rfl
      · rw [ih e]; cases accuracy y target target a <;> rfl
  refine ⟨?_, ?_⟩
  · show ((sumAcc y target target (List.finRange B)).map _).map _ = none
    rw [hs _ (List.mem_finRange b)]; rfl
  · show (match accuracy y target target b with | some a => decide (a < 1) | none => false) = false
    rw [ha]

/-- **C89** (the predicted class). Whatever `argmax` does with ties, an edge is predicted if its probability is greater than one half, and is not if it is less. -/
theorem C89_half {B n d v k : Nat} (w : Net d v k 2) (x : Input B n d v) (b : Fin B) (i j : Fin n) {y : Fin 2} (hy : ∀ c, softmax (w.forward x b i j) c ≤ softmax (w.forward x b i j) y) :
    (1 / 2 < w.edgeProb x b i j → y = 1) ∧ (w.edgeProb x b i j < 1 / 2 → y = 0) := by
  have hs := (C86_probability w x b i j).2.2
  have h0 := hy 0
  have h1 := hy 1
  unfold Net.edgeProb at hs ⊢
  rcases Fin.exists_fin_two.1 ⟨y, rfl⟩ with e | e <;> rw [e] at h0 h1 ⊢
  · exact ⟨fun h => by exfalso; linarith, fun _ => rfl⟩
  · exact ⟨fun _ => rfl, fun h => by exfalso; linarith⟩

/-! ### Example: three cities, all connected, the diagonal right, one edge predicted only in one direction -/

namespace Ex
def triTarget : Labels 1 3 := fun _ i j => if i = j then 0 else 1
def triPred : Labels 1 3 := fun _ i j => if i = j ∨ (i = 0 ∧ j = 2) then 0 else 1
end Ex

/-- one of six edges is missed: 100/6 per cent of the tour, but 100/12 per cent as error of the connected edges -/
example : (edgeError Ex.triPred Ex.triTarget fun _ i j => (tag (fun _ _ => True) i j : Nat)).edges = some (100 / 12) ∧
    (edgeError Ex.triPred Ex.triTarget fun _ i j => (tag (fun _ _ => True) i j : Nat)).tour = some (100 / 6) ∧
    (edgeError Ex.triPred Ex.triTarget fun _ i j => (tag (fun _ _ => True) i j : Nat)).tsp = some (100 / 6) := by
  decide +kernel

/-- a mini-batch of two instances, the second without a tour -/
example : (edgeError (B := 2) (n := 2) (fun _ _ _ => 1) (fun b _ _ => if b = 0 then 1 else 0) (fun _ _ _ => 1)).tour = none := by decide +kernel

example : (∀ b i j, Ex.triPred b i j ≤ 1) ∧ (∀ b i j, Ex.triTarget b i j ≤ 1) ∧ (∀ b, ∃ i j, Ex.triTarget b i j = 1) ∧ (∀ i, Ex.triPred 0 i i = Ex.triTarget 0 i i) ∧ Ex.triPred 0 0 2 ≠ Ex.triTarget 0 0 2 := by
  decide

end Verif.Gcn
