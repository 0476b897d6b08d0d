import Verif.Model.EdgeLen
import Mathlib.Data.ZMod.Defs
import Mathlib.Tactic

/-!
# C104: the length of predicted edges
-/
namespace Verif.Gcn
set_option autoImplicit false

/-- the edge from `i` to `j` is predicted: the score of the class 1 is the larger one -/
def Spec.Predicted {B n : Nat} (pred : EdgeTensor B n 2) (b : Fin B) (i j : Fin n) : Prop := pred b i j 0 < pred b i j 1

/-- the predicted edges are those of the tour that visits the city `t k` in the position `k`, in both directions -/
def Spec.PredictsTour {n : Nat} [NeZero n] (predicted : Fin n → Fin n → Prop) (t : Equiv.Perm (Fin n)) : Prop :=
  ∀ i j, predicted i j ↔ ∃ k, (i = t k ∧ j = t (k + 1)) ∨ (i = t (k + 1) ∧ j = t k)

/-- the length of a tour; the position after the last one is the first one -/
noncomputable def Spec.lengthOf {n : Nat} [NeZero n] (d : Fin n → Fin n → ℝ) (t : Equiv.Perm (Fin n)) : ℝ := ∑ k, d (t k) (t (k + 1))

theorem softmax_lt {y : Fin 2 → ℝ} : softmax y 0 < softmax y 1 ↔ y 0 < y 1 := by
  unfold softmax
  rw [div_lt_div_iff_of_pos_right (Finset.sum_pos (fun c _ => Real.exp_pos _) Finset.univ_nonempty), Real.exp_lt_exp]

open Classical in
/-- C104: for all predictions, the mean over the instances of half the sum of the distances over the predicted directed edges -/
theorem C104_edges {B n : Nat} (values : Fin B → Fin n → Fin n → ℝ) (pred : EdgeTensor B n 2) :
    meanTourLenEdges values pred * B = (∑ b, (∑ i, ∑ j, if Spec.Predicted pred b i j then values b i j else 0) / 2) := by
  have e : ∀ b, (∑ j, ∑ i, argmax2 (softmax (pred b i j)) * values b i j) = ∑ i, ∑ j, if Spec.Predicted pred b i j then values b i j else 0 := by
    intro b
    rw [Finset.sum_comm]
    refine Finset.sum_congr rfl fun i _ => Finset.sum_congr rfl fun j _ => ?_
    unfold argmax2 Spec.Predicted
    rw [if_congr softmax_lt rfl rfl]
    split <;> simp
  unfold meanTourLenEdges
  rcases Nat.eq_zero_or_pos B with rfl | hB
  · simp
  · rw [div_mul_cancel₀ _ (by exact_mod_cast hB.ne'), Finset.sum_congr rfl fun b _ => by rw [e b]]

open Classical in
/-- the sum over the directed edges of a tour is twice its length -/
theorem tour_sum {n : Nat} [NeZero n] (hn : 3 ≤ n) {d : Fin n → Fin n → ℝ} (hd : ∀ i j, d i j = d j i) {p : Fin n → Fin n → Prop} {t : Equiv.Perm (Fin n)} (h : Spec.PredictsTour p t) :
    (∑ i, ∑ j, if p i j then d i j else 0) = 2 * Spec.lengthOf d t := by
  have two : ∀ k : Fin n, k + 1 + 1 ≠ k := by
    intro k hk
    have h2 : (1 : Fin n) + 1 = 0 := by
      have := congrArg (fun x => -k + x) hk
      simpa [add_assoc] using this
    have := congrArg Fin.val h2
    rw [Fin.val_add] at this
    have h1 : ((1 : Fin n) : Nat) = 1 := by
      rw [Fin.val_one']; exact Nat.mod_eq_of_lt (by omega)
    rw [h1, Nat.mod_eq_of_lt (by omega)] at this
    simp at this
  have hA : ∀ i j, (if p i j then d i j else 0) = (if j = t (t.symm i + 1) then d i j else 0) + if i = t (t.symm j + 1) then d i j else 0 := by
    intro i j
    have hp : p i j ↔ j = t (t.symm i + 1) ∨ i = t (t.symm j + 1) := by
      rw [h]
      constructor
      · rintro ⟨k, ⟨rfl, rfl⟩ | ⟨rfl, rfl⟩⟩
        · left; simp
        · right; simp
      · rintro (e | e)
        · exact ⟨t.symm i, Or.inl ⟨by simp, e⟩⟩
        · exact ⟨t.symm j, Or.inr ⟨e, by simp⟩⟩
    by_cases h1 : j = t (t.symm i + 1)
    · have h2 : ¬ i = t (t.symm j + 1) := by
        intro h2
        rw [h1] at h2
        have h3 := congrArg t.symm h2
        simp only [Equiv.symm_apply_apply] at h3
        exact two _ h3.symm
      rw [if_pos (hp.2 (Or.inl h1)), if_pos h1, if_neg h2, add_zero]
    · by_cases h2 : i = t (t.symm j + 1)
      · rw [if_pos (hp.2 (Or.inr h2)), if_neg h1, if_pos h2, zero_add]
      · rw [if_neg (fun h' => (hp.1 h').elim h1 h2), if_neg h1, if_neg h2, add_zero]
  have s1 : (∑ i, ∑ j, if j = t (t.symm i + 1) then d i j else 0) = Spec.lengthOf d t := by
    unfold Spec.lengthOf
    rw [← Equiv.sum_comp t]
    refine Finset.sum_congr rfl fun k _ => ?_
    rw [Finset.sum_ite_eq' Finset.univ, if_pos (Finset.mem_univ _), Equiv.symm_apply_apply]
  have s2 : (∑ i, ∑ j, if i = t (t.symm j + 1) then d i j else 0) = Spec.lengthOf d t := by
    rw [Finset.sum_comm, ← s1]
    refine Finset.sum_congr rfl fun i _ => Finset.sum_congr rfl fun j _ => ?_
    rw [hd]
  rw [two_mul, ← s1]
  nth_rewrite 2 [s1]
  rw [← s2, ← Finset.sum_add_distrib]
  refine Finset.sum_congr rfl fun i _ => ?_
  rw [← Finset.sum_add_distrib]
  exact Finset.sum_congr rfl fun j _ => hA i j

/-- **C104**. If the predicted edges of every instance are those of a tour of three or more cities, the result is the mean of the lengths of these tours. -/
theorem C104_tours {B n : Nat} [NeZero n] (hB : 0 < B) (hn : 3 ≤ n) {values : Fin B → Fin n → Fin n → ℝ} (hd : ∀ b i j, values b i j = values b j i) {pred : EdgeTensor B n 2} {t : Fin B → Equiv.Perm (Fin n)}
    (h : ∀ b, Spec.PredictsTour (Spec.Predicted pred b) (t b)) : meanTourLenEdges values pred = (∑ b, Spec.lengthOf (values b) (t b)) / B := by
  have hB' : (B : ℝ) ≠ 0 := by exact_mod_cast hB.ne'
  rw [eq_div_iff hB', C104_edges]
  refine Finset.sum_congr rfl fun b _ => ?_
  rw [tour_sum hn (hd b) (h b)]
  ring

/-- C104: with two cities the result is half the length of the tour there and back -/
theorem C104_two {values : Fin 1 → Fin 2 → Fin 2 → ℝ} (hd : ∀ b i j, values b i j = values b j i) {pred : EdgeTensor 1 2 2} {t : Equiv.Perm (Fin 2)} (h : Spec.PredictsTour (Spec.Predicted pred 0) t) :
    meanTourLenEdges values pred = Spec.lengthOf (values 0) t / 2 := by
  classical
  have e := C104_edges values pred
  have hp : ∀ i j, Spec.Predicted pred 0 i j ↔ i ≠ j := by
    intro i j
    rw [h]
    constructor
    · rintro ⟨k, ⟨rfl, rfl⟩ | ⟨rfl, rfl⟩⟩ <;> (intro e; have := t.injective e; clear e; revert this; revert k; decide)
    · intro hij
      refine ⟨t.symm i, Or.inl ⟨by simp, ?_⟩⟩
      have : t.symm j ≠ t.symm i := fun e => hij (t.symm.injective e).symm
      have k : ∀ a b : Fin 2, a ≠ b → a = b + 1 := by decide
      rw [← k _ _ this, Equiv.apply_symm_apply]
  have hs : ∀ t : Equiv.Perm (Fin 2), Spec.lengthOf (values 0) t = 2 * values 0 0 1 := by
    intro t
    unfold Spec.lengthOf
    rw [Fin.sum_univ_two]
    have k : ∀ t : Equiv.Perm (Fin 2), (t 0 = 0 ∧ t 1 = 1) ∨ (t 0 = 1 ∧ t 1 = 0) := by decide
    have e1 : (1 : Fin 2) + 1 = 0 := rfl
    have e0 : (0 : Fin 2) + 1 = 1 := rfl
    rw [e1, e0]
    rcases k t with ⟨a, b⟩ | ⟨a, b⟩ <;> rw [a, b, hd 0 1 0] <;> ring
  rw [hs]
  simp only [Nat.cast_one, mul_one] at e
  rw [e, Fin.sum_univ_one]
  simp only [Fin.sum_univ_two, hp]
  simp [hd 0 1 0]

namespace Ex

/-- four cities in a rectangle -/
def sides (i j : Fin 4) : ℝ := if i = j then 0 else if i + 1 = j ∨ j + 1 = i then (if i.val + j.val = 3 then 4 else 3) else 5

/-- scores that predict the sides -/
def sideScores (_ : Fin 2) (i j : Fin 4) (c : Fin 2) : ℝ := if i + 1 = j ∨ j + 1 = i then (if c = 1 then 2 else 1) else (if c = 1 then -1 else 3)

theorem side_predicts (b : Fin 2) : Spec.PredictsTour (Spec.Predicted sideScores b) (1 : Equiv.Perm (Fin 4)) := by
  intro i j
  have h : Spec.Predicted sideScores b i j ↔ i + 1 = j ∨ j + 1 = i := by
    unfold Spec.Predicted sideScores
    split
    · next h => simp only [h, iff_true]; norm_num
    · next h => simp only [h, iff_false]; norm_num
  rw [h]
  constructor
  · rintro (rfl | rfl)
    · exact ⟨i, Or.inl ⟨rfl, rfl⟩⟩
    · exact ⟨j, Or.inr ⟨rfl, rfl⟩⟩
  · rintro ⟨k, ⟨rfl, rfl⟩ | ⟨rfl, rfl⟩⟩
    · exact Or.inl rfl
    · exact Or.inr rfl

end Ex

/-- C104 on the example -/
example : meanTourLenEdges (fun _ : Fin 2 => Ex.sides) Ex.sideScores = (∑ _b : Fin 2, Spec.lengthOf Ex.sides (1 : Equiv.Perm (Fin 4))) / 2 := by
  have hd : ∀ i j, Ex.sides i j = Ex.sides j i := by
    intro i j
    unfold Ex.sides
    simp only [eq_comm (a := i) (b := j), or_comm (a := i + 1 = j), add_comm i.val j.val]
  exact_mod_cast C104_tours (by norm_num) (by norm_num) (fun _ => hd) fun b => Ex.side_predicts b

end Verif.Gcn
