import Verif.Proofs.Gcn
import Mathlib.Tactic.Linarith
import Mathlib.Tactic.FieldSimp
import Mathlib.Tactic.NormNum
import Mathlib.Data.Set.Card

/-!
# C84 – C88: the predictions of the network
-/
namespace Verif.Gcn
set_option autoImplicit false

/-! ### Renumbering -/

/-- **C84.** When the cities of the instances of a mini-batch get other numbers, the predictions, and so the probabilities, are the old ones at the old numbers: for all weights, all sizes and both aggregations. -/
theorem C84_renumber {B n d v k o : Nat} (w : Net d v k o) (x : Input B n d v) (σ : Fin B → Equiv.Perm (Fin n)) (b : Fin B) (i j : Fin n) :
    w.forward (Spec.renumber σ x) b i j = w.forward x b (σ b i) (σ b j) := by
  have := w.forward_move (Equiv.refl _) σ x
  exact congrFun (congrFun (congrFun this b) i) j

/-- **C84** (the loss). The loss does not depend on the numbers of the cities. -/
theorem C84_loss {B n d v k o : Nat} (w : Net d v k o) (x : Input B n d v) (σ : Fin B → Equiv.Perm (Fin n)) (target : Fin B → Fin n → Fin n → Fin o) (cw : Fin o → ℝ) :
    lossEdges (w.forward (Spec.renumber σ x)) (fun b i j => target b (σ b i) (σ b j)) cw = lossEdges (w.forward x) target cw := by
  have h : w.forward (Spec.renumber σ x) = fun b i j => w.forward x b (σ b i) (σ b j) := by
    funext b i j; exact C84_renumber w x σ b i j
  unfold lossEdges
  rw [h]
  have h1 := sum_moveE (Equiv.refl _) σ fun b i j => -(cw (target b i j) * logSoftmax (w.forward x b i j) (target b i j))
  have h2 := sum_moveE (Equiv.refl _) σ fun b i j => cw (target b i j)
  simp only [Equiv.refl_apply] at h1 h2
  rw [h1, h2]

/-- the nearest neighbours are determined when no two cities are at the same distance -/
theorem Spec.Nearest.unique {n m : Nat} {dist : Fin n → Fin n → ℝ} {near near' : Fin n → Fin n → Prop} (h : Spec.Nearest m dist near) (h' : Spec.Nearest m dist near')
    (hd : ∀ i a b, dist i a = dist i b → a = b) (i j : Fin n) : near i j ↔ near' i j := by
  have key : ∀ {p q : Fin n → Fin n → Prop}, Spec.Nearest m dist p → Spec.Nearest m dist q → ∀ j, p i j → q i j := by
    intro p q hp hq j hj
    by_contra hn
    -- a city of `q` that is not in `p`
    have hne : ∃ a, q i a ∧ ¬ p i a := by
      by_contra hall
      push Not at hall
      have hsub : {a | q i a} ⊆ {a | p i a} := fun a ha => hall a ha
      have heq := Set.eq_of_subset_of_ncard_le hsub (by rw [hp.number, hq.number]) (Set.toFinite _)
      have : j ∈ {a | q i a} := by rw [heq]; exact hj
      exact hn this
    obtain ⟨a, ha, hpa⟩ := hne
    have h1 := hp.nearest i j a hj hpa
    have h2 := hq.nearest i a j ha hn
    have := hd i j a (le_antisymm h1 h2)
    subst this
    exact hn ha
  exact ⟨key h h' j, key h' h j⟩

/-- **C84** (from the cities). The same cities in another order get the same probabilities: with nearest neighbours, whatever `argpartition` does, when no two cities are at the same distance from a third. -/
theorem C84_cities {n k m : Nat} (w : Net 2 3 k 2) (cities : Fin n → ℝ × ℝ) (σ : Equiv.Perm (Fin n)) {near near' : Fin n → Fin n → Prop} [∀ i j, Decidable (near i j)]
    [∀ i j, Decidable (near' i j)] (hn : Spec.Nearest m (fun i j => cityDist (cities i) (cities j)) near)
    (hn' : Spec.Nearest m (fun i j => cityDist (cities (σ i)) (cities (σ j))) near') (hd : ∀ i a b, cityDist (cities i) (cities a) = cityDist (cities i) (cities b) → a = b) (i j : Fin n) :
    w.edgeProb (readerInput (fun _ : Fin 1 => fun i => cities (σ i)) (fun _ => near')) 0 i j = w.edgeProb (readerInput (fun _ : Fin 1 => cities) (fun _ => near)) 0 (σ i) (σ j) := by
  -- the renumbered neighbours are nearest for the new numbers
  have hr : Spec.Nearest m (fun i j => cityDist (cities (σ i)) (cities (σ j))) (fun i j => near (σ i) (σ j)) := by
    constructor
    · intro i
      rw [← hn.number (σ i)]
      refine Set.ncard_congr (fun a _ => σ a) (fun a ha => ha) (fun a b _ _ e => σ.injective e) ?_
      intro b hb
      exact ⟨σ.symm b, by simpa using hb, by simp⟩
    · intro i a b ha hb
      exact hn.nearest (σ i) (σ a) (σ b) ha hb
  have hu := hn'.unique hr fun i a b e => σ.injective (hd _ _ _ e)
  have hx : readerInput (fun _ : Fin 1 => fun i => cities (σ i)) (fun _ => near') = Spec.renumber (fun _ => σ) (readerInput (fun _ : Fin 1 => cities) (fun _ => near)) := by
    unfold readerInput Spec.renumber
    congr 1
    funext b i j
    unfold tag
    simp only [σ.injective.eq_iff, hu i j]
  unfold Net.edgeProb
  rw [hx, C84_renumber]

/-- **C84** (from the cities, fully connected input graph, `num_neighbors = -1`): no condition on the cities. -/
theorem C84_cities_complete {n k : Nat} (w : Net 2 3 k 2) (cities : Fin n → ℝ × ℝ) (σ : Equiv.Perm (Fin n)) (i j : Fin n) :
    w.edgeProb (readerInput (fun _ : Fin 1 => fun i => cities (σ i)) (fun _ _ _ => True)) 0 i j =
      w.edgeProb (readerInput (fun _ : Fin 1 => cities) (fun _ _ _ => True)) 0 (σ i) (σ j) := by
  have hx : readerInput (fun _ : Fin 1 => fun i => cities (σ i)) (fun _ _ _ => True) = Spec.renumber (fun _ => σ) (readerInput (fun _ : Fin 1 => cities) (fun _ _ _ => True)) := by
    unfold readerInput Spec.renumber
    congr 1
    funext b i j
    unfold tag
    simp only [σ.injective.eq_iff]
  unfold Net.edgeProb
  rw [hx, C84_renumber]

/-! ### Directions -/

theorem cityDist_comm (a b : ℝ × ℝ) : cityDist a b = cityDist b a := by
  unfold cityDist
  congr 1; ring

/-- **C85** (partial): the probability of an edge is the same in both directions when the input graph is undirected; in particular for the fully connected one (`C85_complete_partial`). Missing: nearest neighbours, see
`C85_fails`. -/
theorem C85_undirected_partial {B n k : Nat} (w : Net 2 3 k 2) (cities : Fin B → Fin n → ℝ × ℝ) (near : Fin B → Fin n → Fin n → Prop) [∀ b i j, Decidable (near b i j)]
    (h : ∀ b i j, near b i j ↔ near b j i) (b : Fin B) (i j : Fin n) : w.edgeProb (readerInput cities near) b i j = w.edgeProb (readerInput cities near) b j i := by
  unfold Net.edgeProb
  rw [Net.forward_sym]
  · intro b i j
    show tag (near b) i j = tag (near b) j i
    unfold tag
    simp only [eq_comm (a := i), h b i j]
  · intro b i j
    exact cityDist_comm _ _

theorem C85_complete_partial {n k : Nat} (w : Net 2 3 k 2) (cities : Fin n → ℝ × ℝ) (i j : Fin n) :
    w.edgeProb (readerInput (fun _ : Fin 1 => cities) (fun _ _ _ => True)) 0 i j = w.edgeProb (readerInput (fun _ : Fin 1 => cities) (fun _ _ _ => True)) 0 j i :=
  C85_undirected_partial w _ _ (fun _ _ _ => Iff.rfl) 0 i j

/-! ### Probabilities and loss -/

/-- **C86.** Whatever the weights and the input, the values that the driver writes are probabilities: greater than 0 and less than 1, and the other class gets the rest. -/
theorem C86_probability {B n d v k : Nat} (w : Net d v k 2) (x : Input B n d v) (b : Fin B) (i j : Fin n) :
    0 < w.edgeProb x b i j ∧ w.edgeProb x b i j < 1 ∧ softmax (w.forward x b i j) 0 + w.edgeProb x b i j = 1 := by
  have h1 := softmax_pos (w.forward x b i j) 1
  have h0 := softmax_pos (w.forward x b i j) 0
  have hs := softmax_sum (w.forward x b i j) 0
  rw [Fin.sum_univ_two] at hs
  unfold Net.edgeProb
  exact ⟨h1, by linarith, hs⟩

/-- **C86** (order). An edge has the greater probability of two exactly if its score for the tour, relative to its score against, is the greater one: the order of the probabilities is that of the predictions. -/
theorem C86_order {B n d v k : Nat} (w : Net d v k 2) (x : Input B n d v) (b b' : Fin B) (i j i' j' : Fin n) :
    w.edgeProb x b i j < w.edgeProb x b' i' j' ↔ w.forward x b i j 1 - w.forward x b i j 0 < w.forward x b' i' j' 1 - w.forward x b' i' j' 0 := by
  have key : ∀ y : Fin 2 → ℝ, softmax y 1 = 1 / (1 + Real.exp (y 0 - y 1)) := by
    intro y
    unfold softmax
    rw [Fin.sum_univ_two, Real.exp_sub]
    have := Real.exp_pos (y 1)
    field_simp
    ring
  unfold Net.edgeProb
  rw [key, key, one_div_lt_one_div (by positivity) (by positivity)]
  rw [add_lt_add_iff_left, Real.exp_lt_exp]
  constructor <;> intro h <;> linarith

/-- **C88.** With the class weights of `compute_class_weight("balanced")` the loss is the mean over the two classes of the mean, over the labels of the class, of minus the logarithm of the probability that the network gives to
the right class: a class counts the same however many labels it has. -/
theorem C88_balanced {B n : Nat} (pred : EdgeTensor B n 2) (target : Fin B → Fin n → Fin n → Fin 2) (h : ∀ c, ∃ b i j, target b i j = c) :
    lossEdges pred target (balanced target) =
      (∑ c : Fin 2, (∑ b, ∑ i, ∑ j, if target b i j = c then -Real.log (softmax (pred b i j) c) else 0) / (∑ b, ∑ i, ∑ j, if target b i j = c then (1 : ℝ) else 0)) / 2 := by
  have hpos : ∀ c, 0 < ∑ b, ∑ i, ∑ j, if target b i j = c then (1 : ℝ) else 0 := by
    intro c
    obtain ⟨b, i, j, e⟩ := h c
    refine Finset.sum_pos' (fun b _ => Finset.sum_nonneg fun i _ => Finset.sum_nonneg fun j _ => by split <;> norm_num) ⟨b, Finset.mem_univ _, ?_⟩
    refine Finset.sum_pos' (fun i _ => Finset.sum_nonneg fun j _ => by split <;> norm_num) ⟨i, Finset.mem_univ _, ?_⟩
    refine Finset.sum_pos' (fun j _ => by split <;> norm_num) ⟨j, Finset.mem_univ _, ?_⟩
    rw [if_pos e]; norm_num
  -- the sum over the labels is the sum over the classes
  have split2 : ∀ f : Fin 2 → Fin B → Fin n → Fin n → ℝ, ∑ b, ∑ i, ∑ j, f (target b i j) b i j = ∑ c : Fin 2, ∑ b, ∑ i, ∑ j, if target b i j = c then f c b i j else 0 := by
    intro f
    rw [Fin.sum_univ_two, ← Finset.sum_add_distrib]
    refine Finset.sum_congr rfl fun b _ => ?_
    rw [← Finset.sum_add_distrib]
    refine Finset.sum_congr rfl fun i _ => ?_
    rw [← Finset.sum_add_distrib]
    refine Finset.sum_congr rfl fun j _ => ?_
    rcases Fin.exists_fin_two.1 ⟨target b i j, rfl⟩ with e | e <;> simp [e]
  have pull : ∀ (a : ℝ) (c : Fin 2) (g : Fin B → Fin n → Fin n → ℝ), (∑ b, ∑ i, ∑ j, if target b i j = c then a * g b i j else 0) = a * ∑ b, ∑ i, ∑ j, if target b i j = c then g b i j else 0 := by
    intro a c g
    simp only [Finset.mul_sum, mul_ite, mul_zero]
  have count : (∑ b : Fin B, ∑ i : Fin n, ∑ j : Fin n, (1 : ℝ)) = (B : ℝ) * n * n := by simp [mul_assoc]
  have hN := split2 fun _ _ _ _ => 1
  rw [count, Fin.sum_univ_two] at hN
  have h0 := hpos 0
  have h1 := hpos 1
  have hnum := split2 fun c b i j => -(balanced target c * logSoftmax (pred b i j) c)
  have hden := split2 fun c _ _ _ => balanced target c * 1
  simp only [neg_mul_eq_mul_neg, pull] at hnum hden
  unfold lossEdges
  simp only [neg_mul_eq_mul_neg]
  have hden' : ∑ b, ∑ i, ∑ j, balanced target (target b i j) = ∑ b, ∑ i, ∑ j, balanced target (target b i j) * 1 := by simp only [mul_one]
  rw [hden', hnum, hden, Fin.sum_univ_two, Fin.sum_univ_two, Fin.sum_univ_two]
  simp only [logSoftmax_eq]
  unfold balanced
  rw [hN]
  have hsum : (∑ b, ∑ i, ∑ j, if target b i j = 0 then (1 : ℝ) else 0) + (∑ b, ∑ i, ∑ j, if target b i j = 1 then (1 : ℝ) else 0) ≠ 0 := by linarith
  generalize (∑ b, ∑ i, ∑ j, if target b i j = 0 then (1 : ℝ) else 0) = n0 at *
  generalize (∑ b, ∑ i, ∑ j, if target b i j = 1 then (1 : ℝ) else 0) = n1 at *
  have := h0.ne'
  have := h1.ne'
  field_simp
  ring

/-- **C88** (the weights). The class weights together weigh each class as half of all the labels; so a label has weight 1 on average. -/
theorem C88_weights {B n : Nat} (target : Fin B → Fin n → Fin n → Fin 2) (c : Fin 2) (h : ∃ b i j, target b i j = c) :
    (∑ b, ∑ i, ∑ j, if target b i j = c then balanced target (target b i j) else 0) = ((B * n * n : Nat) : ℝ) / 2 := by
  have hpos : 0 < ∑ b, ∑ i, ∑ j, if target b i j = c then (1 : ℝ) else 0 := by
    obtain ⟨b, i, j, e⟩ := h
    refine Finset.sum_pos' (fun b _ => Finset.sum_nonneg fun i _ => Finset.sum_nonneg fun j _ => by split <;> norm_num) ⟨b, Finset.mem_univ _, ?_⟩
    refine Finset.sum_pos' (fun i _ => Finset.sum_nonneg fun j _ => by split <;> norm_num) ⟨i, Finset.mem_univ _, ?_⟩
    refine Finset.sum_pos' (fun j _ => by split <;> norm_num) ⟨j, Finset.mem_univ _, ?_⟩
    rw [if_pos e]; norm_num
  have e : ∀ b i j, (if target b i j = c then balanced target (target b i j) else 0) = balanced target c * if target b i j = c then 1 else 0 := by
    intro b i j
    by_cases e : target b i j = c <;> simp [e]
  simp only [e, ← Finset.mul_sum]
  unfold balanced
  push_cast
  field_simp

/-- **C88** (sign). The loss is positive. -/
theorem C88_positive {B n : Nat} (pred : EdgeTensor B n 2) (target : Fin B → Fin n → Fin n → Fin 2) (h : ∀ c, ∃ b i j, target b i j = c) : 0 < lossEdges pred target (balanced target) := by
  rw [C88_balanced pred target h]
  have hlog : ∀ b i j c, 0 < -Real.log (softmax (pred b i j) c) := by
    intro b i j c
    have h1 := softmax_pos (pred b i j) 1
    have h0 := softmax_pos (pred b i j) 0
    have hs := softmax_sum (pred b i j) 0
    rw [Fin.sum_univ_two] at hs
    rw [Left.neg_pos_iff]
    have : softmax (pred b i j) c < 1 := by
      rcases Fin.exists_fin_two.1 ⟨c, rfl⟩ with e | e <;> rw [e] <;> linarith
    exact Real.log_neg (softmax_pos _ c) this
  have hpos : ∀ (c : Fin 2) (g : Fin B → Fin n → Fin n → ℝ), (∀ b i j, 0 < g b i j) → 0 < ∑ b, ∑ i, ∑ j, if target b i j = c then g b i j else 0 := by
    intro c g hg
    have nn : ∀ b i j, 0 ≤ if target b i j = c then g b i j else 0 := by intro b i j; split; exact (hg b i j).le; exact le_refl _
    obtain ⟨b, i, j, e⟩ := h c
    refine Finset.sum_pos' (fun b _ => Finset.sum_nonneg fun i _ => Finset.sum_nonneg fun j _ => nn b i j) ⟨b, Finset.mem_univ _, ?_⟩
    refine Finset.sum_pos' (fun i _ => Finset.sum_nonneg fun j _ => nn b i j) ⟨i, Finset.mem_univ _, ?_⟩
    refine Finset.sum_pos' (fun j _ => nn b i j) ⟨j, Finset.mem_univ _, ?_⟩
    rw [if_pos e]; exact hg b i j
  refine div_pos (Finset.sum_pos (fun c _ => div_pos (hpos c (fun b i j => -Real.log (softmax (pred b i j) c)) fun b i j => hlog b i j c) (hpos c (fun _ _ _ => 1) fun _ _ _ => one_pos)) ⟨0, Finset.mem_univ _⟩) two_pos

/-! ### Mini-batches -/

/-- **C87** (partial): the order of the instances in the mini-batch does not matter, and among copies of itself an instance gets the predictions that it gets alone (`C87_copies_partial`). Missing: with other instances it does not,
see `C87_fails`. (`compute_prob` runs the network on mini-batches of one instance.) -/
theorem C87_order_partial {B n d v k o : Nat} (w : Net d v k o) (x : Input B n d v) (τ : Equiv.Perm (Fin B)) (b : Fin B) : w.forward (Spec.reorder τ x) b = w.forward x (τ b) := by
  have := w.forward_move τ (fun _ => Equiv.refl _) x
  exact congrFun this b

theorem C87_copies_partial {B n d v k o : Nat} (w : Net d v k o) (x : Input B n d v) (b : Fin B) (hx : ∀ b', x.edges b' = x.edges b ∧ x.values b' = x.values b ∧ x.coord b' = x.coord b) (i j : Fin n) :
    w.forward x b i j = w.forward (Spec.alone x b) 0 i j := w.forward_copies (Nat.lt_of_le_of_lt (Nat.zero_le _) b.2) x b hx i j

end Verif.Gcn
