import Verif.Props.Gcn
import Mathlib.Tactic.FinCases
import Mathlib.Tactic.Positivity

/-!
# C85, C87 are false in general; examples for C84 – C88
-/
namespace Verif.Gcn
set_option autoImplicit false

noncomputable section

/-! ### Small networks -/

/-- no weights -/
def zeroLin (i o : Nat) : Linear i o := ⟨fun _ _ => 0, fun _ => 0⟩
/-- the identity -/
def idLin (h : Nat) : Linear h h := ⟨fun a b => if a = b then 1 else 0, fun _ => 0⟩

theorem zeroLin_app {i o : Nat} (x : Fin i → ℝ) : (zeroLin i o).app x = fun _ => 0 := by
  funext a; simp [Linear.app, zeroLin]

theorem idLin_app {h : Nat} (x : Fin h → ℝ) : (idLin h).app x = x := by
  funext a
  simp [Linear.app, idLin]

/-- a layer that leaves the features of the edges as they are -/
def zeroLayer (h : Nat) (a : Aggregation) : Layer h := ⟨⟨a, zeroLin h h, zeroLin h h⟩, ⟨zeroLin h h, zeroLin h h⟩, ⟨fun _ => 0, fun _ => 0⟩, ⟨fun _ => 0, fun _ => 0⟩⟩

theorem zeroLayer_edges {B n h : Nat} (a : Aggregation) (xe : NodeTensor B n h × EdgeTensor B n h) : ((zeroLayer h a).forward xe).2 = xe.2 := by
  funext b i j c
  simp [Layer.forward, zeroLayer, BatchNorm.edge, normalize, relu]

theorem zeroLayers_edges {B n h : Nat} (a : Aggregation) (m : Nat) (xe : NodeTensor B n h × EdgeTensor B n h) :
    ((List.replicate m (zeroLayer h a)).foldl (fun xe l => l.forward xe) xe).2 = xe.2 := by
  induction m generalizing xe with
  | zero => rfl
  | succ m ih => rw [List.replicate_succ, List.foldl_cons, ih, zeroLayer_edges]

/-- a classifier whose score for the tour is the feature `c` -/
def pickMlp (m : Nat) (c : Fin 2) : Mlp (1 + 1) 2 := ⟨List.replicate m (idLin _), ⟨fun a b => if a = 1 ∧ b = c then 1 else 0, fun _ => 0⟩⟩

theorem pickMlp_forward (m : Nat) (c : Fin 2) (x : Fin (1 + 1) → ℝ) (hx : ∀ a, 0 ≤ x a) : (pickMlp m c).forward x = ![0, x c] := by
  have h1 : ∀ m, (List.replicate m (idLin (1 + 1))).foldl (fun y l => fun c => relu (l.app y c)) x = x := by
    intro m
    induction m with
    | zero => rfl
    | succ m ih =>
      rw [List.replicate_succ, List.foldl_cons]
      have : (fun c => relu ((idLin (1 + 1)).app x c)) = x := by
        funext c; rw [idLin_app]; exact max_eq_left (hx c)
      rw [this, ih]
  unfold Mlp.forward pickMlp
  rw [h1]
  funext a
  fin_cases a
  · simp [Linear.app]
  · have hc : c = 0 ∨ c = 1 := Fin.exists_fin_two.1 ⟨c, rfl⟩
    rcases hc with rfl | rfl <;> simp [Linear.app]

theorem softmax_pick (t : ℝ) : softmax ![0, t] 1 = 1 / (1 + Real.exp (-t)) := by
  unfold softmax
  rw [Fin.sum_univ_two]
  simp only [Matrix.cons_val_zero, Matrix.cons_val_one, Real.exp_zero]
  rw [Real.exp_neg]
  have := Real.exp_pos t
  field_simp
  ring

theorem softmax_pick_inj {s t : ℝ} (h : softmax ![0, s] 1 = softmax ![0, t] 1) : s = t := by
  rw [softmax_pick, softmax_pick, one_div, one_div, inv_inj, add_right_inj, Real.exp_eq_exp] at h
  linarith

/-! ### C85 -/

/-- a network whose prediction for an edge is its tag -/
def tagNet (layers mlp : Nat) (a : Aggregation) : Net 2 3 1 2 := ⟨fun _ _ => 0, fun _ => 0, fun t _ => ((t : Nat) : ℝ), List.replicate layers (zeroLayer _ a), pickMlp mlp 1⟩

theorem tagNet_prob {B n : Nat} (layers mlp : Nat) (a : Aggregation) (x : Input B n 2 3) (b : Fin B) (i j : Fin n) :
    (tagNet layers mlp a).edgeProb x b i j = softmax ![0, ((x.edges b i j : Nat) : ℝ)] 1 := by
  have he : ((tagNet layers mlp a).embed x).2 b i j = Fin.append (fun c => 0 * x.values b i j) (fun _ => ((x.edges b i j : Nat) : ℝ)) := rfl
  have e1 : ∀ c, ((tagNet layers mlp a).embed x).2 b i j c = if c = 1 then ((x.edges b i j : Nat) : ℝ) else 0 := by
    intro c
    rw [he]
    fin_cases c
    · simp [Fin.append, Fin.addCases]
    · simp [Fin.append, Fin.addCases]
  have e2 : (tagNet layers mlp a).forward x b i j = (pickMlp mlp 1).forward (((tagNet layers mlp a).embed x).2 b i j) := by
    show (pickMlp mlp 1).forward (((List.replicate layers (zeroLayer _ a)).foldl (fun xe l => l.forward xe) ((tagNet layers mlp a).embed x)).2 b i j) = _
    rw [zeroLayers_edges]
  unfold Net.edgeProb
  rw [e2, pickMlp_forward, e1, if_pos rfl]
  intro c
  rw [e1]
  split
  · exact Nat.cast_nonneg _
  · exact le_refl _

/-- three cities of the unit square on a line -/
def lineCities : Fin 3 → ℝ × ℝ := ![(0, 0), (1 / 10, 0), (1, 0)]

theorem cityDist_line (s t : ℝ) : cityDist (s, 0) (t, 0) = |s - t| := by
  unfold cityDist
  rw [show ((s, (0 : ℝ)).1 - (t, (0 : ℝ)).1) ^ 2 + ((s, (0 : ℝ)).2 - (t, (0 : ℝ)).2) ^ 2 = (s - t) ^ 2 by simp]
  exact Real.sqrt_sq_eq_abs _

/-- each city and its nearest other one -/
def lineNear (i j : Fin 3) : Prop := i = j ∨ (i, j) ∈ [((0 : Fin 3), (1 : Fin 3)), (1, 0), (2, 1)]

instance (i j : Fin 3) : Decidable (lineNear i j) := by unfold lineNear; infer_instance

theorem lineNear_nearest : Spec.Nearest 1 (fun i j => cityDist (lineCities i) (lineCities j)) lineNear := by
  have hd : ∀ i j, cityDist (lineCities i) (lineCities j) = |(lineCities i).1 - (lineCities j).1| := by
    intro i j
    fin_cases i <;> fin_cases j <;> exact cityDist_line _ _
  constructor
  · intro i
    have : {j | lineNear i j}.ncard = (Finset.univ.filter fun j => lineNear i j).card := by
      rw [← Set.ncard_coe_finset]
      congr 1
      ext j; simp
    rw [this]
    clear this
    revert i; decide
  · intro i a b ha hb
    simp only [hd]
    fin_cases i <;> fin_cases a <;> fin_cases b <;> first | exact absurd ha (by decide) | exact absurd hb (by decide) | skip
    all_goals simp only [lineCities, Matrix.cons_val_zero, Matrix.cons_val_one, Matrix.cons_val, Fin.zero_eta, Fin.mk_one, Fin.reduceFinMk]
    all_goals norm_num [abs_of_nonneg, abs_of_nonpos]

/-- **C85** is false with nearest neighbours: for every number of layers, both aggregations and one neighbour there are weights and three cities of the unit square such that the probability of an edge depends on its direction. The
nearest other city of city 2 is city 1, but that of city 1 is city 0. -/
theorem C85_fails (layers mlp : Nat) (a : Aggregation) : ∃ (w : Net 2 3 1 2) (cities : Fin 3 → ℝ × ℝ) (near : Fin 3 → Fin 3 → Prop) (_ : ∀ i j, Decidable (near i j)),
    w.layers.length = layers ∧ w.mlp.U.length = mlp ∧ (∀ l ∈ w.layers, l.nodeFeat.aggregation = a) ∧ (∀ i, 0 ≤ (cities i).1 ∧ (cities i).1 ≤ 1 ∧ 0 ≤ (cities i).2 ∧ (cities i).2 ≤ 1) ∧
    Spec.Nearest 1 (fun i j => cityDist (cities i) (cities j)) near ∧
    w.edgeProb (readerInput (fun _ : Fin 1 => cities) (fun _ => near)) 0 1 2 ≠ w.edgeProb (readerInput (fun _ : Fin 1 => cities) (fun _ => near)) 0 2 1 := by
  refine ⟨tagNet layers mlp a, lineCities, lineNear, inferInstance, List.length_replicate, List.length_replicate, ?_, ?_, lineNear_nearest, ?_⟩
  · intro l hl
    rw [List.eq_of_mem_replicate hl]
    rfl
  · intro i
    fin_cases i <;> simp [lineCities] <;> norm_num
  · rw [tagNet_prob, tagNet_prob]
    intro h
    have := softmax_pick_inj h
    have e1 : (readerInput (fun _ : Fin 1 => lineCities) (fun _ => lineNear)).edges 0 1 2 = 0 := by show tag lineNear 1 2 = 0; decide
    have e2 : (readerInput (fun _ : Fin 1 => lineCities) (fun _ => lineNear)).edges 0 2 1 = 1 := by show tag lineNear 2 1 = 1; decide
    rw [e1, e2] at this
    norm_num at this

/-- So the probability that the solver uses for an edge (that in the row of the smaller number, C48) depends on the order of the cities in the input file: when the cities 1 and 2 are exchanged, the pair gets another one. -/
theorem C85_fails_order (layers mlp : Nat) (a : Aggregation) : ∃ (w : Net 2 3 1 2) (cities cities' : Fin 3 → ℝ × ℝ) (near near' : Fin 3 → Fin 3 → Prop) (_ : ∀ i j, Decidable (near i j))
    (_ : ∀ i j, Decidable (near' i j)), w.layers.length = layers ∧ w.mlp.U.length = mlp ∧ (∀ l ∈ w.layers, l.nodeFeat.aggregation = a) ∧
    (∀ i, 0 ≤ (cities i).1 ∧ (cities i).1 ≤ 1 ∧ 0 ≤ (cities i).2 ∧ (cities i).2 ≤ 1) ∧
    cities' 0 = cities 0 ∧ cities' 1 = cities 2 ∧ cities' 2 = cities 1 ∧ Spec.Nearest 1 (fun i j => cityDist (cities i) (cities j)) near ∧
    Spec.Nearest 1 (fun i j => cityDist (cities' i) (cities' j)) near' ∧
    w.edgeProb (readerInput (fun _ : Fin 1 => cities) (fun _ => near)) 0 1 2 ≠ w.edgeProb (readerInput (fun _ : Fin 1 => cities') (fun _ => near')) 0 1 2 := by
  obtain ⟨w, cities, near, inst, h1, h2, h3, h4, h5, h6⟩ := C85_fails layers mlp a
  let σ : Equiv.Perm (Fin 3) := Equiv.swap 1 2
  refine ⟨w, cities, fun i => cities (σ i), near, fun i j => near (σ i) (σ j), inst, fun i j => inst _ _, h1, h2, h3, h4, rfl, rfl, rfl, h5, ?_, ?_⟩
  · constructor
    · intro i
      rw [← h5.number (σ i)]
      refine Set.ncard_congr (fun a _ => σ a) (fun a ha => ha) (fun a b _ _ e => σ.injective e) ?_
      intro b hb
      exact ⟨σ.symm b, by simpa using hb, by simp⟩
    · intro i a b ha hb
      exact h5.nearest (σ i) (σ a) (σ b) ha hb
  · have hx : readerInput (fun _ : Fin 1 => fun i => cities (σ i)) (fun _ => fun i j => near (σ i) (σ j)) = Spec.renumber (fun _ => σ) (readerInput (fun _ : Fin 1 => cities) (fun _ => near)) := by
      unfold readerInput Spec.renumber
      congr 1
      funext b i j
      unfold tag
      simp only [σ.injective.eq_iff]
    unfold Net.edgeProb at h6 ⊢
    rw [hx, C84_renumber]
    exact h6

/-! ### C87 -/

/-- a network with one layer: its prediction for an edge is its length, increased by what it exceeds the mean of the mini-batch (in standard deviations) -/
def meanNet (a : Aggregation) : Net 2 3 1 2 :=
  ⟨fun _ _ => 0, fun _ => 1, fun _ _ => 0, [⟨⟨a, zeroLin _ _, zeroLin _ _⟩, ⟨idLin _, zeroLin _ _⟩, ⟨fun _ => 0, fun _ => 0⟩, ⟨fun _ => 1, fun _ => 0⟩⟩], pickMlp 1 0⟩

theorem meanNet_prob {B n : Nat} (a : Aggregation) (x : Input B n 2 3) (hx : ∀ b i j, 0 ≤ x.values b i j) (b : Fin B) (i j : Fin n) : ∃ m s : ℝ, 0 < s ∧
    m = (∑ b', ∑ j', ∑ i', x.values b' i' j') / ((B : ℝ) * n * n) ∧ (meanNet a).edgeProb x b i j = softmax ![0, x.values b i j + relu ((x.values b i j - m) / s)] 1 := by
  have e0 : ∀ b i j, ((meanNet a).embed x).2 b i j 0 = x.values b i j := by
    intro b i j
    show Fin.append (fun _ => 1 * x.values b i j) (fun _ => 0) (0 : Fin (1 + 1)) = _
    simp [Fin.append, Fin.addCases]
  have e1 : ∀ b i j, ((meanNet a).embed x).2 b i j 1 = 0 := by
    intro b i j
    show Fin.append (fun _ => 1 * x.values b i j) (fun _ => 0) (1 : Fin (1 + 1)) = _
    simp [Fin.append, Fin.addCases]
  have hf : ∀ (l : EdgeFeatures (1 + 1)), l = ⟨idLin _, zeroLin _ _⟩ → ∀ (y : NodeTensor B n (1 + 1)) (e : EdgeTensor B n (1 + 1)), l.forward y e = e := by
    rintro l rfl y e
    funext b i j c
    unfold EdgeFeatures.forward
    simp only [idLin_app, zeroLin_app, add_zero]
  generalize hv : (∑ b', ∑ j', ∑ i', (x.values b' i' j' - (∑ b', ∑ j', ∑ i', x.values b' i' j') / ((B : ℝ) * n * n)) ^ 2) / ((B : ℝ) * n * n) = v
  have hv0 : 0 ≤ v := by
    rw [← hv]
    exact div_nonneg (Finset.sum_nonneg fun _ _ => Finset.sum_nonneg fun _ _ => Finset.sum_nonneg fun _ _ => sq_nonneg _) (by positivity)
  refine ⟨_, Real.sqrt (v + 1 / 100000), Real.sqrt_pos.2 (by linarith), rfl, ?_⟩
  have hfw : (meanNet a).forward x b i j = (pickMlp 1 0).forward (fun c => ((meanNet a).embed x).2 b i j c + relu ((⟨fun _ => 1, fun _ => 0⟩ : BatchNorm (1 + 1)).edge ((meanNet a).embed x).2 b i j c)) := by
    show (pickMlp 1 0).forward (fun c => ((meanNet a).embed x).2 b i j c + relu ((⟨fun _ => 1, fun _ => 0⟩ : BatchNorm (1 + 1)).edge
      ((⟨idLin _, zeroLin _ _⟩ : EdgeFeatures (1 + 1)).forward ((meanNet a).embed x).1 ((meanNet a).embed x).2) b i j c)) = _
    rw [hf _ rfl]
  unfold Net.edgeProb
  rw [hfw, pickMlp_forward]
  · congr 2
    simp only [e0, BatchNorm.edge, normalize, mul_one, add_zero, hv]
  · intro c
    have hr : ∀ t, 0 ≤ relu t := fun t => le_max_right _ _
    rcases Fin.exists_fin_two.1 ⟨c, rfl⟩ with rfl | rfl
    · rw [e0]; exact add_nonneg (hx b i j) (hr _)
    · rw [e1]; exact add_nonneg (le_refl _) (hr _)

/-- two instances of two cities of the unit square each: at the distances 1/4 and 3/4 -/
def twoInstances : Fin 2 → Fin 2 → ℝ × ℝ := ![![(0, 0), (1 / 4, 0)], ![(0, 0), (3 / 4, 0)]]

/-- **C87** is false: the normalization uses the statistics of the mini-batch in evaluation too (`track_running_stats=False`), so there are weights for which an instance gets other probabilities in the company of another instance
than alone. -/
theorem C87_fails (a : Aggregation) : ∃ (w : Net 2 3 1 2) (cities : Fin 2 → Fin 2 → ℝ × ℝ), (∀ b i, 0 ≤ (cities b i).1 ∧ (cities b i).1 ≤ 1 ∧ 0 ≤ (cities b i).2 ∧ (cities b i).2 ≤ 1) ∧
    w.edgeProb (readerInput cities (fun _ _ _ => True)) 0 0 1 ≠ w.edgeProb (Spec.alone (readerInput cities (fun _ _ _ => True)) 0) 0 0 1 := by
  refine ⟨meanNet a, twoInstances, ?_, ?_⟩
  · intro b i
    fin_cases b <;> fin_cases i <;> simp [twoInstances] <;> norm_num
  · have v00 : ∀ b i, cityDist (twoInstances b i) (twoInstances b i) = 0 := by intro b i; simp [cityDist]
    have v0 : cityDist (twoInstances 0 0) (twoInstances 0 1) = 1 / 4 := by
      show cityDist (0, 0) (1 / 4, 0) = 1 / 4
      rw [cityDist_line]; norm_num [abs_of_nonneg, abs_of_nonpos]
    have v1 : cityDist (twoInstances 1 0) (twoInstances 1 1) = 3 / 4 := by
      show cityDist (0, 0) (3 / 4, 0) = 3 / 4
      rw [cityDist_line]; norm_num [abs_of_nonneg, abs_of_nonpos]
    have nn : ∀ b i j, 0 ≤ cityDist (twoInstances b i) (twoInstances b j) := fun b i j => Real.sqrt_nonneg _
    obtain ⟨m, s, hs, hm, e⟩ := meanNet_prob a (readerInput twoInstances (fun _ _ _ => True)) nn 0 0 1
    obtain ⟨m', s', hs', hm', e'⟩ := meanNet_prob a (Spec.alone (readerInput twoInstances (fun _ _ _ => True)) 0) (fun b i j => nn 0 i j) 0 0 1
    rw [e, e']
    intro h
    have h := softmax_pick_inj h
    have hm : m = 1 / 4 := by
      rw [hm]
      simp only [readerInput, Fin.sum_univ_two, v00, v0, v1, cityDist_comm (twoInstances 0 1), cityDist_comm (twoInstances 1 1)]
      norm_num
    have hm' : m' = 1 / 8 := by
      rw [hm']
      simp only [Spec.alone, readerInput, Fin.sum_univ_two, Finset.univ_unique, Finset.sum_singleton, v00, v0, cityDist_comm (twoInstances 0 1)]
      norm_num
    have hv : (readerInput twoInstances (fun _ _ _ => True)).values 0 0 1 = 1 / 4 := v0
    have hv' : (Spec.alone (readerInput twoInstances (fun _ _ _ => True)) 0).values 0 0 1 = 1 / 4 := v0
    rw [hv, hv', hm, hm'] at h
    have hp : 0 < relu ((1 / 4 - 1 / 8) / s') := lt_of_lt_of_le (div_pos (by norm_num) hs') (le_max_left _ _)
    have h0 : relu ((1 / 4 - 1 / 4) / s) = 0 := by simp [relu]
    rw [h0] at h
    linarith

/-! ### Examples -/

/-- C84_cities: the three cities on a line, in another order, with the neighbours moved along -/
example (w : Net 2 3 1 2) (i j : Fin 3) :
    w.edgeProb (readerInput (fun _ : Fin 1 => fun i => lineCities (finRotate 3 i)) (fun _ => fun i j => lineNear (finRotate 3 i) (finRotate 3 j))) 0 i j =
      w.edgeProb (readerInput (fun _ : Fin 1 => lineCities) (fun _ => lineNear)) 0 (finRotate 3 i) (finRotate 3 j) := by
  have hd : ∀ i j, cityDist (lineCities i) (lineCities j) = |(lineCities i).1 - (lineCities j).1| := by
    intro i j
    fin_cases i <;> fin_cases j <;> exact cityDist_line _ _
  have hn := lineNear_nearest
  refine C84_cities (m := 1) w lineCities (finRotate 3) hn ?_ ?_ i j
  · constructor
    · intro i
      rw [← hn.number (finRotate 3 i)]
      refine Set.ncard_congr (fun a _ => finRotate 3 a) (fun a ha => ha) (fun a b _ _ e => (finRotate 3).injective e) ?_
      intro b hb
      exact ⟨(finRotate 3).symm b, by simpa using hb, by simp⟩
    · intro i a b ha hb
      exact hn.nearest (finRotate 3 i) (finRotate 3 a) (finRotate 3 b) ha hb
  · intro i a b e
    rw [hd, hd] at e
    revert e
    fin_cases i <;> fin_cases a <;> fin_cases b <;> first | (intro _; rfl) | (intro e; exfalso; revert e)
    all_goals simp only [lineCities, Matrix.cons_val_zero, Matrix.cons_val_one, Matrix.cons_val, Fin.zero_eta, Fin.mk_one, Fin.reduceFinMk]
    all_goals norm_num [abs_of_nonneg, abs_of_nonpos]

/-- the labels of the only tour of three cities -/
def triangle (_ : Fin 1) (i j : Fin 3) : Fin 2 := if i = j then 0 else 1

/-- C88: both classes occur -/
example (pred : EdgeTensor 1 3 2) : 0 < lossEdges pred triangle (balanced triangle) := C88_positive _ _ (by decide)

/-- C87_copies_partial: two copies of an instance -/
example (w : Net 2 3 1 2) : w.forward (readerInput (fun _ : Fin 2 => lineCities) (fun _ => lineNear)) 1 0 2 =
    w.forward (Spec.alone (readerInput (fun _ : Fin 2 => lineCities) (fun _ => lineNear)) 1) 0 0 2 :=
  C87_copies_partial w _ 1 (fun _ => ⟨rfl, rfl, rfl⟩) 0 2

end
end Verif.Gcn
