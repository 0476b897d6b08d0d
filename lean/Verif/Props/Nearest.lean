import Verif.Proofs.Nearest

/-!
# Properties C39, C46: the nearest neighbour heuristic and the feasibility check
-/
namespace Verif
open Verif.Spec
set_option autoImplicit false

variable [Rounding] {c : Cfg} {p : Problem}

/-- the probabilities that the hybrid mode compares are probabilities (above `-1` is enough) -/
def Spec.ProbsAbove (c : Cfg) (p : Problem) : Prop := c.hybrid = true → ∀ e ∈ edgeSet p.graph, -1 < edgeProb p.graph e

omit [Rounding] in
theorem FLT_lt_INFINITE : FLT_MAX < INFINITE := by decide +kernel

omit [Rounding] in
theorem Spec.Instance.nnReady (h : Instance c p) : NNReady c false p.graph :=
  ⟨h.stored, h.nodes, h.three, h.complete, fun e he => by
    simp only [nnKey, nnSgn, Bool.false_eq_true, ↓reduceIte]
    exact (h.small e he).trans FLT_lt_INFINITE⟩

omit [Rounding] in
theorem Spec.Instance.pnnReady (h : Instance c p) (hp : ∀ e ∈ edgeSet p.graph, -1 < edgeProb p.graph e) : NNReady c true p.graph :=
  ⟨h.stored, h.nodes, h.three, h.complete, fun e he => by
    simp only [nnKey, nnSgn, ↓reduceIte]
    have := hp e he
    linarith⟩

/-- C39. (Whatever the rounding.) On a complete graph, from every start node, `nearest_prob_neighbour` returns. It has built a tour that starts there and always goes on to a nearest city not yet visited
(in hybrid mode also one that always goes on along a most probable edge). The best value becomes the length of that tour (in hybrid mode the smaller of the two lengths) if that is lower, and then
the best solution is the tour, with its edges, its steps and its length recorded; otherwise the problem is unchanged. -/
theorem C39_nearest_neighbour (h : Instance c p) (hp : ProbsAbove c p) (mem pmem : SubProblem) {start : Nat} (hs : start < c.maxV) :
    ∃ (p' : Problem) (t1 t2 : List Nat) (x1 x2 : ℚ), nearestNeighbour c mem pmem p start = .ok p' ∧
      (IsTour c.maxV t1 ∧ t1.head? = some start ∧ NearestFirst c.maxV (weight p.graph) t1 ∧ TourLength (weight p.graph) t1 x1) ∧
      (c.hybrid = true → IsTour c.maxV t2 ∧ t2.head? = some start ∧ NearestFirst c.maxV (fun e => - edgeProb p.graph e) t2 ∧ TourLength (weight p.graph) t2 x2) ∧
      (let v := if c.hybrid then min x1 x2 else x1
       p'.bestValue = min p.bestValue v ∧
       (p' = p ∨ (v < p.bestValue ∧ p' = { p with bestValue := v, best := p'.best } ∧ p'.best.value = v ∧
         ∃ t, (t = t1 ∨ (c.hybrid = true ∧ t = t2)) ∧ Solution c.maxV (weight p.graph) p'.best t))) := by
  obtain ⟨sp1, t1, e1, s1, hd1, n1, -⟩ := nnTour_ok h.nnReady mem hs
  have n1' : NearestFirst c.maxV (weight p.graph) t1 := n1
  unfold nearestNeighbour
  rw [e1]
  simp only [ok_bind]
  by_cases hy : c.hybrid = true
  · obtain ⟨sp2, t2, e2, s2, hd2, n2, -⟩ := nnTour_ok (h.pnnReady (hp hy)) pmem hs
    have n2' : NearestFirst c.maxV (fun e => - edgeProb p.graph e) t2 := n2
    rw [if_pos hy, e2]
    simp only [ok_bind, pure_eq_ok]
    have hbv : (if sp2.value < sp1.value then sp2 else sp1).value = min sp1.value sp2.value := by
      split
      · next h' => rw [min_eq_right (le_of_lt h')]
      · next h' => rw [min_eq_left (not_lt.1 h')]
    have hsol : ∃ t, (t = t1 ∨ (c.hybrid = true ∧ t = t2)) ∧ Solution c.maxV (weight p.graph) (if sp2.value < sp1.value then sp2 else sp1) t := by
      split
      · exact ⟨t2, Or.inr ⟨hy, rfl⟩, s2⟩
      · exact ⟨t1, Or.inl rfl, s1⟩
    generalize (if sp2.value < sp1.value then sp2 else sp1) = b at hbv hsol
    refine ⟨_, t1, t2, sp1.value, sp2.value, rfl, ⟨s1.tour, hd1, n1', s1.value⟩, fun _ => ⟨s2.tour, hd2, n2', s2.value⟩, ?_⟩
    simp only [hy, ↓reduceIte, ← hbv] at hsol ⊢
    split
    · next h' => exact ⟨(min_eq_right (le_of_lt h')).symm, Or.inr ⟨h', rfl, rfl, hsol⟩⟩
    · next h' => exact ⟨(min_eq_left (not_lt.1 h')).symm, Or.inl rfl⟩
  · rw [if_neg hy]
    simp only [pure_eq_ok]
    refine ⟨_, t1, [], sp1.value, 0, rfl, ⟨s1.tour, hd1, n1', s1.value⟩, fun h' => absurd h' hy, ?_⟩
    simp only [hy, Bool.false_eq_true, ↓reduceIte]
    split
    · next h' => exact ⟨(min_eq_right (le_of_lt h')).symm, Or.inr ⟨h', rfl, rfl, t1, Or.inl rfl, s1⟩⟩
    · next h' => exact ⟨(min_eq_left (not_lt.1 h')).symm, Or.inl rfl⟩

omit [Rounding] in
/-- C46. `check_feasibility` accepts a stored graph exactly when every node is joined to at least two others. -/
theorem C46_min_degree {g : Graph} (st : Stored g) :
    checkFeasibility g = true ↔ ∀ u < g.numNodes, ∃ v w, v ≠ w ∧ s(u, v) ∈ edgeSet g ∧ s(u, w) ∈ edgeSet g := by
  unfold checkFeasibility
  rw [List.all_eq_true]
  simp only [List.mem_range, Bool.not_eq_true', decide_eq_false_iff_not, not_lt]
  refine forall₂_congr fun u hu => ?_
  have hl : (g.nodes u).nn = (g.nodes u).list.length := by simp [Node.list]
  have hmem : ∀ v, v ∈ (g.nodes u).list ↔ s(u, v) ∈ edgeSet g := fun v => by rw [st.nbr u hu, ← mem_edgeSet_adj]
  have hnd := st.nodup u hu
  rw [hl]
  constructor
  · intro h2
    match hlist : (g.nodes u).list, h2 with
    | a :: b :: l, _ =>
      rw [hlist] at hmem hnd
      refine ⟨a, b, ?_, (hmem a).1 (by simp), (hmem b).1 (by simp)⟩
      rintro rfl
      simp at hnd
  · rintro ⟨v, w, hvw, hv, hw⟩
    rw [← List.toFinset_card_of_nodup hnd]
    have : ({v, w} : Finset Nat) ⊆ (g.nodes u).list.toFinset := by
      intro x hx
      rw [Finset.mem_insert, Finset.mem_singleton] at hx
      rw [List.mem_toFinset, hmem]
      rcases hx with rfl | rfl <;> assumption
    have := Finset.card_le_card this
    rwa [Finset.card_pair hvw] at this

omit [Rounding] in
/-- C46, second part. A stored graph of at least three nodes that `check_feasibility` rejects has no tour. -/
theorem C46_rejected_no_tour {g : Graph} (st : Stored g) (hn : 3 ≤ g.numNodes) (h : checkFeasibility g = false) (t : List Nat) (ht : IsTour g.numNodes t) :
    ¬ tourEdges t ⊆ edgeSet g := by
  intro hsub
  have : ¬ checkFeasibility g = true := by rw [h]; simp
  refine this ((C46_min_degree st).2 ?_)
  intro u hu
  obtain ⟨e, f, hef, hS⟩ := Finset.card_eq_two.1 ((ht.set hn).deg u hu)
  have he : e ∈ (tourEdges t).filter (u ∈ ·) := by rw [hS]; simp
  have hf : f ∈ (tourEdges t).filter (u ∈ ·) := by rw [hS]; simp
  rw [Finset.mem_filter] at he hf
  obtain ⟨v, rfl⟩ := Sym2.mem_iff_exists.1 he.2
  obtain ⟨w, rfl⟩ := Sym2.mem_iff_exists.1 hf.2
  exact ⟨v, w, by rintro rfl; exact hef rfl, hsub he.1, hsub hf.1⟩

end Verif
