import Verif.Props.Nearest

/-!
# `find_candidate_node`
-/
namespace Verif
open Verif.Spec
set_option autoImplicit false

variable [Rounding] {c : Cfg} {p : Problem}

omit [Rounding] in
theorem tour_exists (n : Nat) : IsTour n (List.range n) := List.Perm.refl _

omit [Rounding] in
theorem tourEdges_complete (h : Instance c p) {t : List Nat} (ht : IsTour c.maxV t) : tourEdges t ⊆ edgeSet p.graph := by
  intro e he
  have hs := ht.set h.three
  induction e using Sym2.ind with
  | _ u v =>
    have := hs.within _ _ he
    rw [Finset.mem_range, Finset.mem_range] at this
    exact h.complete u this.1 v this.2 (by rintro rfl; exact hs.loopless _ he)

omit [Rounding] in
theorem free_ready (h : Instance c p) (mem : SubProblem) {i : Nat} (hi : i < c.maxV) :
    CReady c p.graph { mem with numForbidden := 0, numMandatory := 0 } i ∅ ∅ := by
  refine ⟨h.stored, h.positions, le_of_eq h.nodes, h.edges, by rw [h.nodes]; have := h.three; omega, by rw [h.nodes]; exact hi, ?_, by simp, by simp⟩
  constructor <;> simp

theorem free_valid (h : Instance c p) (mem : SubProblem) {i : Nat} (hi : i < c.maxV) {loc : PState} {sp1 : SubProblem}
    (e1 : constrainedPrim c p.graph.numNodes p.graph { mem with numForbidden := 0, numMandatory := 0 } i loc = .ok sp1) : sp1.oneTree.isValid = true := by
  have hr := free_ready h mem hi
  rcases C23_constrained_prim hr (fun e he => h.small e (mem_usable.1 he).1) loc (pn := p.graph.numNodes) with ⟨h', -⟩ | ⟨t, e', -, -, -, hc, -⟩
  · rw [h'] at e1; cases e1
  · rw [e'] at e1; cases e1
    refine hc.2 ?_
    intro u hu v hv
    have hu' := mem_others.1 hu
    have hv' := mem_others.1 hv
    rw [h.nodes] at hu' hv'
    by_cases huv : u = v
    · subst huv; exact Conn.refl' _ _
    · exact Conn.edge (mem_usable.2 ⟨h.complete u hu'.1 v hv'.1 huv, by simp, by
        simp only [Sym2.mem_iff, not_or]; exact ⟨fun h' => hu'.2 h'.symm, fun h' => hv'.2 h'.symm⟩⟩)

/-- the relaxation without constraints gives a minimum 1-tree -/
theorem free_relaxation (h : Instance c p) (mem : SubProblem) {i : Nat} (hi : i < c.maxV) {loc : PState} {sp1 : SubProblem} {r : BBType × SubProblem}
    (e1 : constrainedPrim c p.graph.numNodes p.graph { mem with numForbidden := 0, numMandatory := 0 } i loc = .ok sp1)
    (e2 : mstToOneTree c p.graph sp1 i = .ok r) : (Exact → MinOneTree c.maxV (edgeSet p.graph) (weight p.graph) i r.2.oneTree.cost) ∧ 0 ≤ r.2.oneTree.cost := by
  have hr := free_ready h mem hi
  have h3 := h.three
  have hn3 : 3 ≤ p.graph.numNodes := by rw [h.nodes]; exact h3
  have hwi := usable_within h.stored i (∅ : EdgeSet)
  have hne : (others p.graph i).Nonempty := by
    rw [← Finset.card_pos]; have := card_others hr.cand; omega
  have hv := free_valid h mem hi e1
  rcases relaxation hr (h.pos i hi) hn3 e1 hv with (⟨h', -⟩ | ⟨⟨e, he, h'⟩, -⟩) | ⟨-, h'⟩ | ⟨t, L, et, -, -, -, ho, -, hc, -, -, hsmin, hfmin, -⟩
  · simp [spokes] at h'
  · exact absurd ((h.small e (Finset.mem_sdiff.1 (mem_spokes.1 he).1).1).trans FLT_lt_INFINITE) (not_lt.2 h')
  · exfalso
    refine h' (List.range c.maxV) (by rw [h.nodes]; exact tour_exists _) ⟨tourEdges_complete h (tour_exists _), by simp, by simp⟩
  · rw [et] at e2; cases e2
    rw [Finset.sdiff_empty, h.nodes] at ho
    refine ⟨fun hx => ⟨⟨_, ho, (hc.exact hx).symm⟩, ?_⟩, ?_⟩
    swap
    · obtain ⟨l, -, hl, hs⟩ := hc
      show 0 ≤ t.cost
      rw [hs]
      refine flSum_nonneg fun x hx => ?_
      obtain ⟨e, he, rfl⟩ := List.mem_map.1 hx
      exact h.nonneg e (ho.sub (by rw [← hl]; exact List.mem_toFinset.2 he))
    intro T hT
    show t.cost ≤ _
    rw [hc.exact hx, total_split _ i, total_split _ i (S := T)]
    have hf : forced (weight p.graph) (away i (∅ : EdgeSet)) (-(p.graph.numNodes : ℚ)) = weight p.graph := by
      funext e; simp [forced, away]
    rw [hf] at hfmin
    refine add_le_add (hfmin _ ?_) (hsmin _ ?_ hT.two (by simp [spokes]))
    · have : SpanningTree (others p.graph i) (usable p.graph i ∅) (away i T) := by
        unfold others usable
        rw [h.nodes, Finset.sdiff_empty]
        exact hT.tree
      exact this.span hwi hne
    · rw [Finset.sdiff_empty]
      intro e he
      have := Finset.mem_filter.1 he
      exact mem_spokes.2 ⟨hT.sub this.1, this.2⟩

omit [Rounding] in
theorem MinOneTree_nonneg (h : Instance c p) {i : Nat} {x : ℚ} (hx : MinOneTree c.maxV (edgeSet p.graph) (weight p.graph) i x) : 0 ≤ x := by
  obtain ⟨⟨T, hT, rfl⟩, -⟩ := hx
  exact Finset.sum_nonneg fun e he => h.nonneg e (hT.sub he)

omit [Rounding] in
theorem Spec.Instance.of_graph {p' : Problem} (h : Instance c p) (hg : p'.graph = p.graph) (hc : p'.cand < c.maxV) : Instance c p' := by
  refine ⟨?_, ?_, ?_, ?_, h.three, hc, ?_, ?_, ?_, ?_⟩ <;> rw [hg]
  exacts [h.stored, h.positions, h.nodes, h.edges, h.pos, h.complete, h.nonneg, h.small]

/-- the best value is at most the length of a nearest neighbour tour from `start` (and, in hybrid mode, of a tour along most probable edges) -/
def Spec.BeatsNearest (c : Cfg) (g : Graph) (x : ℚ) (start : Nat) : Prop :=
  (∃ t y, IsTour c.maxV t ∧ t.head? = some start ∧ NearestFirst c.maxV (weight g) t ∧ TourLength (weight g) t y ∧ x ≤ y) ∧
  (c.hybrid = true → ∃ t y, IsTour c.maxV t ∧ t.head? = some start ∧ NearestFirst c.maxV (fun e => - edgeProb g e) t ∧ TourLength (weight g) t y ∧ x ≤ y)

theorem Spec.BeatsNearest.mono {g : Graph} {x y : ℚ} {start : Nat} (h : BeatsNearest c g x start) (hxy : y ≤ x) : BeatsNearest c g y start := by
  refine ⟨?_, fun hy => ?_⟩
  · obtain ⟨t, z, h1, h2, h3, h4, h5⟩ := h.1; exact ⟨t, z, h1, h2, h3, h4, hxy.trans h5⟩
  · obtain ⟨t, z, h1, h2, h3, h4, h5⟩ := h.2 hy; exact ⟨t, z, h1, h2, h3, h4, hxy.trans h5⟩

/-- the state of the scan after the nodes in `done` -/
structure CandScan (c : Cfg) (p : Problem) (k : Nat) (s : Problem × Nat × ℚ × ℚ) : Prop where
  frame : s.1 = { p with cand := s.1.cand, bestValue := s.1.bestValue, best := s.1.best }
  lower : s.1.bestValue ≤ p.bestValue
  best : (s.1.bestValue = p.bestValue ∧ s.1.best = p.best) ∨ (s.1.best.value = s.1.bestValue ∧ ∃ t, Solution c.maxV (weight p.graph) s.1.best t)
  near : ∀ i < k, BeatsNearest c p.graph s.1.bestValue i
  chosen : (s.2.1 = 0 ∧ s.2.2.1 = 0) ∨ (s.2.1 < k ∧ (Exact → MinOneTree c.maxV (edgeSet p.graph) (weight p.graph) s.2.1 s.2.2.1))
  nonneg : 0 ≤ s.2.2.1
  least : Exact → ∀ i < k, ∃ x, MinOneTree c.maxV (edgeSet p.graph) (weight p.graph) i x ∧ x ≤ s.2.2.1 + c.eps

theorem candStep_ok (h : Instance c p) (hp : ProbsAbove c p) (heps : 0 ≤ c.eps) {env : Env} {k : Nat} (hk : k < c.maxV) {s s' : Problem × Nat × ℚ × ℚ}
    (hs : CandScan c p k s) (e : candStep c env s k = .ok s') : CandScan c p (k + 1) s' := by
  have hg : s.1.graph = p.graph := by rw [hs.frame]
  unfold candStep at e
  have hI : Instance c { s.1 with cand := k } := h.of_graph hg hk
  have hp' : ProbsAbove c { s.1 with cand := k } := by
    intro hy; show ∀ e ∈ edgeSet s.1.graph, -1 < edgeProb s.1.graph e
    rw [hg]; exact hp hy
  obtain ⟨p1, t1, t2, x1, x2, e0, ⟨q1, q2, q3, q3'⟩, q4, q5, q6⟩ := C39_nearest_neighbour hI hp' (env.nn k) (env.pnn k) hk
  rw [e0] at e
  simp only [ok_bind] at e
  obtain ⟨sp1, e1, e⟩ := bind_eq_ok.1 e
  obtain ⟨r, e2, e⟩ := bind_eq_ok.1 e
  simp only [hg] at q3 q3' q4 q5 q6
  -- the problem
  have hfr : p1 = { p with cand := k, bestValue := p1.bestValue, best := p1.best } := by
    rcases q6 with rfl | ⟨-, q6, -⟩
    · conv_lhs => rw [hs.frame]
    · rw [q6, hs.frame]
  have hg1 : p1.graph = p.graph := by rw [hfr]
  have hc1 : p1.cand = k := by rw [hfr]
  have hle : p1.bestValue ≤ s.1.bestValue := by rw [q5]; exact min_le_left _ _
  rw [hc1] at e2
  obtain ⟨hm, hx0⟩ : (Exact → MinOneTree c.maxV (edgeSet p.graph) (weight p.graph) k r.2.oneTree.cost) ∧ 0 ≤ r.2.oneTree.cost := by
    rw [hg1] at e1 e2
    exact free_relaxation h (env.cand k) hk e1 e2
  have hbest : (p1.bestValue = p.bestValue ∧ p1.best = p.best) ∨ (p1.best.value = p1.bestValue ∧ ∃ t, Solution c.maxV (weight p.graph) p1.best t) := by
    rcases q6 with rfl | ⟨-, q6, q7, t, -, q8⟩
    · exact hs.best
    · right
      refine ⟨?_, t, q8⟩
      rw [q7, q6]
  have hnear : ∀ i < k + 1, BeatsNearest c p.graph p1.bestValue i := by
    intro i hi
    rcases Nat.lt_succ_iff_lt_or_eq.1 hi with hi | rfl
    · exact (hs.near i hi).mono hle
    · refine ⟨⟨t1, x1, q1, q2, q3, q3', ?_⟩, fun hy => ?_⟩
      · rw [q5]
        split
        · exact (min_le_right _ _).trans (min_le_left _ _)
        · exact min_le_right _ _
      · obtain ⟨z1, z2, z3, z4⟩ := q4 hy
        refine ⟨t2, x2, z1, z2, z3, z4, ?_⟩
        rw [q5, if_pos hy]
        exact (min_le_right _ _).trans (min_le_right _ _)
  have hlow : p1.bestValue ≤ p.bestValue := hle.trans hs.lower
  simp only [pure_eq_ok] at e
  split at e
  · next hcmp =>
    cases e
    refine ⟨by rw [hc1]; exact hfr, hlow, hbest, hnear, Or.inr ⟨by simp, hm⟩, hx0, ?_⟩
    intro hx i hi
    have hge : s.2.2.1 ≤ r.2.oneTree.cost := by
      unfold compareCandidate at hcmp
      simp only [hx _] at hcmp
      split at hcmp
      · rw [decide_eq_true_eq] at hcmp
        rcases hcmp with h' | ⟨h', -⟩
        · simp only [gt_iff_lt] at h'; linarith
        · exact le_of_lt h'
      · rw [decide_eq_true_eq] at hcmp
        simp only [ge_iff_le] at hcmp; linarith
    rcases Nat.lt_succ_iff_lt_or_eq.1 hi with hi | rfl
    · obtain ⟨x, h1, h2⟩ := hs.least hx i hi
      exact ⟨x, h1, by simp only; linarith⟩
    · exact ⟨_, hm hx, by simp only; linarith⟩
  · next hcmp =>
    cases e
    refine ⟨by rw [hc1]; exact hfr, hlow, hbest, hnear, ?_, hs.nonneg, ?_⟩
    · rcases hs.chosen with h' | ⟨h', h''⟩
      · exact Or.inl h'
      · exact Or.inr ⟨by simp only at h' ⊢; omega, h''⟩
    · intro hx i hi
      rcases Nat.lt_succ_iff_lt_or_eq.1 hi with hi | rfl
      · exact hs.least hx i hi
      · refine ⟨_, hm hx, ?_⟩
        unfold compareCandidate at hcmp
        simp only [hx _] at hcmp
        split at hcmp
        · rw [decide_eq_true_eq] at hcmp
          have : ¬ r.2.oneTree.cost - s.2.2.1 > c.eps := fun h' => hcmp (Or.inl h')
          simp only [gt_iff_lt, not_lt] at this ⊢; linarith
        · rw [decide_eq_true_eq] at hcmp
          simp only [ge_iff_le, not_le] at hcmp ⊢; linarith

theorem findCandidate_ok (h : Instance c p) (hp : ProbsAbove c p) (heps : 0 ≤ c.eps) {env : Env} {p' : Problem} {cand : Nat}
    (e : findCandidate c env p = .ok (p', cand)) : ∃ v q, CandScan c p c.maxV (p', cand, v, q) := by
  unfold findCandidate at e
  obtain ⟨s, e1, e2⟩ := bind_eq_ok.1 e
  cases e2
  rw [h.nodes] at e1
  refine ⟨s.2.2.1, s.2.2.2, ?_⟩
  have key : ∀ k ≤ c.maxV, ∀ s, forList (candStep c env) (List.range k) (p, 0, 0, 0) = .ok s → CandScan c p k s := by
    intro k
    induction k with
    | zero =>
      intro _ s e
      cases e
      exact ⟨rfl, le_refl _, Or.inl ⟨rfl, rfl⟩, by simp, Or.inl ⟨rfl, rfl⟩, le_refl _, by simp⟩
    | succ k ih =>
      intro hk s e
      rw [List.range_succ, forList_snoc] at e
      obtain ⟨s1, e1, e2⟩ := bind_eq_ok.1 e
      exact candStep_ok h hp heps (by omega) (ih (by omega) s1 e1) e2
  exact key _ (le_refl _) s e1

end Verif
