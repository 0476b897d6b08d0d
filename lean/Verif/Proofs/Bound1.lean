import Verif.Proofs.Reweight
import Verif.Props.Constrained

/-!
# One relaxation: constrained_prim followed by mst_to_one_tree
-/
namespace Verif
open Verif.Spec
set_option autoImplicit false

variable [Rounding]

variable {c : Cfg} {pn : Nat} {g : Graph} {sp sp1 sp2 : SubProblem} {cand : Nat} {M F : EdgeSet} {loc : PState}

omit [Rounding] in
theorem CReady.setTree (h : CReady c g sp cand M F) (t : MST) : CReady c g { sp with oneTree := t } cand M F :=
  ⟨h.stored, h.positions, h.nodes, h.edges, h.two, h.cand, ⟨h.desc.mand, h.desc.forb, h.desc.free, h.desc.recorded, h.desc.list, h.desc.within⟩, h.room, h.real⟩

theorem CReady.applyPi (h : CReady c g sp cand M F) (pi : Nat → ℚ) : CReady c (applyPi pi g.numEdges g) sp cand M F := by
  obtain ⟨h1, h2, h3, -, h5, h6, h7, -⟩ := applyPi_ok h.stored h.positions pi
  exact ⟨h1, h2, by rw [h5]; exact h.nodes, by rw [h6]; exact h.edges, by rw [h5]; exact h.two, by rw [h5]; exact h.cand,
    by rw [h5]; exact h.desc, h.room, by rw [h3]; exact h.real⟩

omit [Rounding] in
theorem flt_le_dbl : FLT_MAX < INFINITE := by decide +kernel

omit [Rounding] in
/-- the two parts of an allowed tour -/
theorem allowed_parts (h : CReady c g sp cand M F) {t : List Nat} (hn : 3 ≤ g.numNodes) (ht : IsTour g.numNodes t)
    (ha : Allowed (edgeSet g) M F t) :
    Span (others g cand) (usable g cand F) (away cand (tourEdges t)) ∧ away cand M ⊆ away cand (tourEdges t) ∧
    spokes cand (tourEdges t) ⊆ spokes cand (edgeSet g \ F) ∧ (spokes cand (tourEdges t)).card = 2 ∧ spokes cand M ⊆ spokes cand (tourEdges t) := by
  have hs := ht.set hn
  refine ⟨hs.span h.cand ?_, ?_, ?_, hs.deg cand h.cand, ?_⟩
  · intro e he
    rw [mem_away] at he
    exact mem_usable.2 ⟨ha.1 he.1, ha.2.2 e he.1, he.2⟩
  · intro e he
    rw [mem_away] at he ⊢
    exact ⟨ha.2.1 he.1, he.2⟩
  · intro e he
    rw [mem_spokes] at he ⊢
    exact ⟨Finset.mem_sdiff.2 ⟨ha.1 he.1, ha.2.2 e he.1⟩, he.2⟩
  · intro e he
    rw [mem_spokes] at he ⊢
    exact ⟨ha.2.1 he.1, he.2⟩

theorem invalid_no_tour (h : CReady c g sp cand M F) (hn : 3 ≤ g.numNodes) (hsmall : ∀ e ∈ edgeSet g \ F, weight g e < FLT_MAX)
    (e : constrainedPrim c pn g sp cand loc = .ok sp1) (hv : sp1.oneTree.isValid = false) :
    ∀ t, IsTour g.numNodes t → ¬ Allowed (edgeSet g) M F t := by
  intro t ht ha
  have hsm : ∀ e ∈ usable g cand F, weight g e < FLT_MAX := fun e he =>
    hsmall e (Finset.mem_sdiff.2 ⟨(mem_usable.1 he).1, (mem_usable.1 he).2.1⟩)
  rcases constrainedPrim_main (pn := pn) h loc with ⟨h1, _⟩ | ⟨t', L, e1, -, -, -, -, -, -, -, -, hc, -⟩
  · rw [h1] at e; cases e
  rw [e] at e1; cases e1
  have hp := allowed_parts h hn ht ha
  have := (hc hsm).2 (fun u hu v hv => (hp.1.conn u hu v hv).mono hp.1.sub)
  simp only at hv
  rw [this] at hv; cases hv

/-- the tree built by `constrained_prim` is what `mst_to_one_tree` needs -/
theorem oready (h : CReady c g sp cand M F) (hpos : (g.nodes cand).pos = cand)
    (e : constrainedPrim c pn g sp cand loc = .ok sp1) (hv : sp1.oneTree.isValid = true) :
    ∃ t L, sp1 = { sp with oneTree := t } ∧ OReady c g sp1 cand M F L ∧ L.length + 2 = g.numNodes ∧ pairs L ⊆ usable g cand F ∧ Acyclic (pairs L) ∧
      (∀ e ∈ L, weight g (epair e) = e.weight) ∧ (∀ e ∈ L, ∃ u v, s(u, v) ∈ edgeSet g ∧ e = g.mat u v) ∧
      (∀ i < g.numNodes, (t.nodes i).pos = (g.nodes i).pos) := by
  rcases constrainedPrim_main (pn := pn) h loc with ⟨h1, _⟩ | ⟨t', L, e1, rep, hs, hac, hsub, hw, hmem, hp, hvl, hc, hnp⟩
  · rw [h1] at e; cases e
  rw [e] at e1; cases e1
  have hlen := hvl.1 hv
  refine ⟨t', L, rfl, ⟨h.setTree t', hpos, rep, hs, ?_, by omega⟩, hlen, hsub, hac, hw, hmem, hnp⟩
  · intro e he; exact (mem_usable.1 (hsub he)).2.2

/-- what one relaxation gives when both functions succeed -/
theorem relaxation (h : CReady c g sp cand M F) (hpos : (g.nodes cand).pos = cand) (hn : 3 ≤ g.numNodes)
    (e : constrainedPrim c pn g sp cand loc = .ok sp1) (hv : sp1.oneTree.isValid = true) :
    ((2 < (spokes cand M).card ∧ mstToOneTree c g sp1 cand = .error (.oobAt .bestEdges)) ∨
      (∃ e ∈ spokes cand (edgeSet g \ F), INFINITE ≤ weight g e) ∧ mstToOneTree c g sp1 cand = .error (.oobAt .minusOne)) ∨
    (mstToOneTree c g sp1 cand = .ok (.closedUnfeasible, sp1) ∧ ∀ t, IsTour g.numNodes t → ¬ Allowed (edgeSet g) M F t) ∨
    ∃ t L, mstToOneTree c g sp1 cand = .ok (.opened, { sp with oneTree := t }) ∧ TreeRep c t g.numNodes L ∧ SimpleList g.numNodes L ∧
      (L.length = g.numNodes ∧ (∀ i (hi : i < L.length), cand ∈ epair L[i] ↔ g.numNodes - 2 ≤ i) ∧ treeEdges sp1.oneTree ⊆ pairs L) ∧ OneTree g.numNodes cand (edgeSet g \ F) (pairs L) ∧ spokes cand M ⊆ pairs L ∧
      AddsUp (weight g) (pairs L) t.cost ∧ (∀ i < g.numNodes, (t.nodes i).pos = (g.nodes i).pos) ∧
      (∀ e ∈ L, ∃ i < g.numEdges, epair e = epair (g.edges i) ∧ e.weight = (g.edges i).weight) ∧
      (∀ Q ⊆ spokes cand (edgeSet g \ F), Q.card = 2 → spokes cand M ⊆ Q → total (weight g) (spokes cand (pairs L)) ≤ total (weight g) Q) ∧
      (∀ S, Span (others g cand) (usable g cand F) S →
        total (forced (weight g) (away cand M) (-(pn : ℚ))) (away cand (pairs L)) ≤ total (forced (weight g) (away cand M) (-(pn : ℚ))) S) ∧
      ((∀ e ∈ away cand M, -(pn : ℚ) ≤ weight g e) →
        ∀ t', IsTour g.numNodes t' → Allowed (edgeSet g) M F t' → total (weight g) (pairs L) ≤ tourCost (weight g) t') := by
  obtain ⟨t0, L, hsp1, ho, hlen, hsub, hac, hw, hmem, hnp⟩ := oready h hpos e hv
  have hval := constrainedPrim_valid h e hv
  have hL0 : treeEdges sp1.oneTree = pairs L := ho.rep.treeEdges
  rw [hL0] at hval
  obtain ⟨hcost0, hspan0, hmin0⟩ := hval
  have hne : (others g cand).Nonempty := by
    rw [← Finset.card_pos]; have := card_others h.cand; omega
  have hwi := usable_within h.stored cand F
  rcases mstToOneTree_main ho with h1 | ⟨h1, h2, h3⟩ | ⟨h1, h2, t, ea, eb, et, rep, hsim, hvv, hpp, hia, hib, hPsub, hPcard, hMP, hPmin⟩
  · exact Or.inl h1
  · refine Or.inr (Or.inl ⟨h3, ?_⟩)
    intro t ht ha
    have hp := allowed_parts h hn ht ha
    have := Finset.card_le_card hp.2.2.1
    rw [hp.2.2.2.1] at this
    omega
  right; right
  have hoff : ∀ e ∈ pairs L, cand ∉ e := ho.off
  have hpairs : pairs (L ++ [ea, eb]) = pairs L ∪ {epair ea, epair eb} := by
    ext p; simp only [mem_pairs, Finset.mem_union, Finset.mem_insert, Finset.mem_singleton, List.mem_append, List.mem_cons, List.not_mem_nil, or_false]
    constructor
    · rintro ⟨e, h' | rfl | rfl, rfl⟩
      · exact Or.inl ⟨e, h', rfl⟩
      · exact Or.inr (Or.inl rfl)
      · exact Or.inr (Or.inr rfl)
    · rintro (⟨e, h', rfl⟩ | rfl | rfl)
      · exact ⟨e, Or.inl h', rfl⟩
      · exact ⟨_, Or.inr (Or.inl rfl), rfl⟩
      · exact ⟨_, Or.inr (Or.inr rfl), rfl⟩
  have hsp : spokes cand (pairs (L ++ [ea, eb])) = {epair ea, epair eb} := by
    ext p; rw [mem_spokes, hpairs, Finset.mem_union]
    constructor
    · rintro ⟨h' | h', hc⟩
      · exact absurd hc (hoff p h')
      · exact h'
    · intro h'; exact ⟨Or.inr h', (mem_spokes.1 (hPsub h')).2⟩
  have haw : away cand (pairs (L ++ [ea, eb])) = pairs L := by
    ext p; rw [mem_away, hpairs, Finset.mem_union]
    constructor
    · rintro ⟨h' | h', hc⟩
      · exact h'
      · exact absurd (mem_spokes.1 (hPsub h')).2 hc
    · intro h'; exact ⟨Or.inl h', hoff p h'⟩
  have hcost : AddsUp (weight g) (pairs (L ++ [ea, eb])) t.cost := by
    refine rep.addsUp hsim ?_
    intro e he
    rcases List.mem_append.1 he with h' | h'
    · exact hw e h'
    · obtain ⟨i, hi, rfl⟩ := hia
      obtain ⟨j, hj, rfl⟩ := hib
      simp only [List.mem_cons, List.not_mem_nil, or_false] at h'
      rcases h' with rfl | rfl
      · exact h.stored.weight_eq hi
      · exact h.stored.weight_eq hj
  subst hsp1
  refine ⟨t, L ++ [ea, eb], et, rep, hsim, ⟨by simp; omega, ?_, by rw [hL0, hpairs]; exact Finset.subset_union_left⟩, ⟨?_, ?_, by rw [hsp]; exact hPcard⟩, ?_, hcost, ?_, ?_, ?_, ?_, ?_⟩
  · intro i hi
    have hlen2 : (L ++ [ea, eb]).length = L.length + 2 := by simp
    have q0 : ({epair ea, epair eb} : EdgeSet) ⊆ spokes cand (edgeSet g \ F) := hPsub
    have qa : cand ∈ epair ea := (mem_spokes.1 (q0 (by simp))).2
    have qb : cand ∈ epair eb := (mem_spokes.1 (q0 (by simp))).2
    by_cases hiL : i < L.length
    · rw [List.getElem_append_left hiL]
      constructor
      · intro h'; exact absurd h' (hoff _ (mem_pairs.2 ⟨_, List.getElem_mem hiL, rfl⟩))
      · intro h'; omega
    · rw [List.getElem_append_right (by omega)]
      refine ⟨fun _ => by omega, fun _ => ?_⟩
      rcases (by omega : i - L.length = 0 ∨ i - L.length = 1) with h' | h'
      · simp only [h', List.getElem_cons_zero]; exact qa
      · simp only [h', List.getElem_cons_succ, List.getElem_cons_zero]; exact qb
  · rw [hpairs]
    intro e he
    rcases Finset.mem_union.1 he with h' | h'
    · have := mem_usable.1 (hsub h'); exact Finset.mem_sdiff.2 ⟨this.1, this.2.1⟩
    · exact (mem_spokes.1 (hPsub h')).1
  · rw [haw]; exact hspan0.tree hwi hne
  · rw [hpairs]; exact hMP.trans Finset.subset_union_right
  · intro i hi; rw [hpp i]; exact hnp i hi
  · intro e he
    rcases List.mem_append.1 he with h' | h'
    · obtain ⟨u, v, huv, rfl⟩ := hmem e h'
      obtain ⟨i, hi, hj⟩ := mem_edgeSet_adj.1 huv
      have := h.stored.mat i hi u v hj
      simp only [content, Prod.mk.injEq] at this
      exact ⟨i, hi, by unfold epair; rw [this.1, this.2.1], this.2.2.2.1⟩
    · obtain ⟨i, hi, rfl⟩ := hia
      obtain ⟨j, hj, rfl⟩ := hib
      simp only [List.mem_cons, List.not_mem_nil, or_false] at h'
      rcases h' with rfl | rfl
      · exact ⟨i, hi, rfl, rfl⟩
      · exact ⟨j, hj, rfl, rfl⟩
  · rw [hsp]; exact hPmin
  · rw [haw]; exact hmin0
  · intro hlow t' ht' ha'
    have hp := allowed_parts h hn ht' ha'
    rw [ht'.cost hn, total_split _ cand (tourEdges t'), total_split (weight g) cand (pairs (L ++ [ea, eb])), haw]
    have q1 := forced_lower hp.2.1 hlow (hmin0 _ hp.1)
    have q2 := hPmin _ hp.2.2.1 hp.2.2.2.1 hp.2.2.2.2
    rw [← hsp] at q2
    exact add_le_add q1 q2

end Verif
