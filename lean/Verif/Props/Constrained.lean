import Verif.Proofs.Constrained

/-!
# Properties C23, C24: `constrained_prim`

`CReady` (Proofs/Constrained.lean) collects the assumptions: the graph structure stores a simple graph with consistent
positions that fits the arrays, the candidate is one of its nodes, the subproblem describes mandatory edges `M` and forbidden
edges `F` (Spec/Constraints.lean), its list of mandatory edges fits its array and names edges of the graph.
-/
namespace Verif
open Verif.Spec
set_option autoImplicit false

variable [Rounding]

/-- C23. `constrained_prim` puts neither a forbidden edge nor an edge at the candidate in the tree, and flags it valid iff
the other nodes are connected through the remaining edges, and then it is a spanning tree of them. Only the tree of the
subproblem changes. The only other outcome is the heap's table overflow (C13), which needs at least 57 nodes. -/
theorem C23_constrained_prim {c : Cfg} {pn : Nat} {g : Graph} {sp : SubProblem} {cand : Nat} {M F : EdgeSet}
    (h : CReady c g sp cand M F) (hsmall : ∀ e ∈ usable g cand F, weight g e < FLT_MAX) (loc : PState) :
    (constrainedPrim c pn g sp cand loc = .error (.oobAt .degreeList) ∧ 57 ≤ g.numNodes) ∨
    ∃ t, constrainedPrim c pn g sp cand loc = .ok { sp with oneTree := t } ∧
      (∀ e ∈ treeEdges t, e ∈ edgeSet g ∧ e ∉ F ∧ cand ∉ e) ∧ (treeEdges t).card = t.numEdges ∧ Acyclic (treeEdges t) ∧
      (t.isValid = true ↔ Connected (others g cand) (usable g cand F)) ∧
      (t.isValid = true → SpanningTree (others g cand) (usable g cand F) (treeEdges t)) := by
  rcases constrainedPrim_main (pn := pn) h loc with h1 | ⟨t, L, e, rep, hs, hac, hsub, -, -, -, hv, hc, -⟩
  · exact Or.inl h1
  · right
    have hte := rep.treeEdges
    refine ⟨t, e, ?_, by rw [hte, SimpleList.card hs, rep.num], by rw [hte]; exact hac, hc hsmall, ?_⟩
    · intro e he; rw [hte] at he; exact mem_usable.1 (hsub he)
    · intro htrue
      rw [hte]
      refine ⟨hsub, hac.connected_of_card ((usable_within h.stored cand F).subset hsub) ?_, hac⟩
      rw [SimpleList.card hs]
      have := card_others h.cand
      have := hv.1 htrue
      omega

/-- what a valid result is: the recorded list of edges, and that it is cheapest for the forced weights -/
theorem constrainedPrim_valid {c : Cfg} {pn : Nat} {g : Graph} {sp sp' : SubProblem} {cand : Nat} {M F : EdgeSet}
    (h : CReady c g sp cand M F) {loc : PState}
    (e : constrainedPrim c pn g sp cand loc = .ok sp') (hv : sp'.oneTree.isValid = true) :
    AddsUp (weight g) (treeEdges sp'.oneTree) sp'.oneTree.cost ∧
    Span (others g cand) (usable g cand F) (treeEdges sp'.oneTree) ∧
    ∀ S, Span (others g cand) (usable g cand F) S →
      total (forced (weight g) (away cand M) (-(pn : ℚ))) (treeEdges sp'.oneTree) ≤ total (forced (weight g) (away cand M) (-(pn : ℚ))) S := by
  rcases constrainedPrim_main (pn := pn) h loc with ⟨h1, _⟩ | ⟨t, L, e1, rep, hs, hac, hsub, hw, -, hp, hv1, hc, -⟩
  · rw [h1] at e; cases e
  rw [e] at e1; cases e1
  have hlen := hv1.1 hv
  have hco := card_others h.cand
  have hte : treeEdges t = pairs L := rep.treeEdges
  have hcard : (pairs L).card + 1 = (others g cand).card := by rw [SimpleList.card hs]; omega
  have hsp : Span (others g cand) (usable g cand F) (pairs L) :=
    ⟨hsub, hac.connected_of_card ((usable_within h.stored cand F).subset hsub) hcard, hcard⟩
  rw [hte]
  refine ⟨rep.addsUp hs hw, hsp, fun S hS => ?_⟩
  exact (Promising.congr (fun e he => h.cweight_eq pn he) hp).minimum hcard hS

/-- C24 (partial). If the mandatory edges away from the candidate have no cycle and every other usable edge weighs more than
`-num_nodes` (in particular for non-negative weights), a valid tree contains all of them, its cost is the weight of its
edges as the machine adds them up, and it is cheapest among the spanning trees that contain them. Missing: graphs with weights `≤ -num_nodes`, which the
dual multipliers can produce; there the claim fails, see `C24_fails_below_minus_n`. -/
theorem C24_mandatory_partial {c : Cfg} {pn : Nat} {g : Graph} {sp sp' : SubProblem} {cand : Nat} {M F : EdgeSet}
    (h : CReady c g sp cand M F) {loc : PState}
    (e : constrainedPrim c pn g sp cand loc = .ok sp') (hv : sp'.oneTree.isValid = true) (hac : Acyclic (away cand M))
    (hlow : ∀ e ∈ usable g cand F, e ∉ M → -(pn : ℚ) < weight g e) :
    away cand M ⊆ treeEdges sp'.oneTree ∧ AddsUp (weight g) (treeEdges sp'.oneTree) sp'.oneTree.cost ∧
    ∀ T, SpanningTree (others g cand) (usable g cand F) T → away cand M ⊆ T → total (weight g) (treeEdges sp'.oneTree) ≤ total (weight g) T := by
  obtain ⟨hcost, hsp, hmin⟩ := constrainedPrim_valid h e hv
  have hwi := usable_within h.stored cand F
  have hne : (others g cand).Nonempty := by
    rw [← Finset.card_pos]; have := card_others h.cand; have := h.two; omega
  have hcon : away cand M ⊆ treeEdges sp'.oneTree := hsp.contains_forced hwi hmin h.mand_usable hac
    (fun e he hn => hlow e he (fun hm => hn (mem_away.2 ⟨hm, (mem_usable.1 he).2.2⟩)))
  refine ⟨hcon, hcost, fun T hT hM => ?_⟩
  exact forced_minimum hcon hM (hmin T (hT.span hwi hne))

/-- C24, on the mandatory edges with a cycle too: if the mandatory edges weigh at least `-num_nodes` the tree is not heavier than
any spanning tree that contains them. -/
theorem C24_lower_bound {c : Cfg} {pn : Nat} {g : Graph} {sp sp' : SubProblem} {cand : Nat} {M F : EdgeSet}
    (h : CReady c g sp cand M F) {loc : PState}
    (e : constrainedPrim c pn g sp cand loc = .ok sp') (hv : sp'.oneTree.isValid = true)
    (hlow : ∀ e ∈ away cand M, -(pn : ℚ) ≤ weight g e) :
    ∀ T, SpanningTree (others g cand) (usable g cand F) T → away cand M ⊆ T → total (weight g) (treeEdges sp'.oneTree) ≤ total (weight g) T := by
  obtain ⟨hcost, hsp, hmin⟩ := constrainedPrim_valid h e hv
  have hne : (others g cand).Nonempty := by
    rw [← Finset.card_pos]; have := card_others h.cand; have := h.two; omega
  intro T hT hM
  exact forced_lower hM hlow (hmin T (hT.span (usable_within h.stored cand F) hne))

end Verif
