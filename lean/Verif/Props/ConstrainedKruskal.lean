import Verif.Proofs.ConstrainedKruskal

/-!
# Property C25: `constrained_kruskal`

Beyond `CReady` and `KruskalReady`, the recorded list of mandatory edges must not contain an edge that is now forbidden
(`constrained_kruskal`, unlike `constrained_prim`, does not look at the constraint matrix for the recorded edges).
-/
namespace Verif
open Verif.Spec
set_option autoImplicit false

variable [Rounding]

/-- C25. `constrained_kruskal` ends normally; the tree uses no forbidden edge and no edge at the candidate, has no cycle, is
flagged valid iff the other nodes are connected through usable edges, contains all mandatory edges away from the candidate
if these have no cycle, and when valid is then cheapest among the spanning trees that contain them, whatever the weights. The
graph changes only in the order of its edges. -/
theorem C25_constrained_kruskal {c : Cfg} {cap : Nat} {g : Graph} {sp : SubProblem} {cand : Nat} {M F : EdgeSet}
    (h : CReady c g sp cand M F) (hk : KruskalReady c cap g)
    (hclean : ∀ k < sp.numMandatory, s((sp.mandatory k).1, (sp.mandatory k).2) ∈ M) :
    ∃ g' t, constrainedKruskal c cap g sp cand = .ok (g', { sp with oneTree := t }) ∧
      edgeSet g' = edgeSet g ∧ weight g' = weight g ∧ CReady c g' sp cand M F ∧
      (∀ e ∈ treeEdges t, e ∈ edgeSet g ∧ e ∉ F ∧ cand ∉ e) ∧ (treeEdges t).card = t.numEdges ∧ Acyclic (treeEdges t) ∧
      (t.isValid = true ↔ Connected (others g cand) (usable g cand F)) ∧
      (t.isValid = true → SpanningTree (others g cand) (usable g cand F) (treeEdges t)) ∧
      AddsUp (weight g) (treeEdges t) t.cost ∧
      (Acyclic (away cand M) → away cand M ⊆ treeEdges t ∧ (t.isValid = true →
        ∀ T, SpanningTree (others g cand) (usable g cand F) T → away cand M ⊆ T → total (weight g) (treeEdges t) ≤ total (weight g) T)) := by
  obtain ⟨g', t, L, low, e, h1, -, hE, hw, rep, hs, hac, hsub, hwt, hp, hcont, hv, hc⟩ := constrainedKruskal_main h hk hclean
  have hte := rep.treeEdges
  have hwi := usable_within h.stored cand F
  have hco := card_others h.cand
  have hne : (others g cand).Nonempty := by rw [← Finset.card_pos]; have := h.two; omega
  have hcard := SimpleList.card hs
  refine ⟨g', t, e, hE, hw, h1, ?_, by rw [hte, hcard, rep.num], by rw [hte]; exact hac, hc, ?_, by rw [hte]; exact rep.addsUp hs hwt, ?_⟩
  · intro e he; rw [hte] at he; exact mem_usable.1 (hsub he)
  · intro htrue
    rw [hte]
    refine ⟨hsub, hac.connected_of_card (hwi.subset hsub) ?_, hac⟩
    have := hv.1 htrue; omega
  · intro hM
    rw [hte]
    refine ⟨hcont hM, fun htrue T hT hMT => ?_⟩
    have := hv.1 htrue
    exact forced_minimum (hcont hM) hMT (hp.minimum (by omega) (hT.span hwi hne))

end Verif
