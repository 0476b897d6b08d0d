import Verif.Proofs.Bound1
import Verif.Proofs.Example
import Mathlib.Tactic.NormNum

/-!
# Properties C26, C28, C29: 1-trees and the bounds they give
-/
namespace Verif
open Verif.Spec
set_option autoImplicit false

section Arith
variable [Rounding]

variable {c : Cfg} {pn : Nat} {g : Graph} {sp sp1 sp2 : SubProblem} {cand : Nat} {M F : EdgeSet} {loc : PState}

/-- C26. If the candidate has at most two mandatory edges, `mst_to_one_tree` returns `OPEN` iff at least two edges at the
candidate are not forbidden; otherwise it returns `CLOSED_UNFEASIBLE` and changes nothing. When it returns `OPEN` it has added two edges
`P` of the candidate: none forbidden, all mandatory ones among them, and no heavier than any other such choice. With three
mandatory edges or more, it writes outside its arrays (see C27). -/
theorem C26_candidate_edges {L : List Edge} (h : OReady c g sp cand M F L) (hfin : ∀ e ∈ spokes cand (edgeSet g \ F), weight g e < INFINITE) :
    (2 < (spokes cand M).card → mstToOneTree c g sp cand = .error (.oobAt .bestEdges)) ∧
    ((spokes cand M).card ≤ 2 → (spokes cand (edgeSet g \ F)).card < 2 → mstToOneTree c g sp cand = .ok (.closedUnfeasible, sp)) ∧
    ((spokes cand M).card ≤ 2 → 2 ≤ (spokes cand (edgeSet g \ F)).card → ∃ (t : MST) (P : EdgeSet),
      mstToOneTree c g sp cand = .ok (.opened, { sp with oneTree := t }) ∧
      treeEdges t = treeEdges sp.oneTree ∪ P ∧ t.numEdges = sp.oneTree.numEdges + 2 ∧ (Exact → t.cost = sp.oneTree.cost + total (weight g) P) ∧
      P ⊆ spokes cand (edgeSet g \ F) ∧ P.card = 2 ∧ spokes cand M ⊆ P ∧
      ∀ Q ⊆ spokes cand (edgeSet g \ F), Q.card = 2 → spokes cand M ⊆ Q → total (weight g) P ≤ total (weight g) Q) := by
  rcases mstToOneTree_main h with (⟨h1, h2⟩ | ⟨⟨e, he, hbig⟩, -⟩) | ⟨h1, h2, h3⟩ | ⟨h1, h2, t, ea, eb, et, rep, hsim, -, -, hia, hib, hPsub, hPcard, hMP, hPmin⟩
  · exact ⟨fun _ => h2, by omega, by omega⟩
  · exact absurd (hfin e he) (not_lt.2 hbig)
  · exact ⟨by omega, fun _ _ => h3, by omega⟩
  · refine ⟨by omega, by omega, fun _ _ => ⟨t, {epair ea, epair eb}, et, ?_, ?_, ?_, hPsub, hPcard, hMP, hPmin⟩⟩
    · rw [rep.treeEdges, h.rep.treeEdges]
      rw [show L ++ [ea, eb] = L ++ [ea] ++ [eb] by simp, pairs_append, pairs_append]
      ext p; simp only [Finset.mem_insert, Finset.mem_union, Finset.mem_singleton]; tauto
    · rw [rep.num, h.rep.num]; simp
    · intro hx
      rw [rep.cost hx, h.rep.cost hx]
      obtain ⟨i, hi, rfl⟩ := hia
      obtain ⟨j, hj, rfl⟩ := hib
      have hne : epair (g.edges i) ≠ epair (g.edges j) := by
        intro h'; rw [h', Finset.pair_eq_singleton, Finset.card_singleton] at hPcard; omega
      rw [total_pair _ hne, h.ready.stored.weight_eq hi, h.ready.stored.weight_eq hj]
      simp [totalWeight, add_assoc]

/-- C28. The result of `constrained_prim` followed by `mst_to_one_tree` is a 1-tree without forbidden edges whose cost is the weight of its edges as the machine adds them up
(without rounding, their total weight), and whose total weight is no more than that of any tour that contains all mandatory edges and no forbidden one, provided mandatory edges weigh at
least `-pn` (`pn` is `problem->graph.num_nodes`), in particular when no weight is negative. -/
theorem C28_lower_bound (h : CReady c g sp cand M F) (hpos : (g.nodes cand).pos = cand) (hn : 3 ≤ g.numNodes)
    (hlow : ∀ e ∈ M, -(pn : ℚ) ≤ weight g e)
    (e1 : constrainedPrim c pn g sp cand loc = .ok sp1) (hv : sp1.oneTree.isValid = true)
    (e2 : mstToOneTree c g sp1 cand = .ok (.opened, sp2)) :
    OneTree g.numNodes cand (edgeSet g \ F) (treeEdges sp2.oneTree) ∧ AddsUp (weight g) (treeEdges sp2.oneTree) sp2.oneTree.cost ∧
    ∀ t, IsTour g.numNodes t → Allowed (edgeSet g) M F t → total (weight g) (treeEdges sp2.oneTree) ≤ tourCost (weight g) t := by
  rcases relaxation h hpos hn e1 hv with (⟨-, h2⟩ | ⟨-, h2⟩) | ⟨h1, -⟩ | ⟨t, L, et, rep, -, -, ho, -, hc, -, -, -, -, hlb⟩
  · rw [h2] at e2; cases e2
  · rw [h2] at e2; cases e2
  · rw [h1] at e2; cases e2
  · rw [et] at e2; cases e2
    rw [show treeEdges t = pairs L from rep.treeEdges]
    exact ⟨ho, hc, hlb (fun e he => hlow e (mem_away.1 he).1)⟩

/-- C28, the infeasible outcomes: if `constrained_prim` finds no valid tree, or `mst_to_one_tree` answers `CLOSED_UNFEASIBLE`, there is no
tour with all mandatory edges and no forbidden one. -/
theorem C28_infeasible (h : CReady c g sp cand M F) (hpos : (g.nodes cand).pos = cand) (hn : 3 ≤ g.numNodes)
    (hsmall : ∀ e ∈ edgeSet g, weight g e < FLT_MAX) (e1 : constrainedPrim c pn g sp cand loc = .ok sp1)
    (hno : sp1.oneTree.isValid = false ∨ ∃ sp2, mstToOneTree c g sp1 cand = .ok (.closedUnfeasible, sp2)) :
    ∀ t, IsTour g.numNodes t → ¬ Allowed (edgeSet g) M F t := by
  have hs : ∀ e ∈ edgeSet g \ F, weight g e < FLT_MAX := fun e he => hsmall e (Finset.mem_sdiff.1 he).1
  cases hv : sp1.oneTree.isValid with
  | false => exact invalid_no_tour h hn hs e1 hv
  | true =>
    rcases hno with h' | ⟨sp2, e2⟩
    · rw [hv] at h'; cases h'
    · rcases relaxation h hpos hn e1 hv with (⟨-, h2⟩ | ⟨-, h2⟩) | ⟨-, h1⟩ | ⟨t, L, et, -⟩
      · rw [h2] at e2; cases e2
      · rw [h2] at e2; cases e2
      · exact h1
      · rw [et] at e2; cases e2

end Arith

variable {c : Cfg} {pn : Nat} {g : Graph} {sp sp1 sp2 : SubProblem} {cand : Nat} {M F : EdgeSet} {loc : PState}

/-- C29. For the weights `w(i,j) + π_i + π_j` set up by `bound` (`applyPi`), the cost of the 1-tree minus `2 Σ π` is at most the original
length of every tour that contains all mandatory edges and no forbidden one; and if the 1-tree is itself a tour, no such
tour is shorter. Provided the reweighted mandatory edges weigh at least `-pn` (see `C29_fails_below_minus_n` in
Props/OneTreeFails.lean for the need of that). -/
theorem C29_dual_bound (h : CReady c g sp cand M F) (hpos : (g.nodes cand).pos = cand) (hn : 3 ≤ g.numNodes) (pi : Nat → ℚ)
    (hlow : ∀ u v, s(u, v) ∈ M → -(pn : ℚ) ≤ weight g s(u, v) + (pi u + pi v))
    (e1 : constrainedPrim c pn (applyPi pi g.numEdges g) sp cand loc = .ok sp1) (hv : sp1.oneTree.isValid = true)
    (e2 : mstToOneTree c (applyPi pi g.numEdges g) sp1 cand = .ok (.opened, sp2)) :
    OneTree g.numNodes cand (edgeSet g \ F) (treeEdges sp2.oneTree) ∧
    (∀ t, IsTour g.numNodes t → Allowed (edgeSet g) M F t →
      sp2.oneTree.cost - 2 * ∑ i ∈ Finset.range g.numNodes, pi i ≤ tourCost (weight g) t) ∧
    (∀ t', IsTour g.numNodes t' → treeEdges sp2.oneTree = tourEdges t' →
      ∀ t, IsTour g.numNodes t → Allowed (edgeSet g) M F t → tourCost (weight g) t' ≤ tourCost (weight g) t) := by
  obtain ⟨h1, h2, h3, h4, h5, h6, h7, -⟩ := applyPi_ok h.stored h.positions pi
  have hr := h.applyPi pi
  have hl : ∀ e ∈ M, -(pn : ℚ) ≤ weight (applyPi pi g.numEdges g) e := by
    intro e he
    rw [h4 e (h.mand_sub he)]
    induction e using Sym2.ind with
    | _ u v => rw [piWeight_mk, reweigh_exact exact_arith]; exact hlow u v he
  obtain ⟨ho, hc, hlb⟩ := C28_lower_bound hr (by rw [h7]; exact hpos) (by rw [h5]; exact hn) hl e1 hv e2
  rw [h5, h3] at ho hlb
  have hT : ∀ t, IsTour g.numNodes t → tourEdges t ⊆ edgeSet g → tourCost (weight (applyPi pi g.numEdges g)) t =
      tourCost (weight g) t + 2 * ∑ i ∈ Finset.range g.numNodes, pi i := by
    intro t ht hE
    rw [ht.cost hn, ht.cost hn, ← total_piWeight exact_arith (ht.set hn)]
    exact total_congr (fun e he => h4 e (hE he))
  refine ⟨ho, ?_, ?_⟩
  · intro t ht ha
    have := hlb t ht ha
    rw [hT t ht ha.1, ← hc.exact exact_arith] at this
    linarith
  · intro t' ht' heq t ht ha
    have := hlb t ht ha
    have hE' : tourEdges t' ⊆ edgeSet g := by rw [← heq]; exact ho.sub.trans Finset.sdiff_subset
    rw [hT t ht ha.1, heq, ← ht'.cost hn, hT t' ht' hE'] at this
    linarith

end Verif
