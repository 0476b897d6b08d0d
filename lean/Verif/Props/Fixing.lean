import Verif.Proofs.Fixing
import Verif.Spec.Instance

/-!
# Property C37: variable fixing
-/
namespace Verif
open Verif.Spec
set_option autoImplicit false

variable [Rounding] {c : Cfg} {p : Problem} {sp sp1 sp2 : SubProblem} {loc : PState}

omit [Rounding] in
theorem Spec.Instance.cready (h : Instance c p) (hb : Bookkeeping c.maxV sp) :
    CReady c p.graph sp p.cand (consSet c.maxV sp.cons .mandatory) (consSet c.maxV sp.cons .forbidden) :=
  cready_of_book h.stored h.positions h.nodes h.edges h.complete (by have := h.three; omega) h.cand hb

/-- a 1-tree computed on the original weights is what `variable_fixing` needs -/
theorem Spec.Instance.fixReady (h : Instance c p) (hb : Bookkeeping c.maxV sp)
    (e1 : constrainedPrim c p.graph.numNodes p.graph sp p.cand loc = .ok sp1) (hv : sp1.oneTree.isValid = true)
    (e2 : mstToOneTree c p.graph sp1 p.cand = .ok (.opened, sp2)) :
    ∃ t L, sp2 = { sp with oneTree := t } ∧ FixReady c p sp2 L ∧ FixMin c p sp2 L ∧ (spokes p.cand (pairs L)).card = 2 := by
  have hr := h.cready hb
  have hn3 : 3 ≤ p.graph.numNodes := by rw [h.nodes]; exact h.three
  have hpos := h.pos p.cand h.cand
  have hs : ∀ e ∈ edgeSet p.graph \ consSet c.maxV sp.cons .forbidden, weight p.graph e < FLT_MAX := fun e he => h.small e (Finset.mem_sdiff.1 he).1
  have hsU : ∀ e ∈ usable p.graph p.cand (consSet c.maxV sp.cons .forbidden), weight p.graph e < FLT_MAX := fun e he => h.small e (mem_usable.1 he).1
  rcases relaxation hr hpos hn3 e1 hv with (⟨-, h'⟩ | ⟨-, h'⟩) | ⟨h', -⟩ | ⟨t, L, et, rep, hsim, ⟨hlen, hoff, hsub1⟩, ho, hMs, hc, hp, hL, hsmin, hfmin, -⟩
  · rw [h'] at e2; cases e2
  · rw [h'] at e2; cases e2
  · rw [h'] at e2; cases e2
  rw [et] at e2; cases e2
  rw [h.nodes] at rep hsim hlen hoff ho hp
  refine ⟨t, L, rfl, ⟨h.stored, h.nodes, h.complete, h.nonneg, h.cand, h.three, ⟨hb.sym, hb.recorded, hb.entries, hb.counted, hb.room⟩, rep, hsim, hlen, ?_, hc, hoff, ho.tree.conn⟩, ?_, ho.two⟩
  · intro i hi; rw [hp i hi]; exact h.pos i hi
  · rintro ⟨t', ht'⟩
    have hall := (allowedBy_iff hb.sym h.complete h.three).1 ht'
    have hn0 : (0 : ℚ) < (p.graph.numNodes : ℚ) := by exact_mod_cast (by omega : 0 < p.graph.numNodes)
    have hlow : ∀ e ∈ away p.cand (consSet c.maxV sp.cons .mandatory), -(p.graph.numNodes : ℚ) ≤ weight p.graph e := by
      intro e he
      have := h.nonneg e (hr.mand_sub (mem_away.1 he).1)
      linarith
    have hparts := allowed_parts hr hn3 (by rw [h.nodes]; exact hall.1) hall.2
    have hwi := usable_within h.stored p.cand (consSet c.maxV sp.cons .forbidden)
    have hne : (others p.graph p.cand).Nonempty := by
      rw [← Finset.card_pos]; have := card_others hr.cand; omega
    have hac : Acyclic (away p.cand (consSet c.maxV sp.cons .mandatory)) := (hparts.1.tree hwi hne).acyclic.subset hparts.2.1
    have hMt := C24_mandatory_partial hr e1 hv hac (by
      intro e he _
      have := h.nonneg e (mem_usable.1 he).1
      linarith)
    have haw : away p.cand (consSet c.maxV sp.cons .mandatory) ⊆ pairs L := hMt.1.trans hsub1
    refine ⟨ho, ?_, ?_, ?_, ?_, hsmin, h.cand, h.three⟩
    · intro u v huv
      have := h.stored.within u v (Finset.mem_sdiff.1 huv).1
      rw [h.nodes] at this; exact this
    · intro u hu; exact h.stored.noloop u (Finset.mem_sdiff.1 hu).1
    · intro e he
      by_cases hce : p.cand ∈ e
      · exact hMs (mem_spokes.2 ⟨he, hce⟩)
      · exact haw (mem_away.2 ⟨he, hce⟩)
    · intro S hS hM
      have hS' : Span (others p.graph p.cand) (usable p.graph p.cand (consSet c.maxV sp.cons .forbidden)) S := by
        unfold others usable; rw [h.nodes]; exact hS
      exact forced_lower hM hlow (hfmin S hS')

/-- C37 on the machine: `variable_fixing` loses no tour that is shorter than the best value by more than the rounding errors can hide, `(5 n + 6) ε` if `ε` bounds the error of one operation. -/
theorem C37_rounding (h : Instance c p) (hb : Bookkeeping c.maxV sp)
    (e1 : constrainedPrim c p.graph.numNodes p.graph sp p.cand loc = .ok sp1) (hv : sp1.oneTree.isValid = true)
    (e2 : mstToOneTree c p.graph sp1 p.cand = .ok (.opened, sp2)) {sp3 : SubProblem} {k : Nat} (e3 : variableFixing c p sp2 = .ok (sp3, k))
    {z : Scale} (hz : Fine z c p) :
    ∀ t, AllowedBy c.maxV sp.cons t → tourCost (weight p.graph) t < p.bestValue - z.slack c.maxV → AllowedBy c.maxV sp3.cons t := by
  obtain ⟨t, L, rfl, hr, hf, h2⟩ := h.fixReady hb e1 hv e2
  exact (variableFixing_ok hr hf h2 e3).2.2.2 z hz

/-- C37. (Whatever the rounding, except where exact arithmetic is named.) After the relaxation on the original weights (`constrained_prim`, then `mst_to_one_tree`), `variable_fixing` loses no tour that improves on
the best value: every tour that the subproblem allows and that is shorter than `problem->bestValue` is still allowed afterwards. It only constrains pairs that were
undecided, it changes nothing but the constraints, and it keeps the bookkeeping consistent. -/
theorem C37_variable_fixing (h : Instance c p) (hb : Bookkeeping c.maxV sp)
    (e1 : constrainedPrim c p.graph.numNodes p.graph sp p.cand loc = .ok sp1) (hv : sp1.oneTree.isValid = true)
    (e2 : mstToOneTree c p.graph sp1 p.cand = .ok (.opened, sp2)) {sp3 : SubProblem} {k : Nat} (e3 : variableFixing c p sp2 = .ok (sp3, k)) :
    (Exact → ∀ t, AllowedBy c.maxV sp.cons t → tourCost (weight p.graph) t < p.bestValue → AllowedBy c.maxV sp3.cons t) ∧
    (∀ t, AllowedBy c.maxV sp3.cons t → AllowedBy c.maxV sp.cons t) ∧
    (∀ u v, sp.cons u v ≠ .nothing → sp3.cons u v = sp.cons u v) ∧
    Bookkeeping c.maxV sp3 ∧
    sp3 = { sp2 with cons := sp3.cons, numMandatory := sp3.numMandatory, numForbidden := sp3.numForbidden, mandatory := sp3.mandatory } := by
  obtain ⟨t, L, rfl, hr, hf, h2⟩ := h.fixReady hb e1 hv e2
  obtain ⟨k1, k2, k3, k4⟩ := variableFixing_ok hr hf h2 e3
  exact ⟨fun hx t ht hlt => k4 _ (Fine.of_exact hx h.nonneg) t ht (by simpa [Scale.slack] using hlt), fun t ht => Refines.allowed k3 ht, k3, k1, k2⟩

end Verif
