import Verif.Proofs.BranchEdge
import Verif.Props.BoundExamples

/-!
# Property C65: the branching edge
-/
namespace Verif
open Verif.Spec
set_option autoImplicit false

section Arith
variable [Rounding] {c : Cfg} {p : Problem} {cur : SubProblem}

/-- C65. When `bound` leaves the subproblem open, its loop has run all its `N` iterations and built `N` 1-trees. The retained one, `best`, is the first, or the first among those of the largest value up to
the best lower bound (`s.bestLB`); the subproblem takes its value. The edge to branch on is an undecided edge of the retained 1-tree that is preferred to every other one: its frequency in the last ten 1-trees is
closest to one half; in hybrid mode the larger probability decides between equally close ones; then the earlier place in the edge array. There is no edge to branch on only if the retained 1-tree has no undecided edge. -/
theorem C65_branching_edge (h : Instance c p) (hb : Bookkeeping c.maxV cur) (heps : 0 ≤ c.eps) (hed : cur.edgeToBranch = -1) {loc : Nat → PState} {p' : Problem} {cur' : SubProblem}
    (e : bound c loc p cur = .ok (p', cur')) (ho : cur'.type = .opened) :
    ∃ (s : BState) (A B : List SubProblem) (best : SubProblem), boundLoop c cur loc (maxIter c cur.treeLevel) (maxIter c cur.treeLevel) 1 (boundStart p) = .ok (.inl s) ∧
      s.gen.length = maxIter c cur.treeLevel ∧
      (∀ a ∈ s.gen, OneTree c.maxV p.cand (edgeSet p.graph \ consSet c.maxV cur.cons .forbidden) (treeEdges a.oneTree) ∧ AddsUp (weight p.graph) (treeEdges a.oneTree) a.value) ∧
      s.gen = A ++ best :: B ∧ cur'.value = best.value ∧ (A ≠ [] → best.value ≤ s.bestLB) ∧
      (∀ x ∈ A, x.value ≤ s.bestLB → x.value < best.value) ∧ (∀ x ∈ B, x.value ≤ s.bestLB → x.value ≤ best.value) ∧
      (let free : Nat → Prop := fun i => i < p.graph.numEdges ∧ cur.cons (p.graph.edges i).src (p.graph.edges i).dest = .nothing ∧
          s((p.graph.edges i).src, (p.graph.edges i).dest) ∈ treeEdges best.oneTree
       let freq : Nat → ℚ := fun i => frequency (s.gen.drop (maxIter c cur.treeLevel - 10)) s((p.graph.edges i).src, (p.graph.edges i).dest)
       (cur'.edgeToBranch = -1 ∧ ∀ i, ¬ free i) ∨
        ∃ i : Nat, cur'.edgeToBranch = (i : Int) ∧ free i ∧ (Exact → ∀ j, free j → Preferred c.hybrid freq (fun i => (p.graph.edges i).prob) i j)) := by
  unfold bound at e
  split at e
  · obtain ⟨r, e1, e2⟩ := bind_eq_ok.1 e
    have h15 := maxIter_three c cur.treeLevel
    have hinit : BInv c p cur (maxIter c cur.treeLevel) 1 (boundStart p) := BInv.init h heps
    have htr : Trace c p (maxIter c cur.treeLevel) 1 (boundStart p) := ⟨rfl, fun _ j _ => by simp [boundStart, frequency]⟩
    rcases boundLoop_inv h hb heps (by omega) loc _ _ _ _ (le_refl _) (by omega) hinit e1 with ⟨s, rfl, hs⟩ | ⟨p1, ty, rfl, hty, -⟩
    · have hT := boundLoop_trace h hb heps (by omega) loc _ _ _ _ (le_refl _) (by omega) hinit htr e1
      obtain ⟨-, -, -, a, rest, L, loc', sp1, sp2, hgen, hk, -⟩ := hs.later (by omega)
      obtain ⟨z1, -, -⟩ := hk.zero h hb (fun _ => rfl)
      have hz : ({ a.oneTree with cost := a.value } : MST) = a.oneTree := by rw [← z1]
      simp only [hgen, hz] at e2
      obtain ⟨A, best, B, hsplit, hbest, hA, hAl, hBl⟩ := pickBest_rule s.bestLB a rest
      rw [hbest] at e2
      have hsg : s.prob.graph = p.graph := by rw [hs.prob]
      have hcons : a.cons = cur.cons := by rw [hk.frame]
      have hae : a.edgeToBranch = cur.edgeToBranch := by rw [hk.frame]
      obtain ⟨L', hk'⟩ := hs.gens best (by rw [hgen, hsplit]; simp)
      split at e2
      · cases e2
        refine ⟨s, A, B, best, e1, by rw [hT.len]; rfl, ?_, by rw [hgen, hsplit], rfl, fun h' => (hA h').1, hAl, hBl, ?_⟩
        · intro x hx
          obtain ⟨Lx, hx'⟩ := hs.gens x hx
          rw [show treeEdges x.oneTree = pairs Lx from hx'.rep.treeEdges]
          refine ⟨hx'.one, ?_⟩
          exact ⟨Lx.map epair, SimpleList.nodup hx'.simple, rfl, by rw [hx'.value, List.map_map]; rfl⟩
        have hmat : ∀ i < p.graph.numEdges, best.oneTree.mat (p.graph.edges i).src (p.graph.edges i).dest ≠ -1 ↔
            s((p.graph.edges i).src, (p.graph.edges i).dest) ∈ treeEdges best.oneTree := by
          intro i hi
          have hends := h.stored.ends i hi
          rw [h.nodes] at hends
          have := (hk'.rep.mat_mem hk'.simple hends.1 hends.2.1).1
          rw [show treeEdges best.oneTree = pairs L' from hk'.rep.treeEdges]
          tauto
        have hpe := pickEdge_rule c s.prob.graph { a with type := best.type, value := best.value } best s.score (by
          intro j
          obtain ⟨k1, k2⟩ := hs.score j
          refine ⟨k1, k2.trans ?_⟩
          rw [show maxIter c cur.treeLevel + 1 - 1 - (maxIter c cur.treeLevel - 10) = 10 by omega]
          exact le_refl _) a.edgeToBranch s.prob.graph.numEdges
        generalize (List.range s.prob.graph.numEdges).foldl (pickEdge c s.prob.graph { a with type := best.type, value := best.value } best s.score)
          (-1, -1, a.edgeToBranch) = rr at hpe ⊢
        simp only [hcons, hsg] at hpe ⊢
        rcases hpe with ⟨q1, -, q3⟩ | ⟨i, hi, rfl, ⟨q1, q2⟩, q3⟩
        · refine Or.inl ⟨by rw [q1, hae, hed], ?_⟩
          rintro i ⟨k1, k2, k3⟩
          exact q3 i k1 ⟨k2, (hmat i k1).2 k3⟩
        · refine Or.inr ⟨i, rfl, ⟨hi, q1, (hmat i hi).1 q2⟩, ?_⟩
          rintro hx j ⟨k1, k2, k3⟩
          have := q3 j k1 ⟨k2, (hmat j k1).2 k3⟩
          unfold Preferred at this ⊢
          simp only [hx _, add_sub_cancel_left, abs_abs] at this
          rw [hT.score hx i hi, hT.score hx j k1] at this
          exact this
      · next hop => cases e2; exact absurd ho hop
    · cases e2; exact absurd ho hty
  · cases e; cases ho

end Arith

/-- C65: after requiring `1 – 4`, `bound` leaves the subproblem open and finds an edge to branch on. -/
example : ∃ (p p' : Problem) (cur cur' : SubProblem), Instance Ex.cT p ∧ Bookkeeping Ex.cT.maxV cur ∧ 0 ≤ Ex.cT.eps ∧ cur.edgeToBranch = -1 ∧
    bound Ex.cT (fun _ => Ex.loc) p cur = .ok (p', cur') ∧ cur'.type = .opened ∧ cur'.edgeToBranch ≠ -1 := by
  have h : Ex.okAnd (createEuclideanGraph Ex.cT (fun a b => Ex.wU a.pos b.pos) Ex.mem (Ex.nodes 5)) (fun g =>
      Ex.okAnd (Ex.child Ex.cT (initializeMatrix Ex.cT Ex.sub) 1 4 0) (fun r1 => (r1.2 && (decide (r1.1.1.treeLevel = 2) && decide (r1.1.1.value = 0))) &&
        (decide (r1.1.1.edgeToBranch = -1) &&
        Ex.okAnd (bound Ex.cT (fun _ => Ex.loc) (Ex.probT g) r1.1.1) (fun q => decide (q.2.type = .opened) && decide (q.2.edgeToBranch ≠ -1))))) = true := by
    decide +kernel
  obtain ⟨g, e, h⟩ := Ex.okAnd_elim h
  obtain ⟨r, e1, h⟩ := Ex.okAnd_elim h
  simp only [Bool.and_eq_true, decide_eq_true_eq] at h
  obtain ⟨⟨h1, hl, hv⟩, hm, h⟩ := h
  obtain ⟨⟨p', cur'⟩, e2, h⟩ := Ex.okAnd_elim h
  simp only [Bool.and_eq_true, decide_eq_true_eq] at h
  obtain ⟨k1, k2, k3, -⟩ := Ex.meets (d := Ex.wU) (by
    intro u v huv hv
    interval_cases v <;> interval_cases u <;> decide +kernel) (by decide) (by decide) (by decide) hl hv e e1 h1
  exact ⟨Ex.probT g, p', r.1.1, cur', k1, k2, k3, hm, e2, h.1, h.2⟩

end Verif
