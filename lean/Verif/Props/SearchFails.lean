import Verif.Props.Search
import Verif.Props.SearchExamples

/-!
# C43: large weights break it; examples for C41 – C45
-/
namespace Verif
open Verif.Spec
set_option autoImplicit false

namespace Ex

/-- five nodes with a far-away node 2 -/
def wF (u v : Nat) : ℚ := match u, v with
  | 0, 1 => 22 | 0, 2 => 4409 | 0, 3 => 27 | 0, 4 => 4681 | 1, 2 => 5304 | 1, 3 => 74 | 1, 4 => 24 | 2, 3 => 5297 | 2, 4 => 4411 | _, _ => 22

def cF : Cfg := ⟨5, false, 3 / 1000, 0, 0, 0⟩

theorem classic {c : Cfg} {p : Problem} (h : c.hybrid = false) : ProbsAbove c p := by
  intro h'; rw [h] at h'; cases h'

end Ex

/-- C43 fails for large weights: on five nodes (`EPSILON` 0.003) a run without a time limit ends with an empty open list and best value 8945, although the tour
`0, 1, 3, 4, 2` has length 8938. -/
theorem C43_fails : ∃ (c : Cfg) (env : Env) (fuel : Nat) (p p' : Problem) (t : List Nat), Instance c p ∧ ProbsAbove c p ∧ 0 < c.eps ∧ (∀ k, env.clk k = false) ∧
    branchAndBound c env fuel p = .ok (p', []) ∧ p'.interrupted = false ∧ IsTour c.maxV t ∧ tourCost (weight p.graph) t + 6 < p'.bestValue - c.eps := by
  have h : Ex.okAnd (createEuclideanGraph Ex.cF (fun a b => Ex.wF a.pos b.pos) Ex.mem (Ex.nodes 5)) (fun g =>
      Ex.okAnd (branchAndBound Ex.cF Ex.env 10 (Ex.probN g)) (fun r => decide (r.1.bestValue = 8945) && (r.2.isEmpty && !r.1.interrupted))) = true := by
    decide +kernel
  obtain ⟨g, e, h⟩ := Ex.okAnd_elim h
  obtain ⟨⟨p', o'⟩, e1, h⟩ := Ex.okAnd_elim h
  simp only [Bool.and_eq_true, decide_eq_true_eq, List.isEmpty_iff, Bool.not_eq_true'] at h
  obtain ⟨hb, rfl, hi⟩ := h
  have hI : Instance Ex.cF (Ex.probN g) := by
    refine Ex.prob_instance (g := g) (d := Ex.wF) rfl (by decide) (show (0 : Nat) < 5 by decide) ?_ e
    intro u v huv hv
    have : v < 5 := hv
    interval_cases v <;> interval_cases u <;> decide +kernel
  obtain ⟨g', e', -, -, -, -, -, -, hw⟩ := Ex.complete Ex.cF Ex.mem 5 (by decide) Ex.wF
  rw [e] at e'; cases e'
  have hc : tourCost (weight g) [0, 1, 3, 4, 2] = 8938 := by
    have hs : steps [0, 1, 3, 4, 2] = [s(0, 1), s(1, 3), s(3, 4), s(2, 4), s(0, 2)] := by decide +kernel
    rw [tourCost, hs]
    simp only [List.map_cons, List.map_nil, List.sum_cons, List.sum_nil]
    rw [hw 0 1 (by decide) (by decide), hw 1 3 (by decide) (by decide), hw 3 4 (by decide) (by decide), hw 2 4 (by decide) (by decide), hw 0 2 (by decide) (by decide)]
    decide +kernel
  refine ⟨Ex.cF, Ex.env, 10, Ex.probN g, p', [0, 1, 3, 4, 2], hI, Ex.classic rfl, by norm_num [Ex.cF], fun _ => rfl, e1, hi,
    show [0, 1, 3, 4, 2].Perm (List.range 5) by decide, ?_⟩
  rw [show (Ex.probN g).graph = g from rfl, hc, hb]
  norm_num [Ex.cF]

/-- C43: on the ring of five nodes, with weights between 1/10 and 1/2, the hypotheses hold and the run ends with best value 1. -/
example : ∃ (p p' : Problem), Instance Ex.cT p ∧ ProbsAbove Ex.cT p ∧ 0 ≤ Ex.cT.eps ∧ Ex.cT.maxV ≤ 65535 ∧ (∀ e ∈ edgeSet p.graph, weight p.graph e ≤ 1 / 2) ∧
    (1 / 2 : ℚ) * ((Ex.cT.maxV / 4 + 15 : Nat) : ℚ) ≤ 2 * Ex.cT.maxV ∧
    (1 / 2 : ℚ) + Ex.cT.maxV * (1 / 2) * (((Ex.cT.maxV * Ex.cT.maxV + 25) / 50 + Ex.cT.maxV + 25 : Nat) : ℚ) / 2 < FLT_MAX ∧
    branchAndBound Ex.cT Ex.env 10 p = .ok (p', []) ∧ p'.bestValue = 1 := by
  have h : Ex.okAnd (createEuclideanGraph Ex.cT (fun a b => Ex.wT a.pos b.pos) Ex.mem (Ex.nodes 5)) (fun g =>
      Ex.okAnd (branchAndBound Ex.cT Ex.env 10 (Ex.probN g)) (fun r => decide (r.1.bestValue = 1) && r.2.isEmpty)) = true := by
    decide +kernel
  obtain ⟨g, e, h⟩ := Ex.okAnd_elim h
  obtain ⟨⟨p', o'⟩, e1, h⟩ := Ex.okAnd_elim h
  simp only [Bool.and_eq_true, decide_eq_true_eq, List.isEmpty_iff] at h
  obtain ⟨hb, rfl⟩ := h
  have hd : ∀ u v, u < v → v < 5 → 0 ≤ Ex.wT u v ∧ Ex.wT u v ≤ 1 / 2 := by
    intro u v huv hv
    interval_cases v <;> interval_cases u <;> decide +kernel
  have hI : Instance Ex.cT (Ex.probN g) := by
    refine Ex.prob_instance (g := g) (d := Ex.wT) rfl (by decide) (show (0 : Nat) < 5 by decide) ?_ e
    intro u v huv hv
    have := hd u v huv hv
    refine ⟨this.1, lt_of_le_of_lt this.2 ?_⟩
    unfold FLT_MAX; norm_num
  obtain ⟨g', e', st, -, -, hn, -, -, hw⟩ := Ex.complete Ex.cT Ex.mem 5 (by decide) Ex.wT
  rw [e] at e'; cases e'
  refine ⟨Ex.probN g, p', hI, Ex.classic rfl, by norm_num [Ex.cT], by decide, ?_, by norm_num [Ex.cT], by norm_num [Ex.cT, FLT_MAX], e1, hb⟩
  intro e he
  induction e using Sym2.ind with
  | _ u v =>
    have h1 := st.within u v he
    rw [hn, Finset.mem_range, Finset.mem_range] at h1
    have h2 : u ≠ v := by rintro rfl; exact st.noloop _ he
    show weight g _ ≤ _
    rcases Nat.lt_or_gt_of_ne h2 with h | h
    · rw [hw u v h h1.2]; exact (hd u v h h1.2).2
    · rw [Sym2.eq_swap, hw v u h h1.1]; exact (hd v u h h1.1).2

/-- C41, C42, C45: a run that the clock stops after two rounds, with three subproblems made on two levels and some left open. -/
example : ∃ (env : Env) (p p' : Problem) (o' : List SubProblem), Instance Ex.cF p ∧ ProbsAbove Ex.cF p ∧ branchAndBound Ex.cF env 10 p = .ok (p', o') ∧
    o' ≠ [] ∧ p'.interrupted = true ∧ p'.generated = 3 ∧ p'.totLevels = 2 := by
  let env : Env := { Ex.env with clk := fun k => decide (2 ≤ k) }
  have h : Ex.okAnd (createEuclideanGraph Ex.cF (fun a b => Ex.wF a.pos b.pos) Ex.mem (Ex.nodes 5)) (fun g =>
      Ex.okAnd (branchAndBound Ex.cF { Ex.env with clk := fun k => decide (2 ≤ k) } 10 (Ex.probN g)) (fun r => (!r.2.isEmpty && r.1.interrupted) &&
        (decide (r.1.generated = 3) && decide (r.1.totLevels = 2)))) = true := by
    decide +kernel
  obtain ⟨g, e, h⟩ := Ex.okAnd_elim h
  obtain ⟨⟨p', o'⟩, e1, h⟩ := Ex.okAnd_elim h
  simp only [Bool.and_eq_true, decide_eq_true_eq, Bool.not_eq_true'] at h
  obtain ⟨⟨ho, hi⟩, hb, hc⟩ := h
  have hI : Instance Ex.cF (Ex.probN g) := by
    refine Ex.prob_instance (g := g) (d := Ex.wF) rfl (by decide) (show (0 : Nat) < 5 by decide) ?_ e
    intro u v huv hv
    have : v < 5 := hv
    interval_cases v <;> interval_cases u <;> decide +kernel
  exact ⟨env, Ex.probN g, p', o', hI, Ex.classic rfl, e1, by rintro rfl; simp at ho, hi, hb, hc⟩

end Verif
