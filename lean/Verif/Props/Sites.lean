import Verif.Props.SearchFails
import Verif.Props.BranchExamples
import Verif.Props.Termination

/-!
# Property C64: where the search can leave its arrays
-/
namespace Verif
open Verif.Spec
set_option autoImplicit false

section Arith
variable [Rounding] {c : Cfg} {env : Env} {p : Problem}

/-- C64. On a complete graph, a run of `branch_and_bound` (with enough fuel for the main loop, see C44) that does not return stops at an access outside an array at one of four places: the list of
mandatory edges of a subproblem (`mandatoryEdges[MAX_VERTEX_NUM]`), the two-element arrays of `mst_to_one_tree` (a third mandatory edge at the candidate), the edge array at the index `-1` in
`mst_to_one_tree` (every free edge at the candidate weighs `DBL_MAX` or more), the table of `consolidate` (57 nodes or more). In particular there is no NULL or freed pointer, no variable that was never set,
no call of `exit`, no endless loop, and no other access leaves its array: of the graph, of the 1-trees, of the stacks and marks of the depth-first searches, of the cycle, of the replacement costs. -/
theorem C64_sites_partial (h : Instance c p) (hp : ProbsAbove c p) (heps : 0 ≤ c.eps) (hn : c.maxV ≤ 65535) (fuel : Nat) (hfuel : 3 ^ (c.maxV * c.maxV) < fuel) :
    (∃ p' o', branchAndBound c env fuel p = .ok (p', o')) ∨ branchAndBound c env fuel p = .error (.oobAt .mandatoryEdges) ∨
    branchAndBound c env fuel p = .error (.oobAt .bestEdges) ∨ branchAndBound c env fuel p = .error (.oobAt .minusOne) ∨
    (57 ≤ c.maxV ∧ branchAndBound c env fuel p = .error (.oobAt .degreeList)) := by
  obtain ⟨r, hr, hf⟩ := C44_terminates (env := env) h hp heps hn
  rw [hf fuel hfuel]
  rcases hr with ⟨site, rfl, h57⟩ | ⟨p', o', rfl⟩
  · right
    cases site with
    | mandatoryEdges => exact Or.inl rfl
    | bestEdges => exact Or.inr (Or.inl rfl)
    | minusOne => exact Or.inr (Or.inr (Or.inl rfl))
    | degreeList => exact Or.inr (Or.inr (Or.inr ⟨h57 rfl, rfl⟩))
  · exact Or.inl ⟨p', o', rfl⟩

namespace Ex

def tab (l : List (List Nat)) (d : Nat) (u v : Nat) : ℚ := (((l.getD u []).getD v 0 : Nat) : ℚ) / d

def cO (n : Nat) (e : ℚ) : Cfg := ⟨n, false, e, 0, 0, 0⟩

/-- four cities in the unit square, distances rounded to two decimals -/
def wM : Nat → Nat → ℚ := tab [[0, 3, 30, 61], [3, 0, 28, 62], [30, 28, 0, 89], [61, 62, 89, 0]] 100

/-- five cities with distances 1, 2 and 3 -/
def wS : Nat → Nat → ℚ := tab [[0, 2, 3, 3, 3], [2, 0, 3, 1, 1], [3, 3, 0, 3, 2], [3, 1, 3, 0, 2], [3, 1, 2, 2, 0]] 1

end Ex

end Arith

/-- C64 fails: on four cities in the unit square (a metric, distances at most 0.89, `EPSILON` 0.0025) the search writes a fifth mandatory edge into the list of length four. -/
theorem C64_fails_mandatory : ∃ (c : Cfg) (env : Env) (p : Problem), c.maxV = 4 ∧ Instance c p ∧ ProbsAbove c p ∧ c.eps = 25 / 10000 ∧ (∀ k, env.clk k = false) ∧
    (∀ u < 4, ∀ v < 4, u ≠ v → 0 < weight p.graph s(u, v) ∧ weight p.graph s(u, v) ≤ 89 / 100) ∧
    (∀ x < 4, ∀ y < 4, ∀ z < 4, x ≠ y → y ≠ z → x ≠ z → weight p.graph s(x, z) ≤ weight p.graph s(x, y) + weight p.graph s(y, z)) ∧
    branchAndBound c env 10 p = .error (.oobAt .mandatoryEdges) := by
  have h : Ex.okAnd (createEuclideanGraph (Ex.cO 4 (25 / 10000)) (fun a b => Ex.wM a.pos b.pos) Ex.mem (Ex.nodes 4)) (fun g =>
      Ex.isOob (.oobAt .mandatoryEdges) (branchAndBound (Ex.cO 4 (25 / 10000)) Ex.env 10 (Ex.probN g))) = true := by decide +kernel
  obtain ⟨g, e, h⟩ := Ex.okAnd_elim h
  have hI : Instance (Ex.cO 4 (25 / 10000)) (Ex.probN g) := by
    refine Ex.prob_instance (g := g) (d := Ex.wM) rfl (by decide) (show (0 : Nat) < 4 by decide) ?_ e
    intro u v huv hv
    have : v < 4 := hv
    interval_cases v <;> interval_cases u <;> decide +kernel
  obtain ⟨g', e', -, -, -, -, -, -, hw⟩ := Ex.complete (Ex.cO 4 (25 / 10000)) Ex.mem 4 (by decide) Ex.wM
  rw [e] at e'; cases e'
  have hw' : ∀ u < 4, ∀ v < 4, u ≠ v → weight g s(u, v) = Ex.wM u v := by
    intro u hu v hv huv
    rcases Nat.lt_or_ge u v with h1 | h1
    · exact hw u v h1 hv
    · rw [Sym2.eq_swap, hw v u (by omega) hu]
      interval_cases u <;> interval_cases v <;> decide +kernel
  refine ⟨_, Ex.env, Ex.probN g, rfl, hI, Ex.classic rfl, rfl, fun _ => rfl, ?_, ?_, Ex.isOob_elim h⟩
  · intro u hu v hv huv
    rw [show (Ex.probN g).graph = g from rfl, hw' u hu v hv huv]
    interval_cases u <;> interval_cases v <;> first | exact absurd rfl huv | decide +kernel
  · intro x hx y hy z hz h1 h2 h3
    rw [show (Ex.probN g).graph = g from rfl, hw' x hx z hz h3, hw' x hx y hy h1, hw' y hy z hz h2]
    interval_cases x <;> interval_cases y <;> interval_cases z <;> first | exact absurd rfl h1 | exact absurd rfl h2 | exact absurd rfl h3 | decide +kernel

/-- C64 fails: on five cities with distances 1, 2 and 3 a third mandatory edge at the candidate reaches `mst_to_one_tree`. -/
theorem C64_fails_spokes : ∃ (c : Cfg) (env : Env) (p : Problem), c.maxV = 5 ∧ Instance c p ∧ ProbsAbove c p ∧ c.eps = 28 / 10000 ∧ (∀ k, env.clk k = false) ∧
    branchAndBound c env 10 p = .error (.oobAt .bestEdges) := by
  have h : Ex.okAnd (createEuclideanGraph (Ex.cO 5 (28 / 10000)) (fun a b => Ex.wS a.pos b.pos) Ex.mem (Ex.nodes 5)) (fun g =>
      Ex.isOob (.oobAt .bestEdges) (branchAndBound (Ex.cO 5 (28 / 10000)) Ex.env 10 (Ex.probN g))) = true := by decide +kernel
  obtain ⟨g, e, h⟩ := Ex.okAnd_elim h
  have hI : Instance (Ex.cO 5 (28 / 10000)) (Ex.probN g) := by
    refine Ex.prob_instance (g := g) (d := Ex.wS) rfl (by decide) (show (0 : Nat) < 5 by decide) ?_ e
    intro u v huv hv
    have : v < 5 := hv
    interval_cases v <;> interval_cases u <;> decide +kernel
  exact ⟨_, Ex.env, Ex.probN g, rfl, hI, Ex.classic rfl, rfl, fun _ => rfl, Ex.isOob_elim h⟩

end Verif
