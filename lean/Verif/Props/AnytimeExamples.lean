import Verif.Props.Anytime
import Verif.Props.SearchFails

/-!
# C80, C81 meet non-trivial cases; the counterexamples to C43 and C64 on every machine
-/
namespace Verif
open Verif.Spec
set_option autoImplicit false

namespace Ex

/-- other memory contents: a heap with wrong counters and pointers, a subproblem with wrong constraints -/
def loc2 : PState := ⟨⟨fun _ => 3, fun _ => 7, fun _ => some 1, fun _ => 2, fun _ => 4, fun _ => some 0, fun _ => some 3, fun _ => 5, fun _ => true, fun _ => true,
  some 2, some 1, some 0, 9, 8⟩, fun _ => true, fun _ => some 4⟩

def sub2 : SubProblem := { sub with type := .closedBound, id := 17, value := 3, numCycle := 2, numForbidden := 1, numMandatory := 3, cons := fun _ _ => .mandatory, cycle := fun _ => (1, 1) }

/-- the clock strikes at the third question -/
def env2 : Env := ⟨fun _ => sub2, fun _ => sub2, fun _ => sub2, fun _ => loc2, sub2, fun _ _ => sub2, fun _ _ => loc2, fun k => decide (2 ≤ k)⟩

theorem wF_instance {g : Graph} (e : createEuclideanGraph cF (fun a b => wF a.pos b.pos) mem (nodes 5) = .ok g) : Instance cF (probN g) := by
  refine prob_instance (g := g) (d := wF) rfl (by decide) (show (0 : Nat) < 5 by decide) ?_ e
  intro u v huv hv
  have : v < 5 := hv
  interval_cases v <;> interval_cases u <;> decide +kernel

end Ex

/-- C80, C81: on five nodes, a run on one memory that the clock stops after two rounds (three subproblems made, one left open) and a complete one on another memory. -/
example : ∃ (p p1 p2 : Problem) (o1 : List SubProblem), Instance Ex.cF p ∧ 0 ≤ Ex.cF.eps ∧ (∀ k, Ex.env.clk k = true → Ex.env2.clk k = true) ∧
    branchAndBound Ex.cF Ex.env2 10 p = .ok (p1, o1) ∧ branchAndBound Ex.cF Ex.env 10 p = .ok (p2, []) ∧ o1.length = 1 ∧ p1.explored < p2.explored ∧ p1.interrupted = true ∧ p2.interrupted = false := by
  have h : Ex.okAnd (createEuclideanGraph Ex.cF (fun a b => Ex.wF a.pos b.pos) Ex.mem (Ex.nodes 5)) (fun g =>
      Ex.okAnd (branchAndBound Ex.cF Ex.env2 10 (Ex.probN g)) (fun r => Ex.okAnd (branchAndBound Ex.cF Ex.env 10 (Ex.probN g)) (fun s => (s.2.isEmpty && decide (r.2.length = 1)) &&
        (decide (r.1.explored < s.1.explored) && (r.1.interrupted && !s.1.interrupted))))) = true := by
    decide +kernel
  obtain ⟨g, e, h⟩ := Ex.okAnd_elim h
  obtain ⟨⟨p1, o1⟩, e1, h⟩ := Ex.okAnd_elim h
  obtain ⟨⟨p2, o2⟩, e2, h⟩ := Ex.okAnd_elim h
  simp only [Bool.and_eq_true, decide_eq_true_eq, List.isEmpty_iff, Bool.not_eq_true'] at h
  obtain ⟨⟨rfl, ho⟩, hx, h1, h2⟩ := h
  exact ⟨Ex.probN g, p1, p2, o1, Ex.wF_instance e, by norm_num [Ex.cF], fun k h => (by cases h), e1, e2, ho, hx, h1, h2⟩

/-- C43 fails on every machine: on this instance every run without a time limit ends with an empty open list and a tour that is more than 6 longer than the shortest one, whatever the memory contained. -/
theorem C43_fails_always : ∃ (c : Cfg) (fuel : Nat) (p : Problem) (t : List Nat), Instance c p ∧ ProbsAbove c p ∧ 0 < c.eps ∧ IsTour c.maxV t ∧
    ∀ env : Env, (∀ k, env.clk k = false) → ∃ p', branchAndBound c env fuel p = .ok (p', []) ∧ p'.interrupted = false ∧ tourCost (weight p.graph) t + 6 < p'.bestValue - c.eps := by
  obtain ⟨c, env0, fuel, p, p', t, h1, h2, h3, h4, h5, h6, h7, h8⟩ := C43_fails
  refine ⟨c, fuel, p, t, h1, h2, h3, h7, fun env hk => ?_⟩
  have h := C80_instance h1 (env := env0) (env' := env) (fun k => by rw [h4, hk]) fuel
  rw [h5] at h
  cases hx : branchAndBound c env fuel p with
  | error e => rw [hx] at h; exact h.elim
  | ok r =>
    rw [hx] at h
    obtain ⟨q, o⟩ := r
    have h : SameResult c.maxV (p', []) (q, o) := h
    obtain rfl : o = [] := List.eq_nil_of_length_eq_zero h.length
    exact ⟨q, rfl, (show q.interrupted = _ from h.interrupted).trans h6, by rw [show q.bestValue = _ from h.bestValue]; exact h8⟩

/-- C64 fails on every machine: on this instance with four cities every run without a time limit writes a fifth mandatory edge into the list of length four. -/
theorem C64_fails_mandatory_always : ∃ (c : Cfg) (p : Problem), c.maxV = 4 ∧ Instance c p ∧ ProbsAbove c p ∧ c.eps = 25 / 10000 ∧
    (∀ u < 4, ∀ v < 4, u ≠ v → 0 < weight p.graph s(u, v) ∧ weight p.graph s(u, v) ≤ 89 / 100) ∧
    ∀ env : Env, (∀ k, env.clk k = false) → branchAndBound c env 10 p = .error (.oobAt .mandatoryEdges) := by
  obtain ⟨c, env0, p, h1, h2, h3, h4, h5, h6, -, h8⟩ := C64_fails_mandatory
  refine ⟨c, p, h1, h2, h3, h4, h6, fun env hk => ?_⟩
  have h := C80_instance h2 (env := env0) (env' := env) (fun k => by rw [h5, hk]) 10
  rw [h8] at h
  cases hx : branchAndBound c env 10 p with
  | error e => rw [hx] at h; exact congrArg _ h
  | ok r => rw [hx] at h; exact h.elim

end Verif
