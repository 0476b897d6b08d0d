import Verif.Proofs.Linked
import Verif.Props.SearchFails
import Verif.Props.Dfs

/-!
# Property C63: the linked lists inside the search

`Model/Linked.lean` runs `branch_and_bound` and `dfs` on the cells of their lists.
-/
namespace Verif
open Verif.Dll
set_option autoImplicit false

section Arith
variable [Rounding]

/-- C63. Whatever the graph, the contents of uninitialised memory and the clock, `branch_and_bound` on the linked list of open subproblems behaves as on
the sequence it stands for: the same fault (so none is due to the list), or the same problem at the end, with the list then holding the open subproblems in the
same order; and after `delete_SubProblemList` none of the cells ever allocated is left. -/
theorem C63_open_list (c : Cfg) (env : Env) (fuel : Nat) (p : Problem) :
    (∀ f, branchAndBoundL c env fuel p = .error f ↔ branchAndBound c env fuel p = .error f) ∧
    (∀ p' o', branchAndBound c env fuel p = .ok (p', o') → ∃ s left, branchAndBoundL c env fuel p = .ok (p', s, left) ∧
      getSize s = o'.length ∧ (∀ i, spGetIndex s i = .ok o'[i]?) ∧ ∀ a, left.cells a = none) := by
  have h := branchAndBoundL_sim c env fuel p
  generalize branchAndBoundL c env fuel p = x at *
  generalize branchAndBound c env fuel p = y at *
  cases x with
  | error e =>
    cases y with
    | error e' => simp only [Sim] at h; subst h; exact ⟨fun f => by simp, by simp⟩
    | ok b => exact absurd h (by simp [Sim])
  | ok a =>
    cases y with
    | error e' => exact absurd h (by simp [Sim])
    | ok b =>
      obtain ⟨h1, h2, h3⟩ := h
      refine ⟨fun f => by simp, ?_⟩
      rintro p' o' e
      obtain ⟨a1, s, left⟩ := a
      rw [Except.ok.injEq] at e
      subst e
      dsimp only at h1 h2 h3
      subst h1
      exact ⟨s, left, rfl, h2.size, h2.get, h3⟩

omit [Rounding] in
/-- C63 for the stack of `dfs`: the linked stack behaves as the sequence, and `del_list` leaves none of its cells. -/
theorem C63_dfs_stack (c : Cfg) (g : Graph) (sp : SubProblem) (cand : Nat) :
    (∀ f, dfsL c g sp cand = .error f ↔ dfs c g sp cand = .error f) ∧
    (∀ sp', dfs c g sp cand = .ok sp' → ∃ left, dfsL c g sp cand = .ok (sp', left) ∧ ∀ a, left.cells a = none) := by
  have h := dfsL_sim c g sp cand
  generalize dfsL c g sp cand = x at *
  generalize dfs c g sp cand = y at *
  cases x with
  | error e =>
    cases y with
    | error e' => simp only [Sim] at h; subst h; exact ⟨fun f => by simp, by simp⟩
    | ok b => exact absurd h (by simp [Sim])
  | ok a =>
    cases y with
    | error e' => exact absurd h (by simp [Sim])
    | ok b =>
      obtain ⟨h1, h2⟩ := h
      refine ⟨fun f => by simp, ?_⟩
      rintro sp' e
      obtain ⟨a1, left⟩ := a
      rw [Except.ok.injEq] at e
      subst e
      dsimp only at h1 h2
      subst h1
      exact ⟨left, rfl, h2⟩

end Arith

/-- a run on five nodes that the clock stops after two rounds: one round has branched, the list is not empty when the loop ends -/
example : ∃ (env : Env) (p p' : Problem) (s left : DList SubProblem), branchAndBoundL Ex.cF env 10 p = .ok (p', s, left) ∧ getSize s ≠ 0 ∧ p'.generated = 3 ∧ left.fresh = 3 := by
  have h : Ex.okAnd (createEuclideanGraph Ex.cF (fun a b => Ex.wF a.pos b.pos) Ex.mem (Ex.nodes 5)) (fun g =>
      Ex.okAnd (branchAndBoundL Ex.cF { Ex.env with clk := fun k => decide (2 ≤ k) } 10 (Ex.probN g)) (fun r => decide (getSize r.2.1 ≠ 0) &&
        (decide (r.1.generated = 3) && decide (r.2.2.fresh = 3)))) = true := by
    decide +kernel
  obtain ⟨g, -, h⟩ := Ex.okAnd_elim h
  obtain ⟨⟨p', s, left⟩, e1, h⟩ := Ex.okAnd_elim h
  simp only [Bool.and_eq_true, decide_eq_true_eq] at h
  exact ⟨_, _, p', s, left, e1, h.1, h.2.1, h.2.2⟩

end Verif
