import Verif.Proofs.Term2
import Verif.Props.Search
import Verif.Props.SearchExamples

/-!
# Property C44: the search ends
-/
namespace Verif
open Verif.Spec
set_option autoImplicit false

section Arith
variable [Rounding] {c : Cfg} {env : Env} {p p1 : Problem} {cand : Nat}

omit [Rounding] in
theorem bbRoot_edge : (bbRoot c env).edgeToBranch = -1 := by
  unfold bbRoot
  obtain ⟨m, e, -⟩ := initializeMatrix_ok c { env.root with treeLevel := 1, id := 1, fatherId := 0, type := .opened, prob := 0, value := INFINITE, numCycle := 0, edgeToBranch := -1 }
  rw [e]

/-- C44. On every graph whose edges join nodes below `MAX_VERTEX_NUM = n` (complete or not, any weights), whatever the clock and the memory, the main loop makes at most
`3 ^ (n²)` rounds and at most `1 + 2 * 3 ^ (n²)` subproblems. -/
theorem C44_rounds (hends : ∀ i < p1.graph.numEdges, (p1.graph.edges i).src < c.maxV ∧ (p1.graph.edges i).dest < c.maxV)
    {k : Nat} {p2 : Problem} {o2 made : List SubProblem} (hr : Run c env (bbStart p1 cand) [bbRoot c env] k p2 o2 made) :
    k ≤ 3 ^ (c.maxV * c.maxV) ∧ made.length ≤ 1 + 2 * 3 ^ (c.maxV * c.maxV) := by
  obtain ⟨-, -, h1, h2⟩ := hr.load (p0 := bbStart p1 cand) hends (by
    intro x hx; rw [List.mem_singleton] at hx; subst hx; exact bbRoot_edge)
  have := load_root (c := c) (env := env)
  simp only [List.length_singleton] at h2
  omega

theorem bbLoop_fuel : ∀ (fuel k : Nat) (p : Problem) (o : List SubProblem) (m : Nat), bbLoop c env fuel k p o ≠ .error .fuel → bbLoop c env (fuel + m) k p o = bbLoop c env fuel k p o := by
  intro fuel
  induction fuel with
  | zero => intro k p o m h; exact absurd rfl h
  | succ fuel ih =>
    intro k p o m h
    rw [Nat.add_right_comm]
    cases o with
    | nil => rfl
    | cons cur rest =>
      rw [bbLoop] at h ⊢
      rw [bbLoop]
      split
      · rfl
      · next hc =>
        rw [if_neg hc] at h
        cases hb : bbRound c env k p cur rest with
        | error f => rfl
        | ok r =>
          rw [hb] at h
          exact ih (k + 1) r.1 r.2 m h

/-- C44, for the whole of `branch_and_bound` on a complete graph. `fuel` bounds the rounds of the main loop, and the model of every inner loop that has no counter is bounded too, with the fault `fuel` when
the bound is used up. Whatever the clock and the memory, there is one result that is the result for every number of rounds allowed above `3 ^ (n²)`, and it is not the fault `fuel`:
either `branch_and_bound` returns, or it stops at an access outside an array, at one of four places: the list of mandatory edges of a subproblem, the two-element arrays of
`mst_to_one_tree`, the edge array at the index `-1` in `mst_to_one_tree`, or (with 57 nodes or more) the table of `consolidate`. -/
theorem C44_terminates (h : Instance c p) (hp : ProbsAbove c p) (heps : 0 ≤ c.eps) (hn : c.maxV ≤ 65535) :
    ∃ r, ((∃ site, r = .error (.oobAt site) ∧ (site = .degreeList → 57 ≤ c.maxV)) ∨ ∃ p' o', r = .ok (p', o')) ∧ ∀ fuel, 3 ^ (c.maxV * c.maxV) < fuel → branchAndBound c env fuel p = r := by
  have hI : Instance c { p with bestValue := INFINITE } := h.of_graph rfl h.cand
  have hp' : ProbsAbove c { p with bestValue := INFINITE } := hp
  have honly : ∀ fuel, 3 ^ (c.maxV * c.maxV) < fuel → OnlyOob c (branchAndBound c env fuel p) := by
    intro fuel hf
    unfold branchAndBound
    rw [if_pos h.feasible]
    refine OnlyOob.bind (findCandidate_only hI hp') ?_
    rintro ⟨p1, cand⟩ e1
    obtain ⟨h0, -⟩ := start_inv h hp heps hn e1
    refine OnlyOob.bind (bbLoop_only heps _ _ _ _ h0 (lt_of_le_of_lt load_root hf)) ?_
    rintro ⟨p2, o2, k⟩ _
    exact OnlyOob.ok _
  have hsame : ∀ m, branchAndBound c env (3 ^ (c.maxV * c.maxV) + 1 + m) p = branchAndBound c env (3 ^ (c.maxV * c.maxV) + 1) p := by
    intro m
    unfold branchAndBound
    rw [if_pos h.feasible, if_pos h.feasible]
    cases e1 : findCandidate c env { p with bestValue := INFINITE } with
    | error f => rfl
    | ok r =>
      obtain ⟨p1, cand⟩ := r
      obtain ⟨h0, -⟩ := start_inv h hp heps hn e1
      have h1 := bbLoop_only (env := env) heps (3 ^ (c.maxV * c.maxV) + 1) 0 _ _ h0 (lt_of_le_of_lt load_root (Nat.lt_succ_self _))
      simp only [ok_bind]
      rw [bbLoop_fuel _ _ _ _ m (fun h' => by obtain ⟨_, h2, -⟩ := h1 _ h'; cases h2)]
  refine ⟨branchAndBound c env (3 ^ (c.maxV * c.maxV) + 1) p, ?_, ?_⟩
  · have h1 := honly _ (Nat.lt_succ_self _)
    cases hr : branchAndBound c env (3 ^ (c.maxV * c.maxV) + 1) p with
    | error f => left; obtain ⟨site, rfl, h57⟩ := h1 f hr; exact ⟨site, rfl, h57⟩
    | ok r => right; exact ⟨r.1, r.2, rfl⟩
  · intro fuel hf
    obtain ⟨m, rfl⟩ := Nat.exists_eq_add_of_le (show 3 ^ (c.maxV * c.maxV) + 1 ≤ fuel from hf)
    exact hsame m

end Arith

/-- C44: a run on five nodes that returns -/
example : ∃ (c : Cfg) (env : Env) (p p' : Problem), Instance c p ∧ ProbsAbove c p ∧ 0 ≤ c.eps ∧ c.maxV ≤ 65535 ∧ (∀ k, env.clk k = false) ∧ p'.explored = 1 ∧
    ∀ fuel, 3 ^ (c.maxV * c.maxV) < fuel → branchAndBound c env fuel p = .ok (p', []) := by
  have h : Ex.okAnd (createEuclideanGraph (Ex.cN false) (fun a b => Ex.w5 a.pos b.pos) Ex.mem (Ex.nodes 5)) (fun g =>
      (List.range 5).all (fun u => (List.range 5).all fun v => decide (-1 < (g.mat u v).prob)) &&
      Ex.okAnd (branchAndBound (Ex.cN false) Ex.env 100 (Ex.probN g)) (fun r => decide (r.1.explored = 1) && decide (r.2.length = 0))) = true := by
    decide +kernel
  obtain ⟨g, e, h⟩ := Ex.okAnd_elim h
  rw [Bool.and_eq_true] at h
  obtain ⟨hp, h⟩ := h
  obtain ⟨⟨p', o'⟩, e', h⟩ := Ex.okAnd_elim h
  rw [Bool.and_eq_true] at h
  obtain rfl : o' = [] := List.length_eq_zero_iff.1 (of_decide_eq_true h.2)
  obtain ⟨k1, k2⟩ := Ex.probN_ready e hp
  refine ⟨Ex.cN false, Ex.env, Ex.probN g, p', k1, k2, by norm_num [Ex.cN], by norm_num [Ex.cN], fun _ => rfl, of_decide_eq_true h.1, ?_⟩
  intro fuel hf
  have hcert : checkFeasibility (Ex.probN g).graph = true := k1.feasible
  obtain ⟨m, rfl⟩ : ∃ m, fuel = 100 + m := Nat.exists_eq_add_of_le (by
    have : (100 : Nat) ≤ 3 ^ (5 * 5) := by norm_num
    exact (this.trans hf.le))
  unfold branchAndBound at e' ⊢
  rw [if_pos hcert] at e' ⊢
  obtain ⟨r1, e1, e2⟩ := bind_eq_ok.1 e'
  obtain ⟨r2, e3, e4⟩ := bind_eq_ok.1 e2
  rw [e1]
  simp only [ok_bind]
  rw [bbLoop_fuel _ _ _ _ m (by rw [e3]; exact fun h => by cases h), e3]
  exact e4

end Verif
