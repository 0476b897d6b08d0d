import Verif.Spec.Memory
import Verif.Proofs.Indep4
import Verif.Props.TableSearch
import Verif.Props.SearchExamples

/-!
# C80: the result does not depend on the contents of uninitialised memory
-/
namespace Verif
open Verif.Spec
set_option autoImplicit false

section Arith
variable [Rounding] {c : Cfg}

omit [Rounding] in
theorem Best1.spec {a b : SubProblem} (h : Best1 a b) : SameSolution a b :=
  ⟨h.type, h.value, h.prob, h.id, h.fatherId, h.treeLevel, h.numCycle, fun i hi => h.cycle i hi⟩

omit [Rounding] in
theorem OpenRel.spec {n : Nat} {a b : SubProblem} (h : OpenRel n a b) : SameOpen n a b :=
  ⟨h.toBest1.spec, h.edge, h.forb, h.mand, fun i hi => h.list i hi, h.cons⟩

omit [Rounding] in
theorem forall2_get {α β : Type} {R : α → β → Prop} {l : List α} {l' : List β} (h : List.Forall₂ R l l') : l'.length = l.length ∧ ∀ i (hi : i < l.length) (hi' : i < l'.length), R l[i] l'[i] := by
  induction h with
  | nil => exact ⟨rfl, fun i hi => absurd hi (Nat.not_lt_zero i)⟩
  | cons hab _ ih =>
    refine ⟨by simp [ih.1], ?_⟩
    intro i hi hi'
    cases i with
    | zero => exact hab
    | succ i => exact ih.2 i (by simpa using hi) (by simpa using hi')

/-- **C80**. Two runs of `branch_and_bound` on the same problem with the same clock, whatever the memory contained before its variables were set, end with the same fault or with the same solution, the same
counters and the same open subproblems. The graph may be any stored graph with `MAX_VERTEX_NUM` nodes. -/
theorem C80_memory_irrelevant {p : Problem} (st : Stored p.graph) (hpos : ∀ i < c.maxV, (p.graph.nodes i).pos = i) (hn : p.graph.numNodes = c.maxV) (h2 : 2 ≤ c.maxV) {env env' : Env} (hclk : ∀ k, env'.clk k = env.clk k)
    (fuel : Nat) : SameRun c.maxV (branchAndBound c env fuel p) (branchAndBound c env' fuel p) := by
  have hg : GraphOK c.maxV p.graph := by
    refine ⟨⟨hn, ?_⟩, ?_⟩
    · intro u hu
      refine ⟨by rw [hpos u hu]; exact hu, ?_⟩
      intro v hv
      obtain ⟨i, hi, h⟩ := (st.nbr u (by rw [hn]; exact hu) v).1 hv
      have := st.ends i hi
      rw [hn] at this
      rcases h with ⟨-, h⟩ | ⟨h, -⟩
      · rw [← h]; exact this.2.1
      · rw [← h]; exact this.1
    · intro i hi
      have := st.ends i hi
      rw [hn] at this
      exact ⟨this.1, this.2.1⟩
  have h := branchAndBound_rel h2 (env := env) (env' := env') (funext hclk) fuel hg
  revert h
  generalize branchAndBound c env fuel p = x
  generalize branchAndBound c env' fuel p = y
  intro h
  cases x with
  | error e =>
    cases y with
    | error e' => exact Eq.symm h
    | ok _ => exact h
  | ok r =>
    cases y with
    | error _ => exact h
    | ok r' =>
      obtain ⟨h1, h2⟩ := h
      obtain ⟨h3, h4⟩ := forall2_get h2
      exact ⟨h1.best.spec, h1.bestValue, h1.cand, h1.generated, h1.explored, h1.fixed, h1.totLevels, h1.interrupted, h1.graph, h3, fun i hi hi' => (h4 i hi hi').spec⟩

/-- **C80** for the instances the program is built for. -/
theorem C80_instance {p : Problem} (hI : Instance c p) {env env' : Env} (hclk : ∀ k, env'.clk k = env.clk k) (fuel : Nat) : SameRun c.maxV (branchAndBound c env fuel p) (branchAndBound c env' fuel p) :=
  C80_memory_irrelevant hI.stored hI.pos hI.nodes (by have := hI.three; omega) hclk fuel

end Arith

/-- C64 fails on every machine: on this instance every run, whatever the memory contained and whatever the clock says, writes outside the table of `consolidate`. -/
theorem C64_fails_table_always : ∃ (c : Cfg) (p : Problem), c.maxV = 259 ∧ Instance c p ∧ ProbsAbove c p ∧
    (∀ u < 259, ∀ v < 259, u ≠ v → weight p.graph s(u, v) = 1 ∨ weight p.graph s(u, v) = 2) ∧
    ∀ env fuel, branchAndBound c env fuel p = .error (.oobAt .degreeList) := by
  obtain ⟨c, env0, p, h1, h2, h3, -, h5, h6⟩ := table_search
  refine ⟨c, p, h1, h2, h3, h5, fun env fuel => ?_⟩
  have h := C80_instance h2 (env := { env0 with clk := env.clk }) (env' := env) (fun _ => rfl) fuel
  rw [h6] at h
  revert h
  cases branchAndBound c env fuel p with
  | error e => intro h; exact congrArg _ h
  | ok r => intro h; exact h.elim

end Verif
