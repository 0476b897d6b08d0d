import Verif.Props.ResultExamples
import Verif.Props.SearchFails

/-!
# C82, C83 on runs of the solver
-/
namespace Verif
open Verif.Spec
set_option autoImplicit false

namespace Ex

/-- distances of five nodes -/
def w1T (u v : Nat) : ℚ := match u, v with
  | 0, 1 => 15 | 0, 2 => 7 | 0, 3 => 8 | 0, 4 => 9 | 1, 2 => 14 | 1, 3 => 6 | 1, 4 => 2 | 2, 3 => 4 | 2, 4 => 5 | _, _ => 1

/-- the report of a run that ended with the problem `p` -/
def repOf (p : Problem) : Spec.Report := { rep 12 .closed1Tree false with problem := p }

theorem repOf_plain {p : Problem} (h : 0 ≤ p.best.value) : (repOf p).Plain := { rep_plain 12 .closed1Tree false with value := h }

end Ex

/-- **C83** is false of the code, on a run: on five nodes the search ends with the optimal tour, found as a 1-tree; in the directory with the result file of this run the analyzer counts one solution, and no 1-tree. -/
theorem C83_fails_reachable : ∃ (c : Cfg) (env : Env) (fuel : Nat) (p p' : Problem), Instance c p ∧ (∀ k, env.clk k = false) ∧ branchAndBound c env fuel p = .ok (p', []) ∧ p'.interrupted = false ∧
    p'.best.type = .closed1Tree ∧ p'.best.value = 28 ∧ ∃ s fr rows, readDirectory [(resultName 12, (Ex.repOf p').text c)] = .ok ((s, fr), rows) ∧ s.resolved = 1 ∧ s.oneTree = 0 := by
  have h : Ex.okAnd (createEuclideanGraph Ex.cF (fun a b => Ex.w1T a.pos b.pos) Ex.mem (Ex.nodes 5)) (fun g =>
      Ex.okAnd (branchAndBound Ex.cF Ex.env 10 (Ex.probN g)) (fun r => decide (r.1.best.type = .closed1Tree) && (decide (r.1.best.value = 28) && (r.2.isEmpty && !r.1.interrupted)))) = true := by
    decide +kernel
  obtain ⟨g, e, h⟩ := Ex.okAnd_elim h
  obtain ⟨⟨p', o'⟩, e1, h⟩ := Ex.okAnd_elim h
  simp only [Bool.and_eq_true, decide_eq_true_eq, List.isEmpty_iff, Bool.not_eq_true'] at h
  obtain ⟨ht, hb, rfl, hi⟩ := h
  have hI : Instance Ex.cF (Ex.probN g) := by
    refine Ex.prob_instance (g := g) (d := Ex.w1T) rfl (by decide) (show (0 : Nat) < 5 by decide) ?_ e
    intro u v huv hv
    have : v < 5 := hv
    interval_cases v <;> interval_cases u <;> decide +kernel
  have hp : (Ex.repOf p').Plain := Ex.repOf_plain (by rw [hb]; norm_num)
  have hd : Spec.Directory Ex.cF [Ex.repOf p'] [(resultName 12, (Ex.repOf p').text Ex.cF)] := .run (r := Ex.repOf p') .nil
  have hall : ∀ r ∈ [Ex.repOf p'], r.Plain := by intro r hr; rw [List.mem_singleton.1 hr]; exact hp
  obtain ⟨s, fr, rows, ed, -, -, hr⟩ := C82_directory hd hall (r := Ex.repOf p') (by simp) hi
  refine ⟨Ex.cF, Ex.env, 10, Ex.probN g, p', hI, fun _ => rfl, e1, hi, ht, hb, s, fr, rows, ed, ?_, C83_fails hd hall ed⟩
  rw [hr]
  simp [Ex.repOf, hi]

/-- C82_cost on the four corners of a rectangle: the program prints a tour, and the analyzer reads its length. -/
example : ∃ (text : List Char) (w pr : Nat → Nat → ℚ) (p0 p' : Problem) (out : List (Nat × Nat)), CsvFile Ex.num text Ex.rect w pr ∧ SolverInput Ex.c4 Ex.rect.length w pr ∧
    mainRun Ex.c4 Ex.num Ex.env 10 p0 text = .ok (p', out) ∧ ∃ x t, readText 12 ((Ex.repOf p').text Ex.c4) = .ok x ∧ IsTour 4 t ∧ out = legs t ∧ Spec.SixDecimals (walkLength w t) x.1.cost := by
  obtain ⟨h1, h2, h3⟩ := Ex.rect_classic
  have hf := csvText_file (num := Ex.num) (xs := Ex.rect) (ct := Ex.rect.map fun q => (Ex.fmt q.1, Ex.fmt q.2)) (rt := fun i j => (Ex.fmt (adjacencyMatrix Ex.rectDist Ex.rect i j), ['0']))
      (w := adjacencyMatrix Ex.rectDist Ex.rect) (pr := fun _ _ => 0) (by simp) (by
        intro i hi
        simp only [List.getElem_map]
        exact h2 _ (List.getElem_mem _)) (fun i hi j hj => ⟨h3 i hi j hj, h1⟩)
  have hs : SolverInput Ex.c4 Ex.rect.length (adjacencyMatrix Ex.rectDist Ex.rect) (fun _ _ => 0) := by
    refine ⟨rfl, by decide, by decide, fun i _ j _ => adjacencyMatrix_symm _ _ i j, ?_, fun _ _ _ _ _ => le_refl _, by norm_num [Ex.c4]⟩
    decide +kernel
  generalize ht : csvText _ _ = text at hf
  have h : Ex.okAnd (mainRun Ex.c4 Ex.num Ex.env 10 (Ex.probN Ex.mem) text) (fun _ => true) = true := by
    rw [← ht]
    decide +kernel
  obtain ⟨⟨p', out⟩, e, -⟩ := Ex.okAnd_elim h
  have hp := Ex.rep_plain 12 .closed1Tree false
  refine ⟨_, _, _, _, p', out, hf, hs, e, ?_⟩
  obtain ⟨x, t, L, k1, k2, k3, k4, k5⟩ := C82_cost hf hs (show (0 : Nat) < 4 by decide) e (r := Ex.repOf p') rfl hp.elapsed hp.reach hp.updates hp.cities hp.wall
  rw [k4.exact exact_arith] at k5
  exact ⟨x, t, k1, k2, k3, k5⟩

end Verif
