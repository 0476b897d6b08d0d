import Verif.Props.MainExamples

/-!
# C40: incomplete graphs
-/
namespace Verif
open Verif.Spec
set_option autoImplicit false

/-- C40 (partial). On every complete graph the best solution that `branch_and_bound` leaves is a tour of the graph, whatever the clock and the memory.
Missing: incomplete graphs, where it is false (`C40_fails`). -/
theorem C40_tour_partial [Rounding] {c : Cfg} {env : Env} {p p' : Problem} {o' : List SubProblem} {fuel : Nat} (h : Instance c p) (hp : ProbsAbove c p) (heps : 0 ≤ c.eps) (hn : c.maxV ≤ 65535)
    (e : branchAndBound c env fuel p = .ok (p', o')) : ∃ t, Solution c.maxV (weight p.graph) p'.best t ∧ tourEdges t ⊆ edgeSet p.graph := by
  obtain ⟨-, ⟨t, ht⟩, -⟩ := C42_interrupted h hp heps hn e
  exact ⟨t, ht, fun x hx => tour_mem_edges h ht.tour x hx⟩

namespace Ex

def c5z : Cfg := ⟨5, false, 1 / 1000, 0, 0, 0⟩

/-- five cities, two of them at the same place -/
def twins : List (ℚ × ℚ) := [(3, 0), (4, 0), (0, 0), (0, 0), (5, 0)]

/-- four cities, two of them at the same place -/
def twins4 : List (ℚ × ℚ) := [(3, 0), (4, 0), (0, 0), (0, 0)]

/-- their distances on the line -/
def lineDist (a b : ℚ × ℚ) : ℚ := |a.1 - b.1|

theorem digit_of (k : Nat) (h : k < 10) : ReadsAs num (fmt k) k := by
  interval_cases k
  · exact digit (ch := '0') (by decide +kernel) (by decide) (by decide +kernel) (by decide) (by decide)
  · exact digit (ch := '1') (by decide +kernel) (by decide) (by decide +kernel) (by decide) (by decide)
  · exact digit (ch := '2') (by decide +kernel) (by decide) (by decide +kernel) (by decide) (by decide)
  · exact digit (ch := '3') (by decide +kernel) (by decide) (by decide +kernel) (by decide) (by decide)
  · exact digit (ch := '4') (by decide +kernel) (by decide) (by decide +kernel) (by decide) (by decide)
  · exact digit (ch := '5') (by decide +kernel) (by decide) (by decide +kernel) (by decide) (by decide)
  · exact digit (ch := '6') (by decide +kernel) (by decide) (by decide +kernel) (by decide) (by decide)
  · exact digit (ch := '7') (by decide +kernel) (by decide) (by decide +kernel) (by decide) (by decide)
  · exact digit (ch := '8') (by decide +kernel) (by decide) (by decide +kernel) (by decide) (by decide)
  · exact digit (ch := '9') (by decide +kernel) (by decide) (by decide +kernel) (by decide) (by decide)

end Ex

/-- C40 fails for the file that the driver writes for five cities on a line, two of them at the same place (so not joined by an edge). The graph is accepted and has the tour `0, 2, 1, 4, 3`, the search ends by
itself, but the best solution leaves out city 3: the heuristic is stuck at city 2, records the step from 2 to 2, and its "length" 10 is below the length of every tour of the graph, so the root is closed. -/
theorem C40_fails : ∃ (c : Cfg) (num : List Char → Option (ℚ × List Char)) (fmt : ℚ → List Char) (env : Env) (fuel : Nat) (p0 p' : Problem) (g : Graph) (xs : List (ℚ × ℚ)) (dist : ℚ × ℚ → ℚ × ℚ → ℚ),
    (ReadsAs num ['0'] 0 ∧ (∀ q ∈ xs, ReadsAs num (fmt q.1) q.1 ∧ ReadsAs num (fmt q.2) q.2) ∧
      ∀ i < xs.length, ∀ j < xs.length, ReadsAs num (fmt (adjacencyMatrix dist xs i j)) (adjacencyMatrix dist xs i j)) ∧ xs.length = c.maxV ∧ 0 < c.eps ∧
    readCsv c num p0.graph (classicText fmt xs (adjacencyMatrix dist xs)) = .ok g ∧ Stored g ∧ checkFeasibility g = true ∧
    (∃ t, IsTour c.maxV t ∧ tourEdges t ⊆ edgeSet g) ∧ (∀ k, env.clk k = false) ∧ branchAndBound c env fuel { p0 with graph := g } = .ok (p', []) ∧ p'.interrupted = false ∧
    (∀ k < p'.best.numCycle, (p'.best.cycle k).1 ≠ 3 ∧ (p'.best.cycle k).2 ≠ 3) ∧ ∀ t, IsTour c.maxV t → ¬ RecordsCycle p'.best t := by
  have h : Ex.okAnd (readCsv Ex.c5z Ex.num Ex.mem (classicText Ex.fmt Ex.twins (adjacencyMatrix Ex.lineDist Ex.twins))) (fun g => checkFeasibility g &&
      Ex.okAnd (branchAndBound Ex.c5z Ex.env 10 { Ex.probN Ex.mem with graph := g }) (fun r => (r.2.isEmpty && !r.1.interrupted) && (decide (r.1.bestValue = 10) &&
        (List.range r.1.best.numCycle).all fun k => decide ((r.1.best.cycle k).1 ≠ 3 ∧ (r.1.best.cycle k).2 ≠ 3)))) = true := by decide +kernel
  obtain ⟨g, e, h⟩ := Ex.okAnd_elim h
  rw [Bool.and_eq_true] at h
  obtain ⟨hfe, h⟩ := h
  obtain ⟨⟨p', o'⟩, e1, h⟩ := Ex.okAnd_elim h
  simp only [Bool.and_eq_true, decide_eq_true_eq, List.isEmpty_iff, Bool.not_eq_true', List.all_eq_true, List.mem_range] at h
  obtain ⟨⟨rfl, hi⟩, hb, hcyc⟩ := h
  have hval : ∀ i < 5, ∀ j < 5, ∃ k < 10, adjacencyMatrix Ex.lineDist Ex.twins i j = ((k : Nat) : ℚ) := by decide +kernel
  have hreads : ∀ i < Ex.twins.length, ∀ j < Ex.twins.length, ReadsAs Ex.num (Ex.fmt (adjacencyMatrix Ex.lineDist Ex.twins i j)) (adjacencyMatrix Ex.lineDist Ex.twins i j) := by
    intro i hi j hj
    obtain ⟨k, hk, e⟩ := hval i hi j hj
    rw [e]; exact Ex.digit_of k hk
  have hx : ∀ q ∈ Ex.twins, ReadsAs Ex.num (Ex.fmt q.1) q.1 ∧ ReadsAs Ex.num (Ex.fmt q.2) q.2 := by
    intro q hq
    simp only [Ex.twins, List.mem_cons, List.not_mem_nil, or_false] at hq
    have h0 := Ex.digit_of 0 (by omega)
    have h3 := Ex.digit_of 3 (by omega)
    have h4 := Ex.digit_of 4 (by omega)
    norm_num at h0 h3 h4
    have h5 := Ex.digit_of 5 (by omega)
    norm_num at h5
    rcases hq with rfl | rfl | rfl | rfl | rfl
    · exact ⟨h3, h0⟩
    · exact ⟨h4, h0⟩
    · exact ⟨h0, h0⟩
    · exact ⟨h0, h0⟩
    · exact ⟨h5, h0⟩
  have hz : ReadsAs Ex.num ['0'] 0 := Ex.reads.1
  obtain ⟨g', e', -, -, -, hadj, st, -⟩ := C49_classic (c := Ex.c5z) (mem := Ex.mem) (num := Ex.num) (fmt := Ex.fmt) (dist := Ex.lineDist) (xs := Ex.twins) (by decide) (by decide) hz hx hreads
    (by intro i hi j hj; obtain ⟨k, -, e⟩ := hval i hi j hj; rw [e]; positivity) (fun _ _ => rfl)
  rw [e] at e'; cases e'
  refine ⟨Ex.c5z, Ex.num, Ex.fmt, Ex.env, 10, Ex.probN Ex.mem, p', g, Ex.twins, Ex.lineDist, ⟨hz, hx, hreads⟩, rfl, by norm_num [Ex.c5z], e, st, hfe,
    ⟨[0, 2, 1, 4, 3], show [0, 2, 1, 4, 3].Perm (List.range 5) by decide, ?_⟩, fun _ => rfl, e1, hi, hcyc, ?_⟩
  · have hs : tourEdges [0, 2, 1, 4, 3] = {s(0, 2), s(2, 1), s(1, 4), s(4, 3), s(3, 0)} := by decide
    rw [hs]
    intro x hx'
    simp only [Finset.mem_insert, Finset.mem_singleton] at hx'
    rcases hx' with rfl | rfl | rfl | rfl | rfl <;> rw [mem_edgeSet_adj, hadj] <;> decide +kernel
  · rintro t ht hr
    have h3 : 3 ∈ t := ht.mem_iff.2 (List.mem_range.2 (by decide))
    obtain ⟨k, hk, e3⟩ := List.getElem_of_mem h3
    have h1 := RecordsCycle_get hr hk
    have h2 := hcyc k (by rw [hr.1]; exact hk)
    rw [e3] at h1
    have : 3 ∈ s((p'.best.cycle k).1, (p'.best.cycle k).2) := by rw [h1]; exact Sym2.mem_mk_left _ _
    rcases Sym2.mem_iff.1 this with h' | h'
    · exact h2.1 h'.symm
    · exact h2.2 h'.symm

/-- C40 fails in another way on four cities on a line, two of them at the same place: the step from 2 to 2 adds the empty entry of the matrix, an edge from 0 to 0, and the third and fourth neighbour
of node 0 do not fit in its array. -/
theorem C40_fails_out_of_bounds : ∃ g, readCsv Ex.c4 Ex.num Ex.mem (classicText Ex.fmt Ex.twins4 (adjacencyMatrix Ex.lineDist Ex.twins4)) = .ok g ∧ checkFeasibility g = true ∧
    (∃ t, IsTour 4 t ∧ tourEdges t ⊆ edgeSet g) ∧ branchAndBound Ex.c4 Ex.env 10 { Ex.probN Ex.mem with graph := g } = .error .oob := by
  have h : Ex.okAnd (readCsv Ex.c4 Ex.num Ex.mem (classicText Ex.fmt Ex.twins4 (adjacencyMatrix Ex.lineDist Ex.twins4))) (fun g => checkFeasibility g &&
      (Ex.isOob .oob (branchAndBound Ex.c4 Ex.env 10 { Ex.probN Ex.mem with graph := g }) && decide (tourEdges [0, 2, 1, 3] ⊆ edgeSet g))) = true := by decide +kernel
  obtain ⟨g, e, h⟩ := Ex.okAnd_elim h
  simp only [Bool.and_eq_true, decide_eq_true_eq] at h
  exact ⟨g, e, h.1, ⟨[0, 2, 1, 3], show [0, 2, 1, 3].Perm (List.range 4) by decide, h.2.2⟩, Ex.isOob_elim h.2.1⟩

end Verif
