import Verif.Proofs.Sort

/-!
# Properties C14–C16: sorting the edges

`cap` is the number of readable cells of the edge array. The sort may read one cell past the last edge
(kruskal.c:84-85), so C14 and C15 are stated for `num_edges < cap`; the contents of that extra cell are arbitrary.
-/
namespace Verif.Sort
open Verif Verif.Spec
set_option autoImplicit false

theorem wrap_ok {hy : Bool} {cap : Nat} {g : Graph} (ho : g.ordered = false) (h1 : 1 ≤ g.numEdges)
    (h2 : g.numEdges < cap) (h3 : g.numEdges ≤ 65535) :
    ∃ g', wrapQuickSort hy cap g = .ok g' ∧ Swaps 0 (g.numEdges - 1) { g with ordered := true } g' ∧
      (∀ x y, x < y → y < g.numEdges → Before hy (g'.edges x) (g'.edges y)) := by
  have e : (g.numEdges + 65535) % 65536 = g.numEdges - 1 := by omega
  obtain ⟨g', e1, s, o⟩ := quickSort_ok (hy := hy) (cap := cap) (g.numEdges + 1) { g with ordered := true } 0
    (g.numEdges - 1) (by omega) (by omega) (by omega)
  refine ⟨g', ?_, s, fun x y h4 h5 => o x y (by omega) h4 (by omega)⟩
  simp only [wrapQuickSort, ho, Bool.not_false, ↓reduceIte, e]
  exact e1

theorem perm_list {m : Nat} {a b : Nat → Edge} {σ : Equiv.Perm Nat} (h : ∀ i, content (a i) = content (b (σ i)))
    (hσ : ∀ i, ¬ (0 ≤ i ∧ i ≤ m) → σ i = i) :
    (((List.range (m + 1)).map a).map content).Perm (((List.range (m + 1)).map b).map content) := by
  have hp : ((List.range (m + 1)).map σ).Perm (List.range (m + 1)) := by
    rw [List.perm_ext_iff_of_nodup (List.nodup_range.map σ.injective) List.nodup_range]
    intro x
    simp only [List.mem_map, List.mem_range]
    constructor
    · rintro ⟨y, hy, rfl⟩
      have := Kept.perm_in (f := 0) (l := m) hσ (i := y) ⟨Nat.zero_le _, by omega⟩
      omega
    · intro hx
      have hs : ∀ i, ¬ (0 ≤ i ∧ i ≤ m) → σ.symm i = i := fun i hi => by
        rw [Equiv.symm_apply_eq]; exact (hσ i hi).symm
      have := Kept.perm_in (f := 0) (l := m) hs (i := x) ⟨Nat.zero_le _, by omega⟩
      exact ⟨σ.symm x, by omega, by simp⟩
  have := hp.map (fun i => content (b i))
  rw [List.map_map] at this
  simp only [List.map_map]
  refine (List.Perm.of_eq ?_).trans this
  apply List.map_congr_left
  intro i _; exact h i

/-- C14. `wrap_quick_sort` on a graph whose edges are not marked as ordered: the edges come out in non-decreasing weight
(in hybrid mode, ties by non-increasing probability), they are a permutation of the edges before, and nothing else
in the graph changes except positions. On a graph marked as ordered it does nothing. -/
theorem C14_sorts {hy : Bool} {cap : Nat} {g : Graph} (h1 : 1 ≤ g.numEdges) (h2 : g.numEdges < cap) (h3 : g.numEdges ≤ 65535) :
    (g.ordered = true → wrapQuickSort hy cap g = .ok g) ∧
    (g.ordered = false → ∃ g', wrapQuickSort hy cap g = .ok g' ∧ g'.ordered = true ∧
      (edgeList g').Pairwise (Before hy) ∧
      ((edgeList g').map content).Perm ((edgeList g).map content) ∧
      g'.numEdges = g.numEdges ∧ g'.numNodes = g.numNodes ∧ g'.nodes = g.nodes ∧ g'.cost = g.cost ∧
      (∀ u v, content (g'.mat u v) = content (g.mat u v)) ∧
      (∀ i, g.numEdges ≤ i → g'.edges i = g.edges i)) := by
  refine ⟨fun ho => by simp [wrapQuickSort, ho], fun ho => ?_⟩
  obtain ⟨g', e, s, o⟩ := wrap_ok (hy := hy) ho h1 h2 h3
  obtain ⟨k1, k2, k3, k4, k5, k6, σ, hσ, hf⟩ := s.kept
  have hm : g.numEdges = g.numEdges - 1 + 1 := by omega
  refine ⟨g', e, k5, ?_, ?_, k3, k2, k1, k4, k6, ?_⟩
  · unfold edgeList
    rw [List.pairwise_map]
    refine List.pairwise_lt_range.imp_of_mem ?_
    intro a b ha hb hab
    rw [List.mem_range, k3] at hb
    exact o a b hab hb
  · unfold edgeList
    rw [k3]
    show ((List.map g'.edges (List.range g.numEdges)).map content).Perm _
    rw [hm]
    exact perm_list hσ (fun i hi => (hf i hi).1)
  · intro i hi; exact (hf i (by omega)).2

/-- C15. If edge array and adjacency matrix agree on positions before the sort (no two edges joining the same pair),
they agree after it. -/
theorem C15_positions_consistent {hy : Bool} {cap : Nat} {g g' : Graph} (h1 : 1 ≤ g.numEdges) (h2 : g.numEdges < cap)
    (h3 : g.numEdges ≤ 65535) (hs : Simple g) (hp : Positions g) (e : wrapQuickSort hy cap g = .ok g') :
    Simple g' ∧ Positions g' := by
  cases ho : g.ordered with
  | true => simp [wrapQuickSort, ho] at e; subst e; exact ⟨hs, hp⟩
  | false =>
    obtain ⟨g1, e1, s, o⟩ := wrap_ok (hy := hy) ho h1 h2 h3
    rw [e1] at e; cases e
    exact s.simple (show g.numEdges - 1 < g.numEdges by omega) hs hp

/-- C16, proved when the array has room for one more edge than the graph has: the sort never accesses the array outside
its capacity. Missing: the graph with `num_edges = MAX_EDGES_NUM` (see `C16_reads_past_the_end`) and the graph
without edges (see `C16_empty_graph`). -/
theorem C16_in_bounds_partial {hy : Bool} {cap : Nat} {g : Graph} (h1 : 1 ≤ g.numEdges) (h2 : g.numEdges < cap)
    (h3 : g.numEdges ≤ 65535) : ∃ g', wrapQuickSort hy cap g = .ok g' := by
  cases ho : g.ordered with
  | true => exact ⟨g, by simp [wrapQuickSort, ho]⟩
  | false => obtain ⟨g', e, _⟩ := wrap_ok (hy := hy) ho h1 h2 h3; exact ⟨g', e⟩

/-- three nodes, three edges of weights 2, 1, 2: the complete graph on three nodes, `MAX_EDGES_NUM = 3` -/
def triangle : Graph :=
  { cost := 5, numNodes := 3, numEdges := 3, ordered := false,
    nodes := fun i => { x := 0, y := 0, pos := i, nn := 2, neigh := fun k => if k = 0 then (i + 1) % 3 else (i + 2) % 3 }
    edges := fun k => if k = 0 then ⟨0, 1, 1, 2, 0, 0⟩ else if k = 1 then ⟨0, 2, 2, 1, 0, 1⟩ else ⟨1, 2, 3, 2, 0, 2⟩
    mat := fun i j => if i + j = 1 then ⟨0, 1, 1, 2, 0, 0⟩ else if i + j = 2 then ⟨0, 2, 2, 1, 0, 1⟩ else ⟨1, 2, 3, 2, 0, 2⟩ }

/-- C16 is false of the code as it stands: on this complete graph with three nodes, the scan for the pivot reads
`edges[MAX_EDGES_NUM]`, one past the end of the array. -/
theorem C16_reads_past_the_end : wrapQuickSort false 3 triangle = .error .oob := eq_error_iff.2 (by decide +kernel)

/-- On a graph without edges, `num_edges - 1` becomes 65535 and the sort reads `edges[65535]`. -/
theorem C16_empty_graph {hy : Bool} {cap : Nat} {g : Graph} (ho : g.ordered = false) (h : g.numEdges = 0) (hc : cap ≤ 65535) :
    wrapQuickSort hy cap g = .error .oob := by
  have : ¬ 65535 < cap := by omega
  simp [wrapQuickSort, ho, h, quickSort, pivotQuicksort, choosePivot, rd, this]

/-! ### Non-vacuity -/

example : 1 ≤ triangle.numEdges ∧ triangle.numEdges < 4 ∧ triangle.numEdges ≤ 65535 ∧ triangle.ordered = false := by decide
example : Simple triangle ∧ Positions triangle := by
  constructor
  · intro i hi j hj
    have : ∀ i < 3, ∀ j < 3, s((triangle.edges i).src, (triangle.edges i).dest) = s((triangle.edges j).src, (triangle.edges j).dest) → i = j := by
      decide +kernel
    exact this i hi j hj
  · have : ∀ i < 3, (triangle.edges i).pos = i ∧ (triangle.mat (triangle.edges i).src (triangle.edges i).dest).pos = i ∧
        (triangle.mat (triangle.edges i).dest (triangle.edges i).src).pos = i := by decide +kernel
    exact this

end Verif.Sort
