import Verif.Proofs.Mst
import Mathlib.Tactic.Linarith
import Mathlib.Tactic.NormNum

/-!
# Property C17: tree bookkeeping
-/
namespace Verif
open Verif.Spec
set_option autoImplicit false

section Arith
variable [Rounding]

/-- `create_mst` on `n` nodes followed by `add_edge` for each edge of `L` -/
def buildTree (c : Cfg) (mem : MST) (nodes : Nat → Node) (n : Nat) (L : List Edge) : Res MST :=
  forList (addEdge c) L (createMst mem nodes n)

/-- C17. After `create_mst` and any sequence `L` of `add_edge` calls, the tree records exactly `L`: its edges in
order, its cost, every neighbour list, the probability (average in hybrid mode), and in the matrix the index of the
last edge between each pair, or -1. -/
theorem C17_bookkeeping {c : Cfg} {mem t : MST} {nodes : Nat → Node} {n : Nat} {L : List Edge}
    (hL : ∀ e ∈ L, e.src < n ∧ e.dest < n) (h : buildTree c mem nodes n L = .ok t) :
    t.numEdges = L.length ∧ t.numNodes = n ∧ t.isValid = false ∧ t.cost = flSum (L.map (·.weight)) ∧ (Exact → t.cost = totalWeight L) ∧
    (∀ i (hi : i < L.length), t.edges i = { L[i] with pos := i }) ∧
    (∀ u < n, (t.nodes u).list = nbrs L u) ∧
    (Exact → if c.hybrid then t.prob * L.length = totalProb L else t.prob = 0) ∧
    (∀ u < n, ∀ v < n, (∀ e ∈ L, ¬ Joins e u v) → t.mat u v = -1) ∧
    (∀ u < n, ∀ v < n, ∀ A B e, L = A ++ e :: B → Joins e u v → (∀ e' ∈ B, ¬ Joins e' u v) → t.mat u v = A.length) := by
  have r := addAll_rep L (treeRep_create c mem nodes n) hL h
  simp only [List.nil_append] at r
  have hv : ∀ (l : List Edge) (a b : MST), forList (addEdge c) l a = .ok b → b.isValid = a.isValid := by
    intro l
    induction l with
    | nil => intro a b h; simp [forList] at h; rw [h]
    | cons e l ih =>
      intro a b h
      rw [forList, bind_eq_ok] at h
      obtain ⟨a1, h1, h2⟩ := h
      rw [ih a1 b h2]
      unfold addEdge at h1
      simp only at h1
      split at h1
      · cases h1
      · split at h1
        · cases h1
        · split at h1
          · cases h1
          · simp only [Except.ok.injEq] at h1
            subst h1
            split
            · split <;> rfl
            · rfl
  exact ⟨r.num, r.nn, by rw [hv L _ _ h]; rfl, r.sum, r.cost, r.edges, r.nodes, r.mean, r.none, r.last⟩

/-- C17. The calls stay inside the tree's arrays as long as the edges fit: at most `MAX_VERTEX_NUM` edges, and at most
`MAX_VERTEX_NUM - 1` of them at each node. -/
theorem C17_no_overflow {c : Cfg} {mem : MST} {nodes : Nat → Node} {n : Nat} {L : List Edge} (hn : n ≤ c.maxV)
    (hL : ∀ e ∈ L, e.src < n ∧ e.dest < n) (hlen : L.length ≤ c.maxV)
    (hdeg : ∀ u < n, (nbrs L u).length ≤ c.maxV - 1) : ∃ t, buildTree c mem nodes n L = .ok t := by
  obtain ⟨t, e, _⟩ := addAll_ok hn L (treeRep_create c mem nodes n) hL (by simpa using hlen) (by simpa using hdeg)
  exact ⟨t, e⟩

end Arith

/-! ### Non-vacuity: a path on three nodes -/

def demoCfg : Cfg := { maxV := 3, hybrid := true, eps := 1/100, eps2 := 1/1000, betterProb := 1/20, probBranch := 1/2 }
def demoPath : List Edge := [⟨0, 1, 1, 2, 1/2, 0⟩, ⟨1, 2, 3, 5, 1/4, 2⟩]

example (mem : MST) (nodes : Nat → Node) : ∃ t, buildTree demoCfg mem nodes 3 demoPath = .ok t ∧ t.cost = 7 ∧
    t.prob = 3/8 ∧ (t.nodes 1).list = [0, 2] ∧ t.mat 2 1 = 1 ∧ t.mat 0 2 = -1 := by
  have hL : ∀ e ∈ demoPath, e.src < 3 ∧ e.dest < 3 := by decide
  have hd : ∀ u < 3, (nbrs demoPath u).length ≤ 2 := by decide
  obtain ⟨t, e⟩ := C17_no_overflow (c := demoCfg) (mem := mem) (nodes := nodes) (n := 3) (by decide) hL (by decide) hd
  obtain ⟨-, -, -, -, h4, -, h6, h7, h8, h9⟩ := C17_bookkeeping hL e
  refine ⟨t, e, ?_, ?_, ?_, ?_, ?_⟩
  · rw [h4 exact_arith]; decide +kernel
  · have h7 := h7 exact_arith
    simp only [demoCfg, ↓reduceIte, demoPath, List.length_cons, List.length_nil, totalProb, List.map_cons, List.map_nil, List.sum_cons, List.sum_nil] at h7
    push_cast at h7
    linarith
  · rw [h6 1 (by omega)]; decide
  · rw [h9 2 (by omega) 1 (by omega) [⟨0, 1, 1, 2, 1/2, 0⟩] [] ⟨1, 2, 3, 5, 1/4, 2⟩ rfl (by decide) (by simp)]; rfl
  · exact h8 0 (by omega) 2 (by omega) (by decide)

end Verif
