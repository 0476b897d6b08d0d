import Verif.Proofs.ConstrainedKruskal

/-!
# Complete graphs and a constrained subproblem, for the examples
-/
namespace Verif.Ex
open Verif Verif.Spec
set_option autoImplicit false

/-- `n` nodes at arbitrary places -/
def nodes (n : Nat) : List ListNode := (List.range n).map fun i => ⟨i, i, 0⟩

theorem complete (c : Cfg) (mem : Graph) (n : Nat) (hn : n ≤ c.maxV) (d : Nat → Nat → ℚ) :
    ∃ g, createEuclideanGraph c (fun a b => d a.pos b.pos) mem (nodes n) = .ok g ∧ Stored g ∧ Positions g ∧ g.ordered = false ∧
      g.numNodes = n ∧ 2 * g.numEdges = n * (n - 1) ∧ (∀ u < n, ∀ v < n, u ≠ v → s(u, v) ∈ edgeSet g) ∧
      (∀ u v, u < v → v < n → weight g s(u, v) = d u v) := by
  have hlen : (nodes n).length = n := by simp [nodes]
  obtain ⟨g, e, st, ps, ho, hn', hm, hadj, hw, -⟩ := C52_complete (c := c) (mem := mem) (dist := fun a b => d a.pos b.pos) (l := nodes n)
    (by intro i hi; simp [nodes]) (by rw [hlen]; exact hn)
  rw [hlen] at hn' hm hadj
  have hE : ∀ u < n, ∀ v < n, u ≠ v → s(u, v) ∈ edgeSet g := fun u hu v hv huv => mem_edgeSet_adj.2 (hadj u hu v hv huv)
  refine ⟨g, e, st, ps, ho, hn', hm, hE, ?_⟩
  intro u v huv hv
  rw [← (st.mat_weight (hE u (by omega) v hv (by omega))).1, hw u (by omega) v (by omega) huv]
  simp [nodes]

theorem complete' (c : Cfg) (mem : Graph) (n : Nat) (hn : n ≤ c.maxV) (d : Nat → Nat → ℚ) :
    ∃ g, Stored g ∧ Positions g ∧ g.ordered = false ∧
      g.numNodes = n ∧ 2 * g.numEdges = n * (n - 1) ∧ (∀ u < n, ∀ v < n, u ≠ v → s(u, v) ∈ edgeSet g) ∧
      (∀ u v, u < v → v < n → weight g s(u, v) = d u v) ∧ (∀ u < n, (g.nodes u).pos = u) := by
  obtain ⟨g, e, st, ps, ho, hn', hm, hE, hw⟩ := complete c mem n hn d
  refine ⟨g, st, ps, ho, hn', hm, hE, hw, ?_⟩
  have hlen : (nodes n).length = n := by simp [nodes]
  obtain ⟨g', e', -, -, -, -, -, -, -, -, hp⟩ := C52_complete (c := c) (mem := mem) (dist := fun a b => d a.pos b.pos) (l := nodes n)
    (by intro i hi; simp [nodes]) (by rw [hlen]; exact hn)
  rw [e] at e'; cases e'
  intro u hu; exact (hp u (by rw [hlen]; exact hu)).1

theorem maxE_bound {c : Cfg} {n m : Nat} (hn : n ≤ c.maxV) (hm : 2 * m = n * (n - 1)) : m ≤ c.maxE := by
  unfold Cfg.maxE
  rw [Nat.le_div_iff_mul_le (by omega), mul_comm, hm]
  exact Nat.mul_le_mul hn (by omega)

def emptyTree : MST := ⟨false, 0, 0, 0, 0, fun _ => ⟨0, 0, 0, 0, fun _ => 0⟩, fun _ => ⟨0, 0, 0, 0, 0, 0⟩, fun _ _ => -1⟩

/-- edge 1–2 mandatory, edge 1–3 forbidden -/
def sub : SubProblem where
  type := .opened
  id := 1
  fatherId := 0
  value := 0
  treeLevel := 1
  oneTree := emptyTree
  numCycle := 0
  prob := 0
  cycle := fun _ => (0, 0)
  numForbidden := 1
  numMandatory := 1
  edgeToBranch := -1
  mandatory := fun _ => (1, 2)
  cons := fun u v => if (u = 1 ∧ v = 2) ∨ (u = 2 ∧ v = 1) then .mandatory else
    if u = v ∨ (u = 1 ∧ v = 3) ∨ (u = 3 ∧ v = 1) then .forbidden else .nothing

theorem sub_describes {n : Nat} (hn : 4 ≤ n) : Describes n sub {s(1, 2)} {s(1, 3)} := by
  have e12 : ∀ u v : Nat, s(u, v) = s(1, 2) ↔ (u = 1 ∧ v = 2) ∨ (u = 2 ∧ v = 1) := fun u v => Sym2.eq_iff
  have e13 : ∀ u v : Nat, s(u, v) = s(1, 3) ↔ (u = 1 ∧ v = 3) ∨ (u = 3 ∧ v = 1) := fun u v => Sym2.eq_iff
  constructor
  · intro u _ v _ huv
    rw [Finset.mem_singleton, e12]
    simp only [sub, gt_iff_lt, Nat.lt_one_iff, true_and]
    split
    · next h => simp [h]
    · next h => split <;> simp [h]
  · intro u _ v _ huv
    rw [Finset.mem_singleton, e13]
    simp only [sub, gt_iff_lt, Nat.lt_one_iff, true_and]
    split
    · next h => simp; omega
    · next h => split
                · next h' => simp; omega
                · next h' => simp; omega
  · intro u _ v _ huv
    rw [Finset.mem_singleton, e12, Finset.mem_singleton, e13]
    simp only [sub, gt_iff_lt, Nat.lt_one_iff, true_and]
    split
    · next h => simp [h]
    · next h =>
      split
      · next h' => simp; omega
      · next h' => simp; omega
  · intro e he
    rw [Finset.mem_singleton] at he
    exact ⟨0, by simp [sub], by rw [he]; rfl⟩
  · intro k _
    refine ⟨by simp [sub]; omega, by simp [sub]; omega, by simp [sub], by simp [sub]⟩
  · intro u v h
    rw [Finset.mem_union, Finset.mem_singleton, Finset.mem_singleton, e12, e13] at h
    omega

theorem sub_ready {c : Cfg} {g : Graph} {n : Nat} (hn : 4 ≤ n) (hc : n ≤ c.maxV) (st : Stored g) (ps : Positions g) (hnn : g.numNodes = n)
    (hm : 2 * g.numEdges = n * (n - 1)) (hE : ∀ u < n, ∀ v < n, u ≠ v → s(u, v) ∈ edgeSet g) : CReady c g sub 0 {s(1, 2)} {s(1, 3)} where
  stored := st
  positions := ps
  nodes := by omega
  edges := maxE_bound hc hm
  two := by omega
  cand := by omega
  desc := by rw [hnn]; exact sub_describes hn
  room := by show 1 ≤ c.maxV; omega
  real := by intro k _; exact hE 1 (by omega) 2 (by omega) (by omega)

end Verif.Ex
