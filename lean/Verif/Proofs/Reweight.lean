import Verif.Model.Reweight
import Verif.Proofs.OneTree
import Mathlib.Algebra.BigOperators.Ring.Finset

namespace Verif
open Verif.Spec
set_option autoImplicit false

variable [Rounding]

/-- everything but the weight -/
def Edge.shape (e : Edge) : Nat × Nat × Nat × ℚ × Nat := (e.src, e.dest, e.symbol, e.prob, e.pos)

/-- the weight `w` after adding `s` -/
def reweigh (w s : ℚ) : ℚ := if fl s ≠ 0 then fl (w + fl s) else w

theorem reweigh_exact (hx : Exact) (w s : ℚ) : reweigh w s = w + s := by
  unfold reweigh
  rw [hx, hx]
  split
  · rfl
  · next h => push Not at h; rw [h, add_zero]

structure PiInv (pi : Nat → ℚ) (g : Graph) (k : Nat) (g' : Graph) : Prop where
  nodes : g'.nodes = g.nodes
  nn : g'.numNodes = g.numNodes
  ne : g'.numEdges = g.numEdges
  eshape : ∀ j, (g'.edges j).shape = (g.edges j).shape
  mshape : ∀ u v, (g'.mat u v).shape = (g.mat u v).shape
  edone : ∀ j < k, (g'.edges j).weight = reweigh (g.edges j).weight (pi (g.edges j).src + pi (g.edges j).dest)
  etodo : ∀ j, k ≤ j → g'.edges j = g.edges j
  mdone : ∀ j < k, ∀ u v, Joins (g.edges j) u v → (g'.mat u v).weight = reweigh (g.edges j).weight (pi (g.edges j).src + pi (g.edges j).dest)
  mtodo : ∀ u v, (∀ j < k, ¬ Joins (g.edges j) u v) → g'.mat u v = g.mat u v

theorem applyPi_inv {g : Graph} (hs : Stored g) (pi : Nat → ℚ) : ∀ k ≤ g.numEdges, PiInv pi g k (applyPi pi k g) := by
  intro k
  induction k with
  | zero => intro _; constructor <;> simp [applyPi]
  | succ k ih =>
    intro hk
    have h := ih (by omega)
    have heq : applyPi pi (k + 1) g = applyPi1 pi (applyPi pi k g) k := by
      unfold applyPi; rw [List.range_succ, List.foldl_append]; rfl
    rw [heq]
    generalize applyPi pi k g = g1 at h
    have hek : g1.edges k = g.edges k := h.etodo k (le_refl _)
    have hother : ∀ j < k, ∀ u v, Joins (g.edges j) u v → ¬ Joins (g.edges k) u v := by
      intro j hj u v h1 h2
      rw [joins_iff] at h1 h2
      have := hs.simple j (by omega) k (by omega) (h1.trans h2.symm)
      omega
    have hkw : ∀ u v, Joins (g.edges k) u v → g1.mat u v = g.mat u v := fun u v hj =>
      h.mtodo u v (fun j hj' h' => hother j hj' u v h' hj)
    have hmw : ∀ u v, Joins (g.edges k) u v → (g.mat u v).weight = (g.edges k).weight := by
      intro u v hj
      have := hs.mat k (by omega) u v hj
      simp only [content, Prod.mk.injEq] at this
      exact this.2.2.2.1
    unfold applyPi1
    simp only [hek]
    have hre : ∀ h : fl (pi (g.edges k).src + pi (g.edges k).dest) ≠ 0, reweigh (g.edges k).weight (pi (g.edges k).src + pi (g.edges k).dest) =
        fl ((g.edges k).weight + fl (pi (g.edges k).src + pi (g.edges k).dest)) := fun h => if_pos h
    have hre0 : ∀ h : ¬ fl (pi (g.edges k).src + pi (g.edges k).dest) ≠ 0, reweigh (g.edges k).weight (pi (g.edges k).src + pi (g.edges k).dest) = (g.edges k).weight := fun h => if_neg h
    by_cases hd : fl (pi (g.edges k).src + pi (g.edges k).dest) ≠ 0
    · rw [if_pos hd]
      have hjn : ∀ u v, Joins (g.edges k) u v ↔ (u = (g.edges k).dest ∧ v = (g.edges k).src) ∨ (u = (g.edges k).src ∧ v = (g.edges k).dest) := by
        intro u v; unfold Joins
        constructor
        · rintro (⟨h1, h2⟩ | ⟨h1, h2⟩)
          · exact Or.inr ⟨h1.symm, h2.symm⟩
          · exact Or.inl ⟨h2.symm, h1.symm⟩
        · rintro (⟨h1, h2⟩ | ⟨h1, h2⟩)
          · exact Or.inr ⟨h2.symm, h1.symm⟩
          · exact Or.inl ⟨h1.symm, h2.symm⟩
      have hne := (hs.ends k (by omega)).2.2
      refine ⟨h.nodes, h.nn, h.ne, ?_, ?_, ?_, ?_, ?_, ?_⟩
      · intro j
        simp only [upd_apply]
        by_cases hj : j = k
        · subst hj; rw [if_pos rfl]; rfl
        · rw [if_neg hj]; exact h.eshape j
      · intro u v
        rw [← h.mshape u v]
        simp only [upd2_apply]
        split
        · next h' =>
          obtain ⟨rfl, rfl⟩ := h'
          rw [if_neg (by intro h'; exact hne h'.2)]; rfl
        · split
          · next h' => obtain ⟨rfl, rfl⟩ := h'; rfl
          · rfl
      · intro j hj
        simp only [upd_apply]
        by_cases hjk : j = k
        · subst hjk; rw [if_pos rfl, hre hd]
        · rw [if_neg hjk]; exact h.edone j (by omega)
      · intro j hj
        simp only [upd_apply]
        rw [if_neg (by omega)]; exact h.etodo j (by omega)
      · intro j hj u v hjo
        simp only [upd2_apply]
        by_cases hjk : j = k
        · subst hjk
          rw [hre hd]
          rcases (hjn u v).1 hjo with h' | h'
          · rw [if_pos h']
          · rw [if_neg (by rintro ⟨rfl, rfl⟩; exact hne h'.1.symm), if_pos h']
        · have := hother j (by omega) u v hjo
          rw [hjn] at this
          rw [if_neg (fun h' => this (Or.inl h')), if_neg (fun h' => this (Or.inr h'))]
          exact h.mdone j (by omega) u v hjo
      · intro u v hno
        have := hno k (by omega)
        rw [hjn] at this
        simp only [upd2_apply]
        rw [if_neg (fun h' => this (Or.inl h')), if_neg (fun h' => this (Or.inr h'))]
        exact h.mtodo u v (fun j hj => hno j (by omega))
    · rw [if_neg hd]
      refine ⟨h.nodes, h.nn, h.ne, h.eshape, h.mshape, ?_, fun j hj => h.etodo j (by omega), ?_, fun u v hno => h.mtodo u v (fun j hj => hno j (by omega))⟩
      · intro j hj
        by_cases hjk : j = k
        · subst hjk; rw [hek, hre0 hd]
        · exact h.edone j (by omega)
      · intro j hj u v hjo
        by_cases hjk : j = k
        · subst hjk; rw [hkw u v hjo, hmw u v hjo, hre0 hd]
        · exact h.mdone j (by omega) u v hjo

/-- the weights after adding the dual variables of both ends -/
def piWeight (w : Sym2 Nat → ℚ) (pi : Nat → ℚ) (e : Sym2 Nat) : ℚ := reweigh (w e) (pi e.inf + pi e.sup)

theorem piWeight_mk (w : Sym2 Nat → ℚ) (pi : Nat → ℚ) (u v : Nat) : piWeight w pi s(u, v) = reweigh (w s(u, v)) (pi u + pi v) := by
  unfold piWeight
  rw [Sym2.inf_mk, Sym2.sup_mk]
  rcases le_total u v with h | h
  · rw [inf_eq_left.2 h, sup_eq_right.2 h]
  · rw [inf_eq_right.2 h, sup_eq_left.2 h, add_comm (pi v)]

theorem applyPi_ok {g : Graph} (hs : Stored g) (hp : Positions g) (pi : Nat → ℚ) :
    Stored (applyPi pi g.numEdges g) ∧ Positions (applyPi pi g.numEdges g) ∧ edgeSet (applyPi pi g.numEdges g) = edgeSet g ∧
    (∀ e ∈ edgeSet g, weight (applyPi pi g.numEdges g) e = piWeight (weight g) pi e) ∧
    (applyPi pi g.numEdges g).numNodes = g.numNodes ∧ (applyPi pi g.numEdges g).numEdges = g.numEdges ∧ (applyPi pi g.numEdges g).nodes = g.nodes ∧
    (∀ j, ((applyPi pi g.numEdges g).edges j).shape = (g.edges j).shape) ∧ (∀ u v, ((applyPi pi g.numEdges g).mat u v).shape = (g.mat u v).shape) := by
  have h := applyPi_inv hs pi g.numEdges (le_refl _)
  generalize applyPi pi g.numEdges g = g' at h
  have hsrc : ∀ j, (g'.edges j).src = (g.edges j).src := fun j => by have := h.eshape j; simp only [Edge.shape, Prod.mk.injEq] at this; exact this.1
  have hdst : ∀ j, (g'.edges j).dest = (g.edges j).dest := fun j => by have := h.eshape j; simp only [Edge.shape, Prod.mk.injEq] at this; exact this.2.1
  have hjo : ∀ j u v, Joins (g'.edges j) u v ↔ Joins (g.edges j) u v := fun j u v => by unfold Joins; rw [hsrc, hdst]
  have hadj : ∀ u v, Adj g' u v ↔ Adj g u v := fun u v => by
    unfold Adj; rw [h.ne]; exact exists_congr fun j => and_congr_right fun _ => hjo j u v
  have hE : edgeSet g' = edgeSet g := by
    unfold edgeSet; rw [h.ne]; congr 1; funext j; rw [hsrc, hdst]
  have hst : Stored g' := by
    refine ⟨?_, ?_, ?_, ?_, ?_⟩
    · intro i hi; rw [hsrc, hdst, h.nn]; exact hs.ends i (by rw [← h.ne]; exact hi)
    · intro i hi j hj; rw [hsrc, hdst, hsrc, hdst]; rw [h.ne] at hi hj; exact hs.simple i hi j hj
    · intro u hu; rw [h.nodes]; exact hs.nodup u (by rw [← h.nn]; exact hu)
    · intro u hu v; rw [h.nodes, hadj]; exact hs.nbr u (by rw [← h.nn]; exact hu) v
    · intro i hi u v hj
      rw [h.ne] at hi
      rw [hjo] at hj
      have h1 := hs.mat i hi u v hj
      have h2 := h.mshape u v
      have h3 := h.eshape i
      have h4 := h.mdone i hi u v hj
      have h5 := h.edone i hi
      simp only [Edge.shape, content, Prod.mk.injEq] at h1 h2 h3 ⊢
      refine ⟨?_, ?_, ?_, ?_, ?_⟩
      · rw [h2.1, h3.1, h1.1]
      · rw [h2.2.1, h3.2.1, h1.2.1]
      · rw [h2.2.2.1, h3.2.2.1, h1.2.2.1]
      · rw [h4, h5]
      · rw [h2.2.2.2.1, h3.2.2.2.1, h1.2.2.2.2]
  refine ⟨hst, ?_, hE, ?_, h.nn, h.ne, h.nodes, h.eshape, h.mshape⟩
  · intro i hi
    rw [h.ne] at hi
    have hpi := hp i hi
    have h3 := h.eshape i
    have h2 := h.mshape
    simp only [Edge.shape, Prod.mk.injEq] at h3 h2
    rw [hsrc, hdst, h3.2.2.2.2, (h2 _ _).2.2.2.2, (h2 _ _).2.2.2.2]
    exact hpi
  · intro e he
    induction e using Sym2.ind with
    | _ u v =>
      have he' : s(u, v) ∈ edgeSet g' := by rw [hE]; exact he
      rw [← (hst.mat_weight he').1, piWeight_mk, ← (hs.mat_weight he).1]
      obtain ⟨i, hi, hj⟩ := mem_edgeSet_adj.1 he
      rw [h.mdone i hi u v hj]
      have h1 := hs.mat i hi u v hj
      simp only [content, Prod.mk.injEq] at h1
      rw [h1.2.2.2.1]
      rcases hj with ⟨h1, h2⟩ | ⟨h1, h2⟩
      · rw [h1, h2]
      · rw [h1, h2, add_comm (pi v)]

omit [Rounding] in
/-- Σ over a set in which every node below `n` has degree 2 -/
theorem total_ends {n : Nat} {S : EdgeSet} (h : TourSet n S) (pi : Nat → ℚ) : (∑ e ∈ S, (pi e.inf + pi e.sup)) = 2 * ∑ i ∈ Finset.range n, pi i := by
  have key : ∀ e ∈ S, pi e.inf + pi e.sup = ∑ i ∈ Finset.range n, if i ∈ e then pi i else 0 := by
    intro e he
    induction e using Sym2.ind with
    | _ u v =>
      have hw := h.within u v he
      have hne : u ≠ v := by rintro rfl; exact h.loopless _ he
      have h1 : ∀ i, (if i ∈ s(u, v) then pi i else 0) = (if i = u then pi i else 0) + (if i = v then pi i else 0) := by
        intro i
        simp only [Sym2.mem_iff]
        by_cases a : i = u
        · have b : i ≠ v := by rw [a]; exact hne
          simp [a, hne]
        · by_cases b : i = v
          · simp [b, Ne.symm hne]
          · simp [a, b]
      rw [Finset.sum_congr rfl (fun i _ => h1 i), Finset.sum_add_distrib, Finset.sum_ite_eq', Finset.sum_ite_eq', if_pos hw.1, if_pos hw.2]
      rw [Sym2.inf_mk, Sym2.sup_mk]
      rcases le_total u v with h | h
      · rw [inf_eq_left.2 h, sup_eq_right.2 h]
      · rw [inf_eq_right.2 h, sup_eq_left.2 h, add_comm (pi v)]
  rw [Finset.sum_congr rfl key, Finset.sum_comm, Finset.mul_sum]
  refine Finset.sum_congr rfl ?_
  intro i hi
  rw [← Finset.sum_filter, Finset.sum_const, h.deg i (Finset.mem_range.1 hi)]
  simp [two_mul]

theorem total_piWeight (hx : Exact) {n : Nat} {S : EdgeSet} (h : TourSet n S) (w : Sym2 Nat → ℚ) (pi : Nat → ℚ) :
    total (piWeight w pi) S = total w S + 2 * ∑ i ∈ Finset.range n, pi i := by
  unfold total piWeight
  simp only [reweigh_exact hx]
  rw [Finset.sum_add_distrib, total_ends h]

end Verif
