import Verif.Props.Fixing
import Verif.Props.BranchExamples

/-!
# C37 meets a non-trivial case
-/
namespace Verif
open Verif.Spec
set_option autoImplicit false

namespace Ex

def c5 : Cfg := ⟨5, false, 0, 0, 0, 0⟩
def mem : Graph := ⟨0, 0, 0, false, fun _ => ⟨0, 0, 0, 0, fun _ => 0⟩, fun _ => ⟨0, 0, 0, 0, 0, 0⟩, fun _ _ => ⟨0, 0, 0, 0, 0, 0⟩⟩
def loc : PState := ⟨⟨fun _ => 0, fun _ => 0, fun _ => none, fun _ => 0, fun _ => 0, fun _ => none, fun _ => none, fun _ => 0, fun _ => false, fun _ => false,
  none, none, none, 0, 0⟩, fun _ => false, fun _ => none⟩

/-- `0 – 1`, `1 – 2`, `2 – 3`, `3 – 4` weigh 1, `0 – 2` 2, `0 – 4` 3, the other pairs 5 -/
def w5 (u v : Nat) : ℚ := if v = u + 1 then 1 else if (u, v) = (0, 2) then 2 else if (u, v) = (0, 4) then 3 else 5

/-- the problem with this graph, candidate 0 and best value 8 -/
def prob (g : Graph) : Problem := ⟨g, g, 0, 1, sub, 8, 1, 0, 0, false⟩

theorem prob_instance {c : Cfg} {g : Graph} {p : Problem} {d : Nat → Nat → ℚ} (hp : p.graph = g) (h3 : 3 ≤ c.maxV) (hc : p.cand < c.maxV)
    (hd : ∀ u v, u < v → v < c.maxV → 0 ≤ d u v ∧ d u v < FLT_MAX) (e : createEuclideanGraph c (fun a b => d a.pos b.pos) mem (nodes c.maxV) = .ok g) : Instance c p := by
  obtain ⟨g', e', st, ps, ho, hn', hm, hE, hw⟩ := complete c mem c.maxV (le_refl _) d
  rw [e] at e'; cases e'
  have hlen : (nodes c.maxV).length = c.maxV := by simp [nodes]
  obtain ⟨g', e', -, -, -, -, -, -, -, -, hpos⟩ := C52_complete (c := c) (mem := mem) (dist := fun a b => d a.pos b.pos) (l := nodes c.maxV)
    (by intro i hi; simp [nodes]) (by rw [hlen])
  rw [e] at e'; cases e'
  have hb : ∀ e ∈ edgeSet g, 0 ≤ weight g e ∧ weight g e < FLT_MAX := by
    intro e he
    induction e using Sym2.ind with
    | _ u v =>
      have h1 := st.within u v he
      rw [hn', Finset.mem_range, Finset.mem_range] at h1
      have h2 : u ≠ v := by rintro rfl; exact st.noloop _ he
      rcases Nat.lt_or_gt_of_ne h2 with h | h
      · rw [hw u v h h1.2]; exact hd u v h h1.2
      · rw [Sym2.eq_swap, hw v u h h1.1]; exact hd v u h h1.1
  refine ⟨by rw [hp]; exact st, by rw [hp]; exact ps, by rw [hp]; exact hn', by rw [hp]; exact maxE_bound (le_refl _) hm, h3, hc, ?_, by rw [hp]; exact hE, ?_, ?_⟩
  · rw [hp]; intro u hu; exact (hpos u (by rw [hlen]; exact hu)).1
  · rw [hp]; exact fun e he => (hb e he).1
  · rw [hp]; exact fun e he => (hb e he).2

end Ex

/-- C37: on this graph the 1-tree with candidate 0 costs 6; with best value 8, `variable_fixing` forbids four edges and requires three; the tour
`0,1,2,3,4` of length 7 is still allowed. -/
example : ∃ (p : Problem) (sp sp1 sp2 sp3 : SubProblem), Instance Ex.c5 p ∧ Bookkeeping Ex.c5.maxV sp ∧
    constrainedPrim Ex.c5 p.graph.numNodes p.graph sp p.cand Ex.loc = .ok sp1 ∧ sp1.oneTree.isValid = true ∧
    mstToOneTree Ex.c5 p.graph sp1 p.cand = .ok (.opened, sp2) ∧ sp2.oneTree.cost = 6 ∧ variableFixing Ex.c5 p sp2 = .ok (sp3, 7) ∧
    sp3.cons 1 3 = .forbidden ∧ sp3.cons 2 3 = .mandatory ∧ sp3.cons 0 4 = .nothing := by
  have h : Ex.okAnd (createEuclideanGraph Ex.c5 (fun a b => Ex.w5 a.pos b.pos) Ex.mem (Ex.nodes 5)) (fun g =>
      Ex.okAnd (constrainedPrim Ex.c5 g.numNodes g (initializeMatrix Ex.c5 Ex.sub) 0 Ex.loc) (fun sp1 => sp1.oneTree.isValid &&
        Ex.okAnd (mstToOneTree Ex.c5 g sp1 0) (fun r => decide (r.1 = .opened) && decide (r.2.oneTree.cost = 6) &&
          Ex.okAnd (variableFixing Ex.c5 (Ex.prob g) r.2) (fun q => decide (q.2 = 7) && decide (q.1.cons 1 3 = .forbidden) &&
            decide (q.1.cons 2 3 = .mandatory) && decide (q.1.cons 0 4 = .nothing))))) = true := by decide +kernel
  obtain ⟨g, e, h⟩ := Ex.okAnd_elim h
  obtain ⟨sp1, e1, h⟩ := Ex.okAnd_elim h
  rw [Bool.and_eq_true] at h
  obtain ⟨hv, h⟩ := h
  obtain ⟨⟨ty, sp2⟩, e2, h⟩ := Ex.okAnd_elim h
  simp only [Bool.and_eq_true, decide_eq_true_eq] at h
  obtain ⟨⟨rfl, h2⟩, h⟩ := h
  obtain ⟨⟨sp3, k⟩, e3, h⟩ := Ex.okAnd_elim h
  simp only [Bool.and_eq_true, decide_eq_true_eq] at h
  obtain ⟨⟨⟨rfl, h3⟩, h4⟩, h5⟩ := h
  refine ⟨Ex.prob g, _, sp1, sp2, sp3, ?_, C34_bookkeeping_partial (Made.root Ex.sub), e1, hv, e2, h2, e3, h3, h4, h5⟩
  refine Ex.prob_instance (g := g) (d := Ex.w5) rfl (by decide) (show (0 : Nat) < 5 by decide) ?_ e
  intro u v huv hv
  have : v < 5 := hv
  interval_cases v <;> interval_cases u <;> decide +kernel

end Verif
