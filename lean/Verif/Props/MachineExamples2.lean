import Verif.Props.Machine
import Verif.Props.BoundExamples

/-!
# C37 and C38 on the machine meet a non-trivial case
-/
namespace Verif
open Verif.Spec
set_option autoImplicit false

attribute [local instance 2000] nearest

namespace Ex

/-- the ring `0, 1, 2, 3, 4` weighs 1/4 per edge, `1 – 3` 1/8, the other pairs 1/2 -/
def wE (u v : Nat) : ℚ := if v = u + 1 then 1 / 4 else if (u, v) = (0, 4) then 1 / 4 else if (u, v) = (1, 3) then 1 / 8 else 1 / 2

theorem weight_each {c : Cfg} {g : Graph} {d : Nat → Nat → ℚ} {Q : ℚ → Prop} (h3 : 3 ≤ c.maxV) (hd : ∀ u v, u < v → v < c.maxV → Q (d u v))
    (e : @createEuclideanGraph exactArith c (fun a b => d a.pos b.pos) mem (nodes c.maxV) = .ok g) : ∀ e ∈ edgeSet g, Q (weight g e) := by
  obtain ⟨g', e', st, ps, ho, hn', hm, hE, hw⟩ := complete c mem c.maxV (le_refl _) d
  rw [e] at e'; cases e'
  intro e he
  induction e using Sym2.ind with
  | _ u v =>
    have h1 := st.within u v he
    rw [hn', Finset.mem_range, Finset.mem_range] at h1
    have h2 : u ≠ v := by rintro rfl; exact st.noloop _ he
    rcases Nat.lt_or_gt_of_ne h2 with h | h
    · rw [hw u v h h1.2]; exact hd u v h h1.2
    · rw [Sym2.eq_swap, hw v u h h1.1]; exact hd v u h h1.1

end Ex

/-- C37 on the machine: rounding to the nearest, the graph of the example in `FixingExamples`; seven pairs are fixed, and `128 / 2 ^ 53` bounds the error of an operation. -/
example : ∃ (p : Problem) (sp sp1 sp2 sp3 : SubProblem) (z : Scale), Instance Ex.c5 p ∧ Bookkeeping Ex.c5.maxV sp ∧
    constrainedPrim Ex.c5 p.graph.numNodes p.graph sp p.cand Ex.loc = .ok sp1 ∧ sp1.oneTree.isValid = true ∧
    mstToOneTree Ex.c5 p.graph sp1 p.cand = .ok (.opened, sp2) ∧ variableFixing Ex.c5 p sp2 = .ok (sp3, 7) ∧ Fine z Ex.c5 p ∧ z.slack Ex.c5.maxV < 1 / 10 ^ 12 := by
  have h : Ex.okAnd (@createEuclideanGraph exactArith Ex.c5 (fun a b => Ex.w5 a.pos b.pos) Ex.mem (Ex.nodes 5)) (fun g =>
      Ex.okAnd (constrainedPrim Ex.c5 g.numNodes g (initializeMatrix Ex.c5 Ex.sub) 0 Ex.loc) (fun sp1 => sp1.oneTree.isValid &&
        Ex.okAnd (mstToOneTree Ex.c5 g sp1 0) (fun r => decide (r.1 = .opened) &&
          Ex.okAnd (variableFixing Ex.c5 (Ex.prob g) r.2) (fun q => decide (q.2 = 7))))) = true := by decide +kernel
  obtain ⟨g, e, h⟩ := Ex.okAnd_elim h
  obtain ⟨sp1, e1, h⟩ := Ex.okAnd_elim h
  rw [Bool.and_eq_true] at h
  obtain ⟨hv, h⟩ := h
  obtain ⟨⟨ty, sp2⟩, e2, h⟩ := Ex.okAnd_elim h
  simp only [Bool.and_eq_true, decide_eq_true_eq] at h
  obtain ⟨rfl, h⟩ := h
  obtain ⟨⟨sp3, k⟩, e3, h⟩ := Ex.okAnd_elim h
  simp only [decide_eq_true_eq] at h
  subst h
  refine ⟨Ex.prob g, _, sp1, sp2, sp3, ⟨8, 5, 1 / 2 ^ 53 * 128⟩, ?_, C34_bookkeeping_partial (Made.root Ex.sub), e1, hv, e2, e3, ?_, ?_⟩
  · refine Ex.prob_instance (g := g) (d := Ex.w5) rfl (by decide) (show (0 : Nat) < 5 by decide) ?_ e
    intro u v huv hv
    have : v < 5 := hv
    interval_cases v <;> interval_cases u <;> decide +kernel
  · refine ⟨(precise_machine.1 128 (by norm_num)).mono (by norm_num [Ex.c5]), by norm_num, by norm_num, le_refl _, ?_, by norm_num [Ex.c5]⟩
    refine Ex.weight_each (Q := fun x => x ≤ 5 ∧ fl x = x) (c := Ex.c5) (by decide) ?_ e
    intro u v huv hv
    have : v < 5 := hv
    interval_cases v <;> interval_cases u <;> decide +kernel
  · norm_num [Scale.slack, Ex.c5]

/-- C38 on the machine: rounding to the nearest; after requiring `1 – 2`, `bound` finds the tour of length 5/4 by the subgradient method and closes the subproblem. -/
example : ∃ (p p' : Problem) (cur cur' : SubProblem) (z : Scale), Instance Ex.cT p ∧ Bookkeeping Ex.cT.maxV cur ∧ 0 ≤ Ex.cT.eps ∧ Fits z Ex.cT p ∧ RootFree Ex.cT.maxV cur ∧
    p.best.value = p.bestValue ∧ ValidUpTo z Ex.cT p cur ∧ bound Ex.cT (fun _ => Ex.loc) p cur = .ok (p', cur') ∧
    cur.cons 1 2 = .mandatory ∧ cur'.type = .closedSubgradient ∧ p.bestValue = 5 / 2 ∧ p'.bestValue = 5 / 4 ∧ z.slack Ex.cT.maxV < 1 / 10 ^ 9 := by
  have h : Ex.okAnd (@createEuclideanGraph exactArith Ex.cT (fun a b => Ex.wE a.pos b.pos) Ex.mem (Ex.nodes 5)) (fun g =>
      Ex.okAnd (Ex.child Ex.cT (initializeMatrix Ex.cT Ex.sub) 1 2 0) (fun r1 => (r1.2 && (decide (r1.1.1.treeLevel = 2) && decide (r1.1.1.value = 0))) &&
        (decide (r1.1.1.cons 1 2 = .mandatory) &&
        Ex.okAnd (bound Ex.cT (fun _ => Ex.loc) (Ex.probT g) r1.1.1) (fun q => decide (q.2.type = .closedSubgradient) && decide (q.1.bestValue = 5 / 4))))) = true := by
    decide +kernel
  obtain ⟨g, e, h⟩ := Ex.okAnd_elim h
  obtain ⟨r, e1, h⟩ := Ex.okAnd_elim h
  simp only [Bool.and_eq_true, decide_eq_true_eq] at h
  obtain ⟨⟨h1, hl, hv⟩, hm, h⟩ := h
  obtain ⟨⟨p', cur'⟩, e2, h⟩ := Ex.okAnd_elim h
  simp only [Bool.and_eq_true, decide_eq_true_eq] at h
  obtain ⟨k1, k2, k3, k4, k5, k6, k7⟩ := Ex.meets (d := Ex.wE) (by
    intro u v huv hv
    interval_cases v <;> interval_cases u <;> decide +kernel) (by decide) (by decide) (by decide) hl hv e e1 h1
  have hw := Ex.weight_each (Q := fun x => x ≤ 1 / 2 ∧ fl x = x) (c := Ex.cT) (d := Ex.wE) (by decide) (by
    intro u v huv hv
    have : v < 5 := hv
    interval_cases v <;> interval_cases u <;> decide +kernel) e
  have hT : Scale.T ⟨5 / 2, 1 / 2, 1 / 2 ^ 53 * 20000⟩ 5 = 1 / 4 := by decide +kernel
  have hr : rootSteps 5 = 31 := rfl
  have hk : nodeSteps 5 = 16 := rfl
  refine ⟨Ex.probT g, p', r.1.1, cur', ⟨5 / 2, 1 / 2, 1 / 2 ^ 53 * 20000⟩, k1, k2, k3, ?_, k5, k6, ?_, e2, hm, h.1, rfl, h.2, ?_⟩
  · refine ⟨(precise_machine.1 20000 (by norm_num)).mono ?_, ?_, by norm_num, by norm_num, le_refl _, hw, ?_, ?_, ?_⟩
    · show Scale.need _ _ 5 (rootSteps 5) ≤ _
      rw [hr]; unfold Scale.need Scale.P Scale.drift; rw [hT]; norm_num [Ex.cT]
    · intro m hm
      have hm : m ≤ 2 * (31 * 31) := hm
      have := fl_int (m : ℤ) (by rw [abs_of_nonneg (by positivity)]; norm_num; omega)
      simpa using this
    · show Scale.drift _ 5 (rootSteps 5) ≤ _
      rw [hr]; unfold Scale.drift; rw [hT]; norm_num
    · show Scale.T _ 5 * nodeSteps 5 + 2 * nodeSteps 5 * Scale.drift _ 5 (nodeSteps 5) + _ ≤ ((5 : Nat) : ℚ)
      rw [hk]; unfold Scale.drift; rw [hT]; norm_num
    · intro e he
      have h3 := (hw e he).1
      show _ + ((5 : Nat) : ℚ) * Scale.T _ 5 * rootSteps 5 + 2 * rootSteps 5 * Scale.drift _ 5 (rootSteps 5) + _ < FLT_MAX
      rw [hr]; unfold Scale.drift; rw [hT]
      have : (10 : ℚ) ^ 30 ≤ FLT_MAX := by unfold FLT_MAX; norm_num
      have h4 : weight (Ex.probT g).graph e ≤ 1 / 2 := h3
      refine lt_of_lt_of_le ?_ this
      norm_num
      linarith
  · intro _ t ht _
    rw [hv]
    refine le_trans (tourCost_nonneg k1 ht.1) ?_
    have : (0 : ℚ) ≤ Scale.gap ⟨5 / 2, 1 / 2, 1 / 2 ^ 53 * 20000⟩ Ex.cT.maxV := by norm_num [Scale.gap]; positivity
    linarith
  · norm_num [Scale.slack, Ex.cT]

end Verif
