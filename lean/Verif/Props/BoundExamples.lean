import Verif.Props.Bound
import Verif.Props.FixingExamples

/-!
# C38: large weights break it; an example
-/
namespace Verif
open Verif.Spec
set_option autoImplicit false

namespace Ex

/-- `0 – 4` weighs 6, `1 – 2` 790, `1 – 3` 506, the other pairs 1 -/
def wB (u v : Nat) : ℚ := if (u, v) = (0, 4) then 6 else if (u, v) = (1, 2) then 790 else if (u, v) = (1, 3) then 506 else 1

def cB : Cfg := ⟨5, false, 3 / 1000, 0, 0, 0⟩

/-- candidate 1, best value 511 -/
def probB (g : Graph) : Problem := ⟨g, g, 1, 1, { sub with value := 511 }, 511, 1, 0, 0, false⟩

def cT : Cfg := ⟨5, false, 1 / 1000, 0, 0, 0⟩

/-- the ring `0, 1, 2, 3, 4` weighs 1/5 per edge, `1 – 3` 1/10, the other pairs 2/5 -/
def wT (u v : Nat) : ℚ := if v = u + 1 then 1 / 5 else if (u, v) = (0, 4) then 1 / 5 else if (u, v) = (1, 3) then 1 / 10 else 2 / 5

/-- the triangle `1, 2, 3` and the pair `0 – 4` are close together -/
def wU (u v : Nat) : ℚ := if (u, v) = (1, 2) ∨ (u, v) = (2, 3) ∨ (u, v) = (1, 3) then 1 / 10 else if u = 0 ∧ v = 4 then 1 / 10 else 1 / 2

/-- candidate 0, best value 5/2 -/
def probT (g : Graph) : Problem := ⟨g, g, 0, 1, { sub with value := 5 / 2 }, 5 / 2, 1, 0, 0, false⟩

/-- the hypotheses of C38 hold for a child of the root and weights between 1/10 and 1/2 -/
theorem meets {d : Nat → Nat → ℚ} {g : Graph} {r : (SubProblem × Nat) × Bool} {u v i : Nat} (hd : ∀ u v, u < v → v < 5 → 1 / 10 ≤ d u v ∧ d u v ≤ 1 / 2)
    (hu : u < 5) (hv : v < 5) (huv : u ≠ v) (hl : r.1.1.treeLevel = 2) (hval : r.1.1.value = 0)
    (e : createEuclideanGraph cT (fun a b => d a.pos b.pos) mem (nodes 5) = .ok g) (e1 : child cT (initializeMatrix cT sub) u v i = .ok r) (h1 : r.2 = true) :
    Instance cT (probT g) ∧ Bookkeeping cT.maxV r.1.1 ∧ 0 ≤ cT.eps ∧ Gentle cT (probT g) ∧ RootFree cT.maxV r.1.1 ∧ (probT g).best.value = (probT g).bestValue ∧
      ValidValue cT (probT g) r.1.1 := by
  have hI : Instance cT (probT g) := by
    refine prob_instance (g := g) (d := d) rfl (by decide) (show (0 : Nat) < 5 by decide) ?_ e
    intro u v huv hv
    have := hd u v huv hv
    refine ⟨by linarith, ?_⟩
    have : (1 : ℚ) < FLT_MAX := by unfold FLT_MAX; norm_num
    linarith
  obtain ⟨g', e', st, -, -, hn, -, -, hw⟩ := complete cT mem 5 (by decide) d
  rw [e] at e'; cases e'
  have hm := child_made (Made.root sub) (c := cT) hu hv huv e1 h1
  refine ⟨hI, C34_bookkeeping_partial hm, by norm_num [cT], ?_, fun h => by omega, rfl, ?_⟩
  · refine Gentle.of_weights (B := 1 / 2) ?_ ?_ ?_ ?_
    · intro e he
      induction e using Sym2.ind with
      | _ u v =>
        have h1 := st.within u v he
        rw [hn, Finset.mem_range, Finset.mem_range] at h1
        have h2 : u ≠ v := by rintro rfl; exact st.noloop _ he
        show weight g _ ≤ _
        rcases Nat.lt_or_gt_of_ne h2 with h | h
        · rw [hw u v h h1.2]; exact (hd u v h h1.2).2
        · rw [Sym2.eq_swap, hw v u h h1.1]; exact (hd v u h h1.1).2
    · norm_num [cT, probT]
    · norm_num [cT]
    · norm_num [cT, FLT_MAX]
  · intro _ t ht _
    rw [hval]; exact tourCost_nonneg hI ht.1

/-- `AllowedBy`, apart from the nodes, by computation -/
def allows (n : Nat) (cons : Nat → Nat → CType) (t : List Nat) : Bool := (List.range n).all fun u => (List.range n).all fun v =>
  decide (u = v) || (!decide (cons u v = .mandatory) || decide (s(u, v) ∈ steps t)) && (!decide (cons u v = .forbidden) || !decide (s(u, v) ∈ steps t))

theorem allows_elim {n : Nat} {cons : Nat → Nat → CType} {t : List Nat} (h : allows n cons t = true) (ht : IsTour n t) : AllowedBy n cons t := by
  refine ⟨ht, ?_⟩
  intro u hu v hv huv
  unfold allows at h
  rw [List.all_eq_true] at h
  have h1 := h u (by simpa using hu)
  rw [List.all_eq_true] at h1
  have h2 := h1 v (by simpa using hv)
  simp only [Bool.or_eq_true, Bool.and_eq_true, decide_eq_true_eq, Bool.not_eq_true', decide_eq_false_iff_not, huv, false_or] at h2
  unfold tourEdges
  rw [List.mem_toFinset]
  exact ⟨fun h' => h2.1.resolve_left (fun k => k h'), fun h' => h2.2.resolve_left (fun k => k h')⟩

end Ex

/-- C38 fails for large weights: on five nodes, after requiring `1 – 3` and `2 – 4` and forbidding `0 – 3`, with best value 511, `bound` closes the subproblem as not better than the best value and
leaves the best value as it is, although it allows the tour `1, 3, 4, 2, 0` of length 510 (`EPSILON` is 0.003). -/
theorem C38_fails : ∃ (c : Cfg) (p p' : Problem) (cur cur' : SubProblem) (t : List Nat), Instance c p ∧ Made c cur ∧ cur.treeLevel ≠ 1 ∧ 0 < c.eps ∧ p.best.value = p.bestValue ∧
    ValidValue c p cur ∧ bound c (fun _ => Ex.loc) p cur = .ok (p', cur') ∧ cur'.type = .closedBound ∧
    AllowedBy c.maxV cur.cons t ∧ tourCost (weight p.graph) t < p'.bestValue - c.eps := by
  have h : Ex.okAnd (createEuclideanGraph Ex.cB (fun a b => Ex.wB a.pos b.pos) Ex.mem (Ex.nodes 5)) (fun g =>
      Ex.okAnd (Ex.child Ex.cB (initializeMatrix Ex.cB Ex.sub) 1 3 0) (fun r1 => r1.2 && Ex.okAnd (Ex.child Ex.cB r1.1.1 2 4 0) (fun r2 => r2.2 &&
        Ex.okAnd (Ex.child Ex.cB r2.1.1 0 3 1) (fun r3 => r3.2 &&
          Ex.okAnd (bound Ex.cB (fun _ => Ex.loc) (Ex.probB g) r3.1.1) (fun q => decide (q.2.type = .closedBound) && decide (q.1.bestValue = 511)) && 
          (decide (r3.1.1.treeLevel = 4) && decide (r3.1.1.value = 0) && Ex.allows Ex.cB.maxV r3.1.1.cons [1, 3, 4, 2, 0]))))) = true := by decide +kernel
  obtain ⟨g, e, h⟩ := Ex.okAnd_elim h
  obtain ⟨r1, e1, h⟩ := Ex.okAnd_elim h
  rw [Bool.and_eq_true] at h
  obtain ⟨h1, h⟩ := h
  obtain ⟨r2, e2, h⟩ := Ex.okAnd_elim h
  rw [Bool.and_eq_true] at h
  obtain ⟨h2, h⟩ := h
  obtain ⟨r3, e3, h⟩ := Ex.okAnd_elim h
  simp only [Bool.and_eq_true, decide_eq_true_eq] at h
  obtain ⟨⟨h3, h⟩, ⟨h4, h5⟩, h8⟩ := h
  obtain ⟨q, e4, h⟩ := Ex.okAnd_elim h
  simp only [Bool.and_eq_true, decide_eq_true_eq] at h
  obtain ⟨h6, h7⟩ := h
  have hI : Instance Ex.cB (Ex.probB g) := by
    refine Ex.prob_instance (g := g) (d := Ex.wB) rfl (by decide) (show (1 : Nat) < 5 by decide) ?_ e
    intro u v huv hv
    have : v < 5 := hv
    interval_cases v <;> interval_cases u <;> decide +kernel
  obtain ⟨g', e', -, -, -, -, -, -, hw⟩ := Ex.complete Ex.cB Ex.mem 5 (by decide) Ex.wB
  rw [e] at e'; cases e'
  have hm1 := Ex.child_made (Made.root Ex.sub) (by decide) (by decide) (by decide) e1 h1
  have hm2 := Ex.child_made hm1 (by decide) (by decide) (by decide) e2 h2
  have hm3 := Ex.child_made hm2 (by decide) (by decide) (by decide) e3 h3
  have hc : tourCost (weight g) [1, 3, 4, 2, 0] = 510 := by
    have hs : steps [1, 3, 4, 2, 0] = [s(1, 3), s(3, 4), s(2, 4), s(0, 2), s(0, 1)] := by decide +kernel
    rw [tourCost, hs]
    simp only [List.map_cons, List.map_nil, List.sum_cons, List.sum_nil]
    rw [hw 1 3 (by decide) (by decide), hw 3 4 (by decide) (by decide), hw 2 4 (by decide) (by decide), hw 0 2 (by decide) (by decide), hw 0 1 (by decide) (by decide)]
    decide +kernel
  refine ⟨Ex.cB, Ex.probB g, q.1, r3.1.1, q.2, [1, 3, 4, 2, 0], hI, hm3, by omega, by norm_num [Ex.cB], rfl, ?_, e4, h6, Ex.allows_elim h8 (show [1, 3, 4, 2, 0].Perm (List.range 5) by decide), ?_⟩
  · intro _ t ht _
    rw [h5]; exact tourCost_nonneg hI ht.1
  · rw [h7]
    have : (Ex.probB g).graph = g := rfl
    rw [this, hc]
    norm_num [Ex.cB]

/-- C38: after requiring `1 – 2`, `bound` finds the tour of length 1 by the subgradient method and closes the subproblem. -/
example : ∃ (p p' : Problem) (cur cur' : SubProblem), Instance Ex.cT p ∧ Bookkeeping Ex.cT.maxV cur ∧ 0 ≤ Ex.cT.eps ∧ Gentle Ex.cT p ∧ RootFree Ex.cT.maxV cur ∧
    p.best.value = p.bestValue ∧ ValidValue Ex.cT p cur ∧ bound Ex.cT (fun _ => Ex.loc) p cur = .ok (p', cur') ∧
    cur.cons 1 2 = .mandatory ∧ cur'.type = .closedSubgradient ∧ p.bestValue = 5 / 2 ∧ p'.bestValue = 1 := by
  have h : Ex.okAnd (createEuclideanGraph Ex.cT (fun a b => Ex.wT a.pos b.pos) Ex.mem (Ex.nodes 5)) (fun g =>
      Ex.okAnd (Ex.child Ex.cT (initializeMatrix Ex.cT Ex.sub) 1 2 0) (fun r1 => (r1.2 && (decide (r1.1.1.treeLevel = 2) && decide (r1.1.1.value = 0))) &&
        (decide (r1.1.1.cons 1 2 = .mandatory) &&
        Ex.okAnd (bound Ex.cT (fun _ => Ex.loc) (Ex.probT g) r1.1.1) (fun q => decide (q.2.type = .closedSubgradient) && decide (q.1.bestValue = 1))))) = true := by
    decide +kernel
  obtain ⟨g, e, h⟩ := Ex.okAnd_elim h
  obtain ⟨r, e1, h⟩ := Ex.okAnd_elim h
  simp only [Bool.and_eq_true, decide_eq_true_eq] at h
  obtain ⟨⟨h1, hl, hv⟩, hm, h⟩ := h
  obtain ⟨⟨p', cur'⟩, e2, h⟩ := Ex.okAnd_elim h
  simp only [Bool.and_eq_true, decide_eq_true_eq] at h
  obtain ⟨k1, k2, k3, k4, k5, k6, k7⟩ := Ex.meets (d := Ex.wT) (by
    intro u v huv hv
    interval_cases v <;> interval_cases u <;> decide +kernel) (by decide) (by decide) (by decide) hl hv e e1 h1
  exact ⟨Ex.probT g, p', r.1.1, cur', k1, k2, k3, k4, k5, k6, k7, e2, hm, h.1, rfl, h.2⟩

/-- C38: after requiring `1 – 4`, `bound` leaves the subproblem open with the branching edge it found. -/
example : ∃ (p p' : Problem) (cur cur' : SubProblem), Instance Ex.cT p ∧ Bookkeeping Ex.cT.maxV cur ∧ 0 ≤ Ex.cT.eps ∧ Gentle Ex.cT p ∧ RootFree Ex.cT.maxV cur ∧
    p.best.value = p.bestValue ∧ ValidValue Ex.cT p cur ∧ bound Ex.cT (fun _ => Ex.loc) p cur = .ok (p', cur') ∧
    cur.cons 1 4 = .mandatory ∧ cur'.type = .opened ∧ 0 < cur'.value ∧ cur'.edgeToBranch ≠ -1 := by
  have h : Ex.okAnd (createEuclideanGraph Ex.cT (fun a b => Ex.wU a.pos b.pos) Ex.mem (Ex.nodes 5)) (fun g =>
      Ex.okAnd (Ex.child Ex.cT (initializeMatrix Ex.cT Ex.sub) 1 4 0) (fun r1 => (r1.2 && (decide (r1.1.1.treeLevel = 2) && decide (r1.1.1.value = 0))) &&
        (decide (r1.1.1.cons 1 4 = .mandatory) &&
        Ex.okAnd (bound Ex.cT (fun _ => Ex.loc) (Ex.probT g) r1.1.1) (fun q => decide (q.2.type = .opened) && (decide (0 < q.2.value) &&
          decide (q.2.edgeToBranch ≠ -1)))))) = true := by
    decide +kernel
  obtain ⟨g, e, h⟩ := Ex.okAnd_elim h
  obtain ⟨r, e1, h⟩ := Ex.okAnd_elim h
  simp only [Bool.and_eq_true, decide_eq_true_eq] at h
  obtain ⟨⟨h1, hl, hv⟩, hm, h⟩ := h
  obtain ⟨⟨p', cur'⟩, e2, h⟩ := Ex.okAnd_elim h
  simp only [Bool.and_eq_true, decide_eq_true_eq] at h
  obtain ⟨k1, k2, k3, k4, k5, k6, k7⟩ := Ex.meets (d := Ex.wU) (by
    intro u v huv hv
    interval_cases v <;> interval_cases u <;> decide +kernel) (by decide) (by decide) (by decide) hl hv e e1 h1
  exact ⟨Ex.probT g, p', r.1.1, cur', k1, k2, k3, k4, k5, k6, k7, e2, hm, h.1, h.2.1, h.2.2⟩

end Verif
