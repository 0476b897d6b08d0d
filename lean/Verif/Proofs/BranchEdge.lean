import Verif.Proofs.Bound5
import Verif.Spec.BranchRule

/-!
# The branching edge: the scores are frequencies, and the choice follows the rule
-/
namespace Verif
open Verif.Spec
set_option autoImplicit false

variable [Rounding] {c : Cfg} {p : Problem} {cur : SubProblem}

/-- the trace of the loop of `bound`: the generated subproblems and the scores -/
structure Trace (c : Cfg) (p : Problem) (N iter : Nat) (s : BState) : Prop where
  len : s.gen.length = iter - 1
  score : Exact → ∀ j < p.graph.numEdges, s.score j = frequency (s.gen.drop (N - 10)) (epair (p.graph.edges j))

omit [Rounding] in
theorem frequency_append (a : SubProblem) (l : List SubProblem) (e : Sym2 Nat) :
    frequency (l ++ [a]) e = frequency l e + if e ∈ treeEdges a.oneTree then 1 / 10 else 0 := by
  unfold frequency
  rw [List.filter_append, List.length_append]
  split
  · next h => simp [h, add_div]
  · next h => simp [h]

theorem boundIter_trace (h : Instance c p) (hb : Bookkeeping c.maxV cur) {N iter : Nat} (h1 : 1 ≤ iter)
    {s s' : BState} {loc : PState} (hi : BInv c p cur N iter s) (ht : Trace c p N iter s) (e : boundIter c cur loc N iter s = .ok (.inl s')) : Trace c p N (iter + 1) s' := by
  have hg : s.prob.graph = p.graph := by rw [hi.prob]
  have hc : s.prob.cand = p.cand := by rw [hi.prob]
  have hbv : s.prob.bestValue = p.bestValue := by rw [hi.prob]
  have hf : (s.first = true ∧ ∀ i, s.pi i = 0) ∨ (s.first = false ∧ s.prob.reform = p.graph) := by
    by_cases h' : iter = 1
    · exact Or.inl ⟨(hi.start h').1, (hi.start h').2.2.1⟩
    · exact Or.inr ⟨(hi.later h').1, (hi.later h').2.1⟩
  obtain ⟨p1, -, h'⟩ := boundIter_ok h hb hg hc hbv hf e
  rcases h' with ⟨h', -⟩ | ⟨a, L, -, -, h', -⟩ | ⟨a, t, -, h', -⟩ | ⟨a, L, sc, hk, hr, -, hsc, -⟩
  · cases h'
  · cases h'
  · cases h'
  cases hr
  have hL := ht.len
  refine ⟨by simp [dualUpdate, hL]; omega, ?_⟩
  intro hx j hj
  show sc j = frequency ((s.gen ++ [a]).drop (N - 10)) (epair (p.graph.edges j))
  rw [hsc j hj, bump_exact hx, ht.score hx j hj]
  have hte : treeEdges a.oneTree = pairs L := hk.rep.treeEdges
  by_cases hit : iter > N - 10
  · rw [List.drop_append_of_le_length (by omega), frequency_append, hte]
    split
    · next h' => rw [if_pos h'.2]
    · next h' => rw [if_neg fun h'' => h' ⟨hit, h''⟩, add_zero]
  · have d1 : s.gen.drop (N - 10) = [] := List.drop_of_length_le (by omega)
    have d2 : (s.gen ++ [a]).drop (N - 10) = [] := List.drop_of_length_le (by rw [List.length_append, hL]; simp; omega)
    rw [d1, d2, if_neg (fun h => hit h.1)]

theorem boundLoop_trace (h : Instance c p) (hb : Bookkeeping c.maxV cur) (heps : 0 ≤ c.eps) {N : Nat} (hN : 3 ≤ N) (loc : Nat → PState) :
    ∀ (left iter : Nat) (s s' : BState), 1 ≤ iter → iter + left = N + 1 → BInv c p cur N iter s → Trace c p N iter s →
    boundLoop c cur loc N left iter s = .ok (.inl s') → Trace c p N (N + 1) s' := by
  intro left
  induction left with
  | zero =>
    intro iter s s' h1 h2 _ ht e
    cases e
    rw [← h2]; exact ht
  | succ left ih =>
    intro iter s s' h1 h2 hi ht e
    rw [boundLoop] at e
    obtain ⟨x, e1, e2⟩ := bind_eq_ok.1 e
    rcases boundIter_inv h hb heps hN h1 (by omega) hi e1 with ⟨s1, rfl, hs1⟩ | ⟨p', ty, rfl, -⟩
    · exact ih (iter + 1) s1 s' (by omega) (by omega) hs1 (boundIter_trace h hb h1 hi ht e1) e2
    · cases e2

/-- the choice of the branching edge follows the rule -/
theorem pickEdge_rule (c : Cfg) (g : Graph) (cur best : SubProblem) (score : Nat → ℚ) (hs : ∀ j, 0 ≤ score j ∧ score j ≤ 10 / 8) (e0 : Int) (k : Nat) :
    let r := (List.range k).foldl (pickEdge c g cur best score) (-1, -1, e0)
    (r.2.2 = e0 ∧ r.1 = -1 ∧ ∀ i < k, ¬ (cur.cons (g.edges i).src (g.edges i).dest = .nothing ∧ best.oneTree.mat (g.edges i).src (g.edges i).dest ≠ -1)) ∨
    ∃ i < k, r = (score i, (g.edges i).prob, (i : Int)) ∧ (cur.cons (g.edges i).src (g.edges i).dest = .nothing ∧ best.oneTree.mat (g.edges i).src (g.edges i).dest ≠ -1) ∧
      ∀ j < k, cur.cons (g.edges j).src (g.edges j).dest = .nothing ∧ best.oneTree.mat (g.edges j).src (g.edges j).dest ≠ -1 →
        Preferred c.hybrid (fun i => 1 / 2 + |fl (score i - 1 / 2)|) (fun i => (g.edges i).prob) i j := by
  have h3 : |fl ((-1 : ℚ) - 1 / 2)| = 3 / 2 := by
    have := Rounding.exact (-3) (-1) (by norm_num) (by norm_num)
    have h' : (-1 : ℚ) - 1 / 2 = ((-3 : ℤ) : ℚ) * 2 ^ (-1 : ℤ) := by norm_num
    rw [h', this, ← h', abs_of_neg] <;> norm_num
  have hlt : ∀ j, |fl (score j - 1 / 2)| < 3 / 2 := by
    intro j
    have hj := hs j
    have e1 := Rounding.exact (-1) (-1) (by norm_num) (by norm_num)
    have e2 := Rounding.exact 1 0 (by norm_num) (by norm_num)
    have h1 := fl_mono (show ((-1 : ℤ) : ℚ) * 2 ^ (-1 : ℤ) ≤ score j - 1 / 2 by norm_num; linarith)
    have h2 := fl_mono (show score j - 1 / 2 ≤ ((1 : ℤ) : ℚ) * 2 ^ (0 : ℤ) by norm_num; linarith)
    rw [e1] at h1
    rw [e2] at h2
    norm_num at h1 h2
    rw [abs_lt]
    constructor <;> linarith
  have hK : ∀ x : ℚ, |1 / 2 + |x| - 1 / 2| = |x| := fun x => by rw [add_sub_cancel_left, abs_abs]
  unfold Preferred
  simp only [hK]
  induction k with
  | zero => simp
  | succ k ih =>
    rw [List.range_succ, List.foldl_append, List.foldl_cons, List.foldl_nil]
    generalize (List.range k).foldl (pickEdge c g cur best score) (-1, -1, e0) = r at ih
    unfold pickEdge
    simp only
    by_cases hcond : cur.cons (g.edges k).src (g.edges k).dest = .nothing ∧ best.oneTree.mat (g.edges k).src (g.edges k).dest ≠ -1 ∧
      (|fl (score k - 1 / 2)| < |fl (r.1 - 1 / 2)| ∨ (c.hybrid = true ∧ |fl (score k - 1 / 2)| = |fl (r.1 - 1 / 2)| ∧ (g.edges k).prob > r.2.1))
    · rw [if_pos hcond]
      have h := hcond
      refine Or.inr ⟨k, by omega, rfl, ⟨h.1, h.2.1⟩, ?_⟩
      intro j hj hjf
      by_cases hjk : j = k
      · subst hjk
        refine Or.inr ⟨rfl, ?_⟩
        split
        · exact Or.inr ⟨rfl, le_refl _⟩
        · exact le_refl _
      rcases ih with ⟨-, -, hno⟩ | ⟨i, hi, rfl, -, hall⟩
      · exact absurd hjf (hno j (by omega))
      · have := hall j (by omega) hjf
        simp only at h
        rcases h.2.2 with h' | ⟨hy, h', hp⟩
        · left
          rcases this with h'' | ⟨h'', -⟩
          · linarith
          · linarith
        · rw [h']
          rcases this with h'' | ⟨h'', hr⟩
          · exact Or.inl h''
          · refine Or.inr ⟨h'', ?_⟩
            rw [hy] at hr ⊢
            simp only [if_true] at hr ⊢
            left
            rcases hr with hr | ⟨hr, -⟩ <;> linarith
    · rw [if_neg hcond]
      have h := hcond
      rcases ih with ⟨h1, h2, hno⟩ | ⟨i, hi, rfl, hf, hall⟩
      · refine Or.inl ⟨h1, h2, ?_⟩
        intro i hi hcon
        by_cases hik : i = k
        · subst hik
          refine h ⟨hcon.1, hcon.2, Or.inl ?_⟩
          rw [h2, h3]; exact hlt i
        · exact hno i (by omega) hcon
      · refine Or.inr ⟨i, by omega, rfl, hf, ?_⟩
        intro j hj hjf
        by_cases hjk : j = k
        · subst hjk
          simp only at h
          have hn : ¬ (|fl (score j - 1 / 2)| < |fl (score i - 1 / 2)| ∨ (c.hybrid = true ∧ |fl (score j - 1 / 2)| = |fl (score i - 1 / 2)| ∧ (g.edges j).prob > (g.edges i).prob)) :=
            fun h' => h ⟨hjf.1, hjf.2, h'⟩
          push Not at hn
          rcases lt_or_eq_of_le hn.1 with h' | h'
          · exact Or.inl h'
          · refine Or.inr ⟨h', ?_⟩
            split
            · next hy =>
              rcases lt_or_eq_of_le (hn.2 hy h'.symm) with h'' | h''
              · exact Or.inl h''
              · exact Or.inr ⟨h'', by omega⟩
            · omega
        · exact hall j (by omega) hjf

omit [Rounding] in
/-- the choice among the generated subproblems: the first one, or the first among those of the largest value below the bound -/
theorem pickBest_rule (lb : ℚ) (a : SubProblem) (l : List SubProblem) :
    ∃ A b B, a :: l = A ++ b :: B ∧ (a :: l).foldl (pickBest lb) a = b ∧ (A ≠ [] → b.value ≤ lb ∧ a.value < b.value) ∧ (∀ x ∈ A, x.value ≤ lb → x.value < b.value) ∧
      (∀ x ∈ B, x.value ≤ lb → x.value ≤ b.value) := by
  have h0 : pickBest lb a a = a := by unfold pickBest; split <;> rfl
  rw [List.foldl_cons, h0]
  induction l using List.reverseRecOn with
  | nil => exact ⟨[], a, [], rfl, rfl, by simp, by simp, by simp⟩
  | append_singleton l x ih =>
    obtain ⟨A, b, B, h1, h2, h3, h4, h5⟩ := ih
    rw [List.foldl_append, List.foldl_cons, List.foldl_nil, h2]
    unfold pickBest
    split
    · next h =>
      refine ⟨a :: l, x, [], by simp, rfl, ?_, ?_, by simp⟩
      · intro _
        refine ⟨h.2, ?_⟩
        by_cases hA : A = []
        · subst hA; simp only [List.nil_append, List.cons.injEq] at h1; rw [h1.1]; exact h.1
        · exact (h3 hA).2.trans h.1
      · intro y hy hyl
        rw [h1] at hy
        simp only [List.mem_append, List.mem_cons] at hy
        rcases hy with hy | rfl | hy
        · exact (h4 y hy hyl).trans h.1
        · exact h.1
        · exact (h5 y hy hyl).trans_lt h.1
    · next h =>
      refine ⟨A, b, B ++ [x], ?_, rfl, h3, h4, ?_⟩
      · rw [← List.cons_append, h1]; simp
      · intro y hy hyl
        simp only [List.mem_append, List.mem_singleton] at hy
        rcases hy with hy | rfl
        · exact h5 y hy hyl
        · by_contra hlt
          exact h ⟨not_le.1 hlt, hyl⟩

end Verif
