import Verif.Proofs.Search1

/-!
# What one round of the main loop does
-/
namespace Verif
open Verif.Spec
set_option autoImplicit false

variable [Rounding] {c : Cfg} {env : Env}

/-- the effect of one round on the problem, on the open list and on the tours -/
structure Rounded (c : Cfg) (p : Problem) (cur : SubProblem) (rest : List SubProblem) (p' : Problem) (o' : List SubProblem) (kids : List SubProblem) (v : ℚ) : Prop where
  graph : p'.graph = p.graph
  cand : p'.cand = p.cand
  interrupted : p'.interrupted = p.interrupted
  best : (p'.bestValue = p.bestValue ∧ p'.best = p.best) ∨
    (c.eps < fl (p.bestValue - p'.bestValue) ∧ p'.best.value = p'.bestValue ∧ ∃ t, Solution c.maxV (weight p.graph) p'.best t)
  perm : o'.Perm (kids ++ rest)
  two : kids.length ≤ 2
  child : ∀ k ∈ kids, ChildOf c { cur with value := v } k
  explored : p'.explored ≤ p.explored + 1 ∧ p.explored ≤ p'.explored
  covers : ∀ z, Tame z c p cur (maxIter c cur.treeLevel) → ValidUpTo z c p cur → ∀ t, AllowedBy c.maxV cur.cons t → tourCost (weight p.graph) t < p'.bestValue - c.eps - z.slack c.maxV →
    ∃ k ∈ kids, AllowedBy c.maxV k.cons t
  values : ∀ z, Tame z c p cur (maxIter c cur.treeLevel) → ∀ k ∈ kids, ∀ t, AllowedBy c.maxV k.cons t → tourCost (weight p.graph) t < p.bestValue - z.slack c.maxV →
    k.value ≤ tourCost (weight p.graph) t + z.gap c.maxV

theorem bbRound_ok {k : Nat} {p p' : Problem} {cur : SubProblem} {rest o' : List SubProblem} (h : Instance c p) (hb : Bookkeeping c.maxV cur) (heps : 0 ≤ c.eps)
    (hbest : p.best.value = p.bestValue) (hedge : cur.edgeToBranch = -1) (e : bbRound c env k p cur rest = .ok (p', o')) :
    ∃ kids v, Rounded c p cur rest p' o' kids v ∧
      ((kids = [] ∧ p'.generated = p.generated ∧ p'.totLevels = p.totLevels ∧ Makes c env k p cur rest [] ∧ ∀ new, Makes c env k p cur rest new → new = []) ∨
       (p'.generated = p.generated + 2 ∧ p'.totLevels = newLevels p cur ∧ (∀ x ∈ kids, x.id = p.generated + 1 ∨ x.id = p.generated + 2) ∧ (kids.map SubProblem.id).Nodup ∧
         ∀ new, Makes c env k p cur rest new → ∃ a b, new = [a, b] ∧ a.id = p.generated + 1 ∧ b.id = p.generated + 2 ∧
           ∀ x ∈ new, x.fatherId = cur.id ∧ x.treeLevel = cur.treeLevel + 1)) := by
  obtain ⟨p1, cur1, e1, hcase⟩ := bbRound_cases e
  have hB := bound_ok h hb heps hbest e1
  obtain ⟨g, j, hsame, hj⟩ := hB.same
  have hfr := hB.frame
  have hcons : cur1.cons = cur.cons := by rw [hfr]
  have hg1 : p1.graph = p.graph := by rw [hsame]
  rcases hcase with ⟨hno, rfl, rfl⟩ | ⟨hyes, cur2, fixed, e2, e3⟩
  · refine ⟨[], 0, ⟨hg1, by rw [hsame], by rw [hsame], hB.best, by simp, by simp, by simp, by rw [hsame]; constructor <;> simp <;> omega, ?_, by simp⟩,
      Or.inl ⟨rfl, by rw [hsame], by rw [hsame], Makes.none e1 hno, ?_⟩⟩
    · intro z ht hv t ha hlt
      exfalso
      by_cases ho : cur1.type = .opened
      · rcases hB.edge ho with ⟨-, h'⟩ | ⟨i, -, h', -⟩
        · exact h' t ha
        · exact hno ⟨ho, by rw [h']; omega⟩
      · have := hB.closed z ht hv ho t ha
        linarith
    · intro new hn
      cases hn with
      | none => rfl
      | two h1 h2 => rw [e1] at h1; cases h1; exact absurd h2 hno
  · obtain ⟨L, f1, f2, f3⟩ := hB.fix hyes.1
    obtain ⟨b2, rest2, ref2, keep2⟩ := variableFixing_ok f1 f2 f3 e2
    simp only at b2 rest2 ref2 keep2
    obtain ⟨ch0, ch1, r0, r1, o1, q1, f, m0, m1, i0, i1, hb1, hq1, hp', hperm⟩ := branch_parts e3
    simp only at m0 m1 i0 hp' hb1 hq1
    have hed2 : cur2.edgeToBranch = cur1.edgeToBranch := by unfold SameRest at rest2; rw [rest2]
    obtain ⟨i, hi, hie, hfree⟩ : ∃ i < p.graph.numEdges, cur1.edgeToBranch = (i : Int) ∧ cur.cons (p.graph.edges i).src (p.graph.edges i).dest = .nothing := by
      rcases hB.edge hyes.1 with ⟨h', -⟩ | h'
      · rw [hedge] at h'; exact absurd h' hyes.2
      · exact h'
    have htn : cur2.edgeToBranch.toNat = i := by rw [hed2, hie]; rfl
    have hee : p1.graph.edges cur2.edgeToBranch.toNat = p.graph.edges i := by rw [htn, hg1]
    rw [hee] at m0 m1
    have hends := h.stored.ends i hi
    rw [h.nodes] at hends
    have hsym : SymMatrix c.maxV cur1.cons := by rw [hcons]; exact hb.sym
    have hfree1 : cur1.cons (p.graph.edges i).src (p.graph.edges i).dest = .nothing := by rw [hcons]; exact hfree
    obtain ⟨c0, id0⟩ := child_of hends.1 hends.2.1 hends.2.2 hfree1 b2 hsym ref2 rest2 m0 i0
    obtain ⟨c1, id1⟩ := child_of hends.1 hends.2.1 hends.2.2 hfree1 b2 hsym ref2 rest2 m1 i1
    have lift : ∀ {x : SubProblem}, ChildOf c cur1 x → ChildOf c { cur with value := cur1.value } x := by
      intro x hx
      have l1 : cur1.treeLevel = cur.treeLevel := by rw [hfr]
      have l2 : cur1.id = cur.id := by rw [hfr]
      exact ⟨hx.book, by simp only; rw [← hcons]; exact hx.tours, by simp only; rw [← hcons]; exact hx.fewer, hx.value, by simp only; rw [← l1]; exact hx.level,
        by simp only; rw [← l2]; exact hx.father, hx.type, hx.edge⟩
    have hk : ∀ x ∈ (if r1.2 then [r1.1.1] else []) ++ (if r0.2 then [r0.1.1] else []), x = r1.1.1 ∨ x = r0.1.1 := by
      intro x hx
      rcases List.mem_append.1 hx with hx | hx
      · split at hx
        · exact Or.inl (List.mem_singleton.1 hx)
        · cases hx
      · split at hx
        · exact Or.inr (List.mem_singleton.1 hx)
        · cases hx
    have hkc : ∀ x ∈ (if r1.2 then [r1.1.1] else []) ++ (if r0.2 then [r0.1.1] else []), ChildOf c { cur with value := cur1.value } x := by
      intro x hx
      rcases hk x hx with rfl | rfl
      · exact lift c1
      · exact lift c0
    have hgen : p1.generated = p.generated := by rw [hsame]
    have hlev : p1.totLevels = p.totLevels := by rw [hsame]
    obtain ⟨ob1, ob2⟩ := hB.openBest hyes.1
    have hbv : p'.bestValue = p.bestValue := by rw [hp']; exact ob1
    have lv2 : cur2.treeLevel = cur.treeLevel := by
      unfold SameRest at rest2; rw [rest2]; show cur1.treeLevel = _; rw [hfr]
    refine ⟨_, cur1.value, ⟨by rw [hp']; exact hg1, by rw [hp']; show p1.cand = _; rw [hsame], by rw [hp']; show p1.interrupted = _; rw [hsame],
      Or.inl ⟨hbv, by rw [hp']; exact ob2⟩, hperm, ?_, hkc, ?_, ?_, ?_⟩,
      Or.inr ⟨by rw [hp']; show p1.generated + 2 = _; rw [hgen], ?_, ?_, ?_, ?_⟩⟩
    · rw [List.length_append]; split <;> split <;> simp
    · rw [hp']; simp only; rw [hsame]; constructor <;> simp <;> omega
    · intro z ht hv t ha hlt
      have ha1 : AllowedBy c.maxV cur1.cons t := by rw [hcons]; exact ha
      have hfine : Fine z c p1 := by
        have := ht.fine_sums h heps
        exact ⟨this.near, this.U0, this.W0, by rw [ob1]; exact this.best, by rw [hg1]; exact this.weights, this.small⟩
      have hlt1 : tourCost (weight p1.graph) t < p1.bestValue - z.slack c.maxV := by rw [hg1, ob1]; rw [hbv] at hlt; linarith
      have ha2 := keep2 z hfine t ha1 hlt1
      have mk0 := makeChild_ok b2.sym hends.1 hends.2.1 hends.2.2 m0
      have mk1 := makeChild_ok b2.sym hends.1 hends.2.1 hends.2.2 m1
      have t0 := child_tours hends.1 hends.2.1 hends.2.2 mk0.2.2.2.2.2.2.2.2.2 ha2
      have t1 := child_tours hends.1 hends.2.1 hends.2.2 mk1.2.2.2.2.2.2.2.2.2 ha2
      have n0 := inferConstraints_ok mk0.1.sym i0
      have n1 := inferConstraints_ok mk1.1.sym i1
      have hreq : childRequires c (p.graph.edges i).prob 1 = !childRequires c (p.graph.edges i).prob 0 := by
        unfold childRequires; split
        · split <;> simp
        · simp
      rw [hreq] at t1
      have h3 := h.three
      have hor : AllowedBy c.maxV ch0.cons t ∨ AllowedBy c.maxV ch1.cons t := by
        rw [t0, t1]
        cases childRequires c (p.graph.edges i).prob 0 <;> simp <;> tauto
      rcases hor with h' | h'
      · cases hr : r0.2 with
        | true => exact ⟨r0.1.1, by simp, n0.1.tours h3 t h'⟩
        | false => exact absurd h' (n0.2 hr h3 t)
      · cases hr : r1.2 with
        | true => exact ⟨r1.1.1, by simp, n1.1.tours h3 t h'⟩
        | false => exact absurd h' (n1.2 hr h3 t)
    · intro z ht x hx t hat hlt
      have hx' := hkc x hx
      rw [hx'.value]
      exact hB.value z ht hyes.1 t ⟨hx'.tours t hat, hlt⟩
    · rw [hp']
      show newLevels _ cur2 = _
      unfold newLevels
      simp only [hlev, lv2]
    · intro x hx
      rcases hk x hx with rfl | rfl
      · right; rw [id1, hgen]
      · left; rw [id0, hgen]
    · split <;> split <;> simp [id0, id1]
    · intro new hn
      cases hn with
      | none h1 h2 => rw [e1] at h1; cases h1; exact absurd hyes h2
      | two h1 h2 h3 h4 h5 h6 =>
        rw [e1] at h1; cases h1
        rw [e2] at h3; cases h3
        rw [hb1] at h5; cases h5
        rw [hq1] at h6
        rw [hee] at h4 h6
        rw [m0] at h4; cases h4
        rw [m1] at h6; cases h6
        have mk0 := makeChild_ok b2.sym hends.1 hends.2.1 hends.2.2 m0
        have mk1 := makeChild_ok b2.sym hends.1 hends.2.1 hends.2.2 m1
        have idc : cur2.id = cur.id := by unfold SameRest at rest2; rw [rest2]; show cur1.id = _; rw [hfr]
        refine ⟨_, _, rfl, by rw [mk0.2.1, hgen], by rw [mk1.2.1, hgen], ?_⟩
        intro x hx
        simp only [List.mem_cons, List.not_mem_nil, or_false] at hx
        rcases hx with rfl | rfl
        · exact ⟨by rw [mk0.2.2.1, idc], by rw [mk0.2.2.2.2.1, lv2]⟩
        · exact ⟨by rw [mk1.2.2.1, idc], by rw [mk1.2.2.2.2.1, lv2]⟩

end Verif
