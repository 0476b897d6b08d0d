import Verif.Proofs.Search1

/-!
# Property C35, second part: which child comes first
-/
namespace Verif
open Verif.Spec
set_option autoImplicit false

variable [Rounding] {c : Cfg}

theorem compareSub_congr {a a' : SubProblem} (hv : a.value = a'.value) (hp : a.prob = a'.prob) : compareSub c a = compareSub c a' := by
  funext o
  simp only [compareSub, hv, hp]

theorem compareSub_same {a a' : SubProblem} (he : 0 ≤ c.eps) (hv : a.value = a'.value) : compareSub c a a' = false := by
  unfold compareSub
  rw [hv]
  split
  · simp [he]
  · simp [he]

theorem insertOpen_append {x : SubProblem} {l : List SubProblem} :
    ∃ pre post, l = pre ++ post ∧ insertOpen c x l = pre ++ x :: post ∧ (∀ o ∈ pre, compareSub c x o = false) ∧ (∀ o ∈ post.head?, compareSub c x o = true) := by
  unfold insertOpen
  cases h : l.findIdx? (fun o => compareSub c x o) with
  | none =>
    refine ⟨l, [], by simp, by simp, ?_, by simp⟩
    intro o ho
    have := (List.findIdx?_eq_none_iff.1 h) o ho
    simpa using this
  | some j =>
    obtain ⟨hj, h1, h2⟩ := List.findIdx?_eq_some_iff_getElem.1 h
    refine ⟨l.take j, l.drop j, (List.take_append_drop j l).symm, rfl, ?_, ?_⟩
    · intro o ho
      obtain ⟨i, hi, rfl⟩ := List.mem_take_iff_getElem.1 ho
      have := h2 i (by omega)
      simpa using this
    · intro o ho
      rw [List.head?_drop, List.getElem?_eq_getElem hj, Option.mem_some_iff] at ho
      rw [← ho]; exact h1

theorem insertOpen_between {x : SubProblem} {pre post : List SubProblem} (h1 : ∀ o ∈ pre, compareSub c x o = false)
    (h2 : ∀ o ∈ post.head?, compareSub c x o = true) : insertOpen c x (pre ++ post) = pre ++ x :: post := by
  obtain ⟨p, q, e, h, k1, k2⟩ := insertOpen_append (c := c) (x := x) (l := pre ++ post)
  rw [h]
  suffices p = pre by
    subst this
    rw [List.append_cancel_left e]
  rcases List.append_eq_append_iff.1 e with ⟨a, rfl, rfl⟩ | ⟨a, rfl, rfl⟩
  · cases a with
    | nil => simp
    | cons y a =>
      have := h2 y (by simp)
      rw [k1 y (by simp)] at this
      cases this
  · cases a with
    | nil => simp
    | cons y a =>
      have := k2 y (by simp)
      rw [h1 y (by simp)] at this
      cases this

/-- C35, the order of the children. `branch` puts its children next to each other in the open list and leaves the order of the others as it
was. The child made first comes first; in classic mode it is the one that requires the edge, in hybrid mode it is the one that requires the
edge when the probability of the edge is at least `PROB_BRANCH` and the one that forbids it otherwise. The number of a child is the number of
children generated before it plus one. -/
theorem C35_order {mem : Nat → SubProblem} {cur : SubProblem} {p p2 : Problem} {open' open2 : List SubProblem} (he : 0 ≤ c.eps) (h : SymMatrix c.maxV cur.cons)
    (hs : (p.graph.edges cur.edgeToBranch.toNat).src < c.maxV) (hd : (p.graph.edges cur.edgeToBranch.toNat).dest < c.maxV)
    (hne : (p.graph.edges cur.edgeToBranch.toNat).src ≠ (p.graph.edges cur.edgeToBranch.toNat).dest)
    (hb : branch c mem p open' cur = .ok (open2, p2)) :
    ∃ (front back : List SubProblem) (first second : Option SubProblem),
      open' = front ++ back ∧ open2 = front ++ first.toList ++ second.toList ++ back ∧ p2.generated = p.generated + 2 ∧
      (∀ k ∈ first, k.id = p.generated + 1 ∧ k.value = cur.value ∧ k.prob = cur.prob ∧
        k.cons (p.graph.edges cur.edgeToBranch.toNat).src (p.graph.edges cur.edgeToBranch.toNat).dest =
          if c.hybrid = true ∧ (p.graph.edges cur.edgeToBranch.toNat).prob < c.probBranch then .forbidden else .mandatory) ∧
      (∀ k ∈ second, k.id = p.generated + 2 ∧ k.value = cur.value ∧ k.prob = cur.prob ∧
        k.cons (p.graph.edges cur.edgeToBranch.toNat).src (p.graph.edges cur.edgeToBranch.toNat).dest =
          if c.hybrid = true ∧ (p.graph.edges cur.edgeToBranch.toNat).prob < c.probBranch then .mandatory else .forbidden) := by
  unfold branch at hb
  simp only at hb
  split at hb
  · cases hb
  generalize hp1 : (if cur.treeLevel + 1 > p.totLevels then { p with totLevels := p.totLevels + 1 } else p) = p1 at hb
  have hp1' : p1 = { p with totLevels := newLevels p cur } := by rw [← hp1]; unfold newLevels; split <;> rfl
  subst hp1'
  simp only at hb
  generalize p.graph.edges cur.edgeToBranch.toNat = e at *
  rw [forList] at hb
  obtain ⟨⟨o1, q1⟩, b1, hb⟩ := bind_eq_ok.1 hb
  rw [forList] at hb
  obtain ⟨⟨o2, q2⟩, b2, hb⟩ := bind_eq_ok.1 hb
  cases hb
  obtain ⟨ch0, r0, m0, i0, hq1, ho1⟩ := branchChild_main b1
  obtain ⟨ch1, r1, m1, i1, hq2, ho2⟩ := branchChild_main b2
  subst hq1
  simp only at m0 m1 hq2
  have k0 := makeChild_ok h hs hd hne m0
  have k1 := makeChild_ok h hs hd hne m1
  have n0 := (inferConstraints_ok k0.1.sym i0).1
  have n1 := (inferConstraints_ok k1.1.sym i1).1
  have fields : ∀ {ch : SubProblem} {r : (SubProblem × Nat) × Bool}, Inferred c.maxV ch r.1.1 → r.1.1.value = ch.value ∧ r.1.1.prob = ch.prob ∧ r.1.1.id = ch.id := by
    intro ch r hi
    have := hi.rest; unfold SameRest at this; rw [this]; exact ⟨rfl, rfl, rfl⟩
  have f0 := fields n0
  have f1 := fields n1
  have v0 : r0.1.1.value = cur.value := by rw [f0.1]; exact k0.2.2.2.1
  have v1 : r1.1.1.value = cur.value := by rw [f1.1]; exact k1.2.2.2.1
  have p0 : r0.1.1.prob = cur.prob := by rw [f0.2.1]; exact k0.2.2.2.2.2.2.2.2.1
  have p1 : r1.1.1.prob = cur.prob := by rw [f1.2.1]; exact k1.2.2.2.2.2.2.2.2.1
  have c0 : r0.1.1.cons e.src e.dest = if c.hybrid = true ∧ e.prob < c.probBranch then .forbidden else .mandatory := by
    have := k0.2.2.2.2.2.2.2.2.2 e.src hs e.dest hd
    rw [if_pos rfl] at this
    rw [n0.refines e.src e.dest (by rw [this]; split <;> simp), this]
    unfold childRequires
    by_cases hh : c.hybrid = true <;> by_cases hp : e.prob < c.probBranch <;> simp [hh, hp, not_le.2, not_lt.1]
  have c1 : r1.1.1.cons e.src e.dest = if c.hybrid = true ∧ e.prob < c.probBranch then .mandatory else .forbidden := by
    have := k1.2.2.2.2.2.2.2.2.2 e.src hs e.dest hd
    rw [if_pos rfl] at this
    rw [n1.refines e.src e.dest (by rw [this]; split <;> simp), this]
    unfold childRequires
    by_cases hh : c.hybrid = true <;> by_cases hp : e.prob < c.probBranch <;> simp [hh, hp, not_le.2, not_lt.1]
  obtain ⟨front, back, e1, e2, e3, e4⟩ := insertOpen_append (c := c) (x := r0.1.1) (l := open')
  have hcmp : compareSub c r1.1.1 = compareSub c r0.1.1 := compareSub_congr (v1.trans v0.symm) (p1.trans p0.symm)
  refine ⟨front, back, if r0.2 then some r0.1.1 else none, if r1.2 then some r1.1.1 else none, e1, ?_, by rw [hq2], ?_, ?_⟩
  · rw [ho2, ho1]
    cases r0.2 with
    | true =>
      cases r1.2 with
      | true =>
        simp only [if_true, Option.toList_some]
        rw [e2, show front ++ r0.1.1 :: back = (front ++ [r0.1.1]) ++ back by simp]
        rw [insertOpen_between]
        · simp
        · intro o ho
          rcases List.mem_append.1 ho with ho | ho
          · rw [hcmp]; exact e3 o ho
          · rw [List.mem_singleton.1 ho]; exact compareSub_same he (v1.trans v0.symm)
        · rw [hcmp]; exact e4
      | false => simp [e2]
    | false =>
      cases r1.2 with
      | true =>
        simp only [if_true, Bool.false_eq_true, if_false]
        rw [e1, insertOpen_between (x := r1.1.1) (by rw [hcmp]; exact e3) (by rw [hcmp]; exact e4)]
        simp
      | false => simp [e1]
  · intro k hk
    cases hr : r0.2 with
    | false => rw [hr] at hk; simp at hk
    | true =>
      rw [hr] at hk
      simp only [if_true, Option.mem_some_iff] at hk
      subst hk
      exact ⟨by rw [f0.2.2]; exact k0.2.1, v0, p0, c0⟩
  · intro k hk
    cases hr : r1.2 with
    | false => rw [hr] at hk; simp at hk
    | true =>
      rw [hr] at hk
      simp only [if_true, Option.mem_some_iff] at hk
      subst hk
      exact ⟨by rw [f1.2.2]; exact k1.2.1, v1, p1, c1⟩

end Verif
