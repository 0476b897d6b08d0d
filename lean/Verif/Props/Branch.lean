import Verif.Proofs.Branch2
import Verif.Proofs.Example

/-!
# Properties C27, C32 – C36: constraint inference, branching and the open list
-/
namespace Verif
open Verif.Spec
set_option autoImplicit false

variable [Rounding] {c : Cfg} {sp : SubProblem}

omit [Rounding] in
/-- C32. `infer_constraints` changes no set of tours: the tours allowed afterwards are exactly those allowed before. It only turns
undecided pairs into mandatory or forbidden ones, and keeps the matrix symmetric with a forbidden diagonal. -/
theorem C32_loses_no_tour {fixed : Nat} {r : (SubProblem × Nat) × Bool} (h : SymMatrix c.maxV sp.cons) (hn : 3 ≤ c.maxV)
    (e : inferConstraints c sp fixed = .ok r) :
    (∀ t, AllowedBy c.maxV sp.cons t ↔ AllowedBy c.maxV r.1.1.cons t) ∧ SymMatrix c.maxV r.1.1.cons ∧
    (∀ u v, sp.cons u v ≠ .nothing → r.1.1.cons u v = sp.cons u v) := by
  obtain ⟨hi, -⟩ := inferConstraints_ok h e
  exact ⟨fun t => ⟨hi.tours hn t, fun h' => hi.refines.allowed h'⟩, hi.sym, hi.refines⟩

omit [Rounding] in
/-- C33. When `infer_constraints` answers `false`, no tour contains all mandatory and no forbidden edges. -/
theorem C33_rejects_infeasible {fixed : Nat} {r : (SubProblem × Nat) × Bool} (h : SymMatrix c.maxV sp.cons) (hn : 3 ≤ c.maxV)
    (e : inferConstraints c sp fixed = .ok r) (hr : r.2 = false) : ∀ t, ¬ AllowedBy c.maxV sp.cons t :=
  (inferConstraints_ok h e).2 hr hn

/-- the subproblems that `initialize_matrix` and any sequence of branchings can make. `mem` is the old content of the memory of the
child. -/
inductive Made (c : Cfg) : SubProblem → Prop where
  | root (sp : SubProblem) : Made c (initializeMatrix c sp)
  | child {cur child : SubProblem} {r : (SubProblem × Nat) × Bool} (mem : SubProblem) (e : Edge) (id i fixed : Nat) (h : Made c cur)
      (hs : e.src < c.maxV) (hd : e.dest < c.maxV) (hne : e.src ≠ e.dest) (h1 : makeChild c mem cur e id i = .ok child)
      (h2 : inferConstraints c child fixed = .ok r) (h3 : r.2 = true) : Made c r.1.1

omit [Rounding] in
/-- C34 (partial). In every subproblem made by initialisation and any sequence of branchings and inferences that ends without a
write outside the list of mandatory edges, the matrix is symmetric with a forbidden diagonal, all its mandatory edges are
in the list, the list has at most `MAX_VERTEX_NUM` entries, all of which are constrained pairs, and the forbidden counter is positive when some
edge is forbidden. Missing: that the writes stay inside the list, which is false (`C34_list_overflow`). -/
theorem C34_bookkeeping_partial (h : Made c sp) : Bookkeeping c.maxV sp := by
  induction h with
  | root sp =>
    obtain ⟨m, e, hm⟩ := initializeMatrix_ok c sp
    rw [e]
    refine ⟨⟨?_, ?_⟩, ?_, by simp, ?_, by simp⟩
    · intro u hu v hv; simp only; rw [hm u hu v hv, hm v hv u hu]; split <;> split <;> first | rfl | omega
    · intro u hu; simp only; rw [hm u hu u hu, if_pos rfl]
    · intro u hu v hv huv h; simp only at h; rw [hm u hu v hv, if_neg huv] at h; cases h
    · intro u hu v hv huv h; simp only at h; rw [hm u hu v hv, if_neg huv] at h; cases h
  | child mem e id i fixed h hs hd hne h1 h2 h3 ih =>
    have hb := (makeChild_ok ih.sym hs hd hne h1).1
    exact (inferConstraints_ok hb.sym h2).1.book hb

omit [Rounding] in
/-- C34 (partial), one step: `copy_constraints` gives the same matrix with consistent bookkeeping. -/
theorem C34_copy_partial {sp0 other : SubProblem} (h : SymMatrix c.maxV other.cons) (e : copyConstraints c sp0 other = .ok sp) :
    Bookkeeping c.maxV sp ∧ ∀ u < c.maxV, ∀ v < c.maxV, sp.cons u v = other.cons u v := by
  have := copyConstraints_ok h e
  exact ⟨this.1, this.2.2⟩

/-- C35. `branch` on a subproblem and an edge `u – v` makes two children, one requiring the edge and one forbidding it: a tour allowed by the
subproblem is allowed by the first iff it uses the edge and by the second iff it does not. Each of the two either
allows no tour, or is put in the open list with a matrix that allows the same tours, with the value of its father and its father's
level plus one. Nothing else is put in the open list and nothing is taken out of it. -/
theorem C35_branch {mem : Nat → SubProblem} {cur : SubProblem} {p p2 : Problem} {open' open2 : List SubProblem} (h : SymMatrix c.maxV cur.cons) (hn : 3 ≤ c.maxV)
    (hs : (p.graph.edges cur.edgeToBranch.toNat).src < c.maxV) (hd : (p.graph.edges cur.edgeToBranch.toNat).dest < c.maxV)
    (hne : (p.graph.edges cur.edgeToBranch.toNat).src ≠ (p.graph.edges cur.edgeToBranch.toNat).dest)
    (hb : branch c mem p open' cur = .ok (open2, p2)) :
    ∃ (child : Bool → SubProblem) (kept : List SubProblem), open2.Perm (kept ++ open') ∧ kept.length ≤ 2 ∧
      (∀ t, AllowedBy c.maxV cur.cons t → ∀ b, AllowedBy c.maxV (child b).cons t ↔
        (b = true ↔ s((p.graph.edges cur.edgeToBranch.toNat).src, (p.graph.edges cur.edgeToBranch.toNat).dest) ∈ tourEdges t)) ∧
      (∀ b t, AllowedBy c.maxV (child b).cons t → ∃ k ∈ kept, AllowedBy c.maxV k.cons t) ∧
      (∀ k ∈ kept, ∃ b, (∀ t, AllowedBy c.maxV (child b).cons t ↔ AllowedBy c.maxV k.cons t) ∧ k.value = cur.value ∧
        k.treeLevel = cur.treeLevel + 1 ∧ k.fatherId = cur.id ∧ k.type = .opened) := by
  unfold branch at hb
  simp only at hb
  split at hb
  · cases hb
  generalize hp1 : (if cur.treeLevel + 1 > p.totLevels then { p with totLevels := p.totLevels + 1 } else p) = p1 at hb
  have hg : p1.graph = p.graph := by rw [← hp1]; split <;> rfl
  rw [hg] at hb
  generalize p.graph.edges cur.edgeToBranch.toNat = e at *
  rw [forList] at hb
  obtain ⟨⟨o1, q1⟩, b1, hb⟩ := bind_eq_ok.1 hb
  rw [forList] at hb
  obtain ⟨⟨o2, q2⟩, b2, hb⟩ := bind_eq_ok.1 hb
  cases hb
  obtain ⟨ch0, r0, m0, i0, -, ho1⟩ := branchChild_main b1
  obtain ⟨ch1, r1, m1, i1, -, ho2⟩ := branchChild_main b2
  have k0 := makeChild_ok h hs hd hne m0
  have k1 := makeChild_ok h hs hd hne m1
  have n0 := inferConstraints_ok k0.1.sym i0
  have n1 := inferConstraints_ok k1.1.sym i1
  have hreq : childRequires c e.prob 1 = !childRequires c e.prob 0 := by
    unfold childRequires; split
    · split <;> simp
    · simp
  have fields : ∀ {ch : SubProblem} {r : (SubProblem × Nat) × Bool}, Inferred c.maxV ch r.1.1 → r.1.1.value = ch.value ∧ r.1.1.treeLevel = ch.treeLevel ∧
      r.1.1.fatherId = ch.fatherId ∧ r.1.1.type = ch.type := by
    intro ch r hi
    have := hi.rest; unfold SameRest at this; rw [this]; exact ⟨rfl, rfl, rfl, rfl⟩
  have f0 := fields n0.1
  have f1 := fields n1.1
  refine ⟨fun b => if b = childRequires c e.prob 0 then ch0 else ch1, (if r1.2 then [r1.1.1] else []) ++ (if r0.2 then [r0.1.1] else []), ?_, ?_, ?_, ?_, ?_⟩
  · have q0 : o1.Perm ((if r0.2 then [r0.1.1] else []) ++ open') := by
      rw [ho1]; split
      · exact insertOpen_perm c _ _
      · exact List.Perm.refl _
    have q1 : open2.Perm ((if r1.2 then [r1.1.1] else []) ++ o1) := by
      rw [ho2]; split
      · exact insertOpen_perm c _ _
      · exact List.Perm.refl _
    rw [List.append_assoc]
    exact q1.trans (List.Perm.append_left _ q0)
  · rw [List.length_append]; split <;> split <;> simp
  · intro t ht b
    have t0 := child_tours hs hd hne k0.2.2.2.2.2.2.2.2.2 ht
    have t1 := child_tours hs hd hne k1.2.2.2.2.2.2.2.2.2 ht
    rw [hreq] at t1
    simp only
    by_cases hb : b = childRequires c e.prob 0
    · rw [if_pos hb, hb]; exact t0
    · rw [if_neg hb, t1]
      cases b <;> cases hx : childRequires c e.prob 0 <;> simp_all
  · intro b t ht
    simp only at ht
    split at ht
    · cases hr : r0.2 with
      | true => exact ⟨r0.1.1, by simp, n0.1.tours hn t ht⟩
      | false => exact absurd ht (n0.2 hr hn t)
    · cases hr : r1.2 with
      | true => exact ⟨r1.1.1, by simp, n1.1.tours hn t ht⟩
      | false => exact absurd ht (n1.2 hr hn t)
  · intro k hk
    rcases List.mem_append.1 hk with hk | hk
    · split at hk
      · rw [List.mem_singleton] at hk; subst hk
        refine ⟨!childRequires c e.prob 0, fun t => ?_, by rw [f1.1]; exact k1.2.2.2.1, by rw [f1.2.1]; exact k1.2.2.2.2.1, by rw [f1.2.2.1]; exact k1.2.2.1,
          by rw [f1.2.2.2]; exact k1.2.2.2.2.2.1⟩
        simp only
        rw [if_neg (by cases childRequires c e.prob 0 <;> simp)]
        exact ⟨n1.1.tours hn t, fun h' => n1.1.refines.allowed h'⟩
      · cases hk
    · split at hk
      · rw [List.mem_singleton] at hk; subst hk
        refine ⟨childRequires c e.prob 0, fun t => ?_, by rw [f0.1]; exact k0.2.2.2.1, by rw [f0.2.1]; exact k0.2.2.2.2.1, by rw [f0.2.2.1]; exact k0.2.2.1,
          by rw [f0.2.2.2]; exact k0.2.2.2.2.2.1⟩
        simp only
        rw [if_pos trivial]
        exact ⟨n0.1.tours hn t, fun h' => n0.1.refines.allowed h'⟩
      · cases hk

/-- the open lists that insertions and removals of the first element can make -/
inductive OpenHistory (c : Cfg) : List SubProblem → Prop where
  | empty : OpenHistory c []
  | insert {l : List SubProblem} (x : SubProblem) (h : OpenHistory c l) : OpenHistory c (insertOpen c x l)
  | pop {x : SubProblem} {l : List SubProblem} (h : OpenHistory c (x :: l)) : OpenHistory c l

/-- C36. In every open list, classic or hybrid, the value of a subproblem is at most `EPSILON` above the value of any subproblem behind it, as the machine subtracts;
so the one taken next is within `EPSILON` of the smallest. The list always holds what was inserted and not
yet taken. -/
theorem C36_best_first (heps : 0 ≤ c.eps) {l : List SubProblem} (h : OpenHistory c l) :
    (∀ i j (hi : i < l.length) (hj : j < l.length), i < j → fl (l[i].value - l[j].value) ≤ c.eps) ∧
    (∀ x rest, l = x :: rest → ∀ y ∈ l, fl (x.value - y.value) ≤ c.eps) ∧
    (Exact → ∀ x rest, l = x :: rest → ∀ y ∈ l, x.value ≤ y.value + c.eps) ∧
    ∀ x, (insertOpen c x l).Perm (x :: l) := by
  have hp : l.Pairwise fun a b => fl (a.value - b.value) ≤ c.eps := by
    induction h with
    | empty => exact List.Pairwise.nil
    | insert x h ih => exact insertOpen_sorted heps ih
    | pop h ih => exact (List.pairwise_cons.1 ih).2
  have hq : ∀ x rest, l = x :: rest → ∀ y ∈ l, fl (x.value - y.value) ≤ c.eps := by
    rintro x rest rfl y hy
    rcases List.mem_cons.1 hy with rfl | hy
    · rw [sub_self, fl_zero]; exact heps
    · exact (List.pairwise_cons.1 hp).1 y hy
  refine ⟨fun i j hi hj hij => List.pairwise_iff_getElem.1 hp i j hi hj hij, hq, ?_, fun x => insertOpen_perm c x l⟩
  intro hx x rest hl y hy
  have := hq x rest hl y hy
  rw [hx] at this; linarith

end Verif
