import Verif.Props.Bound
import Verif.Props.Branch
import Verif.Proofs.Candidate
import Verif.Spec.SearchSpec

/-!
# One round of the main loop
-/
namespace Verif
open Verif.Spec
set_option autoImplicit false

variable [Rounding] {c : Cfg} {env : Env}

/-- the level counter that `branch` leaves -/
def newLevels (p : Problem) (cur : SubProblem) : Nat := if cur.treeLevel + 1 > p.totLevels then p.totLevels + 1 else p.totLevels

/-- the two children that `branch` makes and what becomes of them -/
theorem branch_parts {mem : Nat → SubProblem} {cur : SubProblem} {p p2 : Problem} {open' open2 : List SubProblem}
    (hb : branch c mem p open' cur = .ok (open2, p2)) :
    ∃ (ch0 ch1 : SubProblem) (r0 r1 : (SubProblem × Nat) × Bool) (o1 : List SubProblem) (q1 : Problem) (f : Nat),
      makeChild c (mem 0) cur (p.graph.edges cur.edgeToBranch.toNat) (p.generated + 1) 0 = .ok ch0 ∧
      makeChild c (mem 1) cur (p.graph.edges cur.edgeToBranch.toNat) (p.generated + 2) 1 = .ok ch1 ∧
      inferConstraints c ch0 p.fixed = .ok r0 ∧ inferConstraints c ch1 f = .ok r1 ∧
      branchChild c mem cur (p.graph.edges cur.edgeToBranch.toNat) (open', p) 0 = .ok (o1, q1) ∧ q1.generated = p.generated + 1 ∧
      p2 = { p with generated := p.generated + 2, fixed := r1.1.2, totLevels := newLevels p cur } ∧
      open2.Perm ((if r1.2 then [r1.1.1] else []) ++ (if r0.2 then [r0.1.1] else []) ++ open') := by
  unfold branch at hb
  simp only at hb
  split at hb
  · cases hb
  generalize hp1 : (if cur.treeLevel + 1 > p.totLevels then { p with totLevels := p.totLevels + 1 } else p) = p1 at hb
  have hp1' : p1 = { p with totLevels := newLevels p cur } := by rw [← hp1]; unfold newLevels; split <;> rfl
  subst hp1'
  simp only at hb
  generalize he : p.graph.edges cur.edgeToBranch.toNat = e at *
  rw [forList] at hb
  obtain ⟨⟨o1, q1⟩, b1, hb⟩ := bind_eq_ok.1 hb
  rw [forList] at hb
  obtain ⟨⟨o2, q2⟩, b2, hb⟩ := bind_eq_ok.1 hb
  cases hb
  obtain ⟨ch0, r0, m0, i0, hq1, ho1⟩ := branchChild_main b1
  obtain ⟨ch1, r1, m1, i1, hq2, ho2⟩ := branchChild_main b2
  subst hq1
  simp only at m0 m1 i0 i1 hq2
  have hq0 : ({ p with generated := p.generated + 1 } : Problem).generated = p.generated + 1 := rfl
  refine ⟨ch0, ch1, r0, r1, if r0.2 then insertOpen c r0.1.1 open' else open', { p with generated := p.generated + 1, fixed := r0.1.2 }, r0.1.2,
    m0, m1, i0, i1, ?_, rfl, hq2, ?_⟩
  · unfold branchChild
    simp only [m0, i0, ok_bind]
    split <;> rfl
  · have k0 : o1.Perm ((if r0.2 then [r0.1.1] else []) ++ open') := by
      rw [ho1]; split
      · exact insertOpen_perm c _ _
      · exact List.Perm.refl _
    have k1 : open2.Perm ((if r1.2 then [r1.1.1] else []) ++ o1) := by
      rw [ho2]; split
      · exact insertOpen_perm c _ _
      · exact List.Perm.refl _
    rw [List.append_assoc]
    exact k1.trans (List.Perm.append_left _ k0)

/-- the two ways a round can go -/
theorem bbRound_cases {k : Nat} {p p' : Problem} {cur : SubProblem} {rest o' : List SubProblem} (e : bbRound c env k p cur rest = .ok (p', o')) :
    ∃ p1 cur1, bound c (env.loc k) p cur = .ok (p1, cur1) ∧
      ((¬ (cur1.type = .opened ∧ cur1.edgeToBranch ≠ -1) ∧ p' = p1 ∧ o' = rest) ∨
       ((cur1.type = .opened ∧ cur1.edgeToBranch ≠ -1) ∧ ∃ cur2 fixed, variableFixing c p1 cur1 = .ok (cur2, fixed) ∧
         branch c (env.child k) { p1 with fixed := p1.fixed + fixed } rest cur2 = .ok (o', p'))) := by
  unfold bbRound at e
  obtain ⟨⟨p1, cur1⟩, e1, e⟩ := bind_eq_ok.1 e
  refine ⟨p1, cur1, e1, ?_⟩
  simp only at e
  split at e
  · next h =>
    obtain ⟨⟨cur2, fixed⟩, e2, e⟩ := bind_eq_ok.1 e
    obtain ⟨⟨o2, p2⟩, e3, e⟩ := bind_eq_ok.1 e
    cases e
    exact Or.inr ⟨h, cur2, fixed, e2, e3⟩
  · next h =>
    cases e
    exact Or.inl ⟨h, rfl, rfl⟩

/-- every round makes some list of subproblems -/
theorem bbRound_makes {k : Nat} {p p' : Problem} {cur : SubProblem} {rest o' : List SubProblem} (e : bbRound c env k p cur rest = .ok (p', o')) :
    ∃ new, Makes c env k p cur rest new := by
  obtain ⟨p1, cur1, e1, ⟨h, -⟩ | ⟨h, cur2, fixed, e2, e3⟩⟩ := bbRound_cases e
  · exact ⟨_, Makes.none e1 h⟩
  · obtain ⟨ch0, ch1, r0, r1, o1, q1, f, m0, m1, i0, i1, hb, hq, -⟩ := branch_parts e3
    exact ⟨_, Makes.two e1 h e2 m0 hb (by rw [hq]; exact m1)⟩

/-- the loop goes through the states of the run -/
theorem bbLoop_run {p0 : Problem} {o0 : List SubProblem} : ∀ (fuel k : Nat) (p : Problem) (o made : List SubProblem) (p' : Problem) (o' : List SubProblem) (k' : Nat),
    Run c env p0 o0 k p o made → bbLoop c env fuel k p o = .ok (p', o', k') →
    ∃ j made', Run c env p0 o0 j p' o' made' ∧ ((o' = [] ∧ k' = j) ∨ (o' ≠ [] ∧ env.clk j = true ∧ k' = j + 1)) := by
  intro fuel
  induction fuel with
  | zero => intro k p o made p' o' k' _ e; cases e
  | succ fuel ih =>
    intro k p o made p' o' k' h e
    match o, e with
    | [], e => cases e; exact ⟨k, made, h, Or.inl ⟨rfl, rfl⟩⟩
    | cur :: rest, e =>
      rw [bbLoop] at e
      split at e
      · next hc => cases e; exact ⟨k, made, h, Or.inr ⟨by simp, hc, rfl⟩⟩
      · next hc =>
        obtain ⟨⟨p1, o1⟩, e1, e2⟩ := bind_eq_ok.1 e
        obtain ⟨new, hn⟩ := bbRound_makes e1
        exact ih (k + 1) p1 o1 (made ++ new) p' o' k' (Run.round h (by simpa using hc) e1 hn) e2

/-- the pairs of nodes that are undecided -/
def undecided (n : Nat) (cons : Nat → Nat → CType) : Finset (Nat × Nat) := (Finset.range n ×ˢ Finset.range n).filter fun x => cons x.1 x.2 = .nothing

/-- what a child is, compared with the subproblem it was made from before variable fixing -/
structure ChildOf (c : Cfg) (cur ch : SubProblem) : Prop where
  book : Bookkeeping c.maxV ch
  tours : ∀ t, AllowedBy c.maxV ch.cons t → AllowedBy c.maxV cur.cons t
  fewer : (undecided c.maxV ch.cons).card < (undecided c.maxV cur.cons).card
  value : ch.value = cur.value
  level : ch.treeLevel = cur.treeLevel + 1
  father : ch.fatherId = cur.id
  type : ch.type = .opened
  edge : ch.edgeToBranch = -1

omit [Rounding] in
theorem child_of {cur cur1 ch : SubProblem} {r : (SubProblem × Nat) × Bool} {mem : SubProblem} {e : Edge} {id i f : Nat}
    (hs : e.src < c.maxV) (hd : e.dest < c.maxV) (hne : e.src ≠ e.dest) (hfree : cur.cons e.src e.dest = .nothing) (hb : Bookkeeping c.maxV cur1) (hsym : SymMatrix c.maxV cur.cons)
    (hr : Refines cur cur1) (hrest : SameRest cur cur1) (e1 : makeChild c mem cur1 e id i = .ok ch) (e2 : inferConstraints c ch f = .ok r) :
    ChildOf c cur r.1.1 ∧ r.1.1.id = id := by
  obtain ⟨k1, k2, k3, k4, k5, k6, k7, k8, k9, k10⟩ := makeChild_ok hb.sym hs hd hne e1
  obtain ⟨hi, -⟩ := inferConstraints_ok k1.sym e2
  have hrest' := hi.rest
  unfold SameRest at hrest hrest'
  have hfree' : cur.cons e.dest e.src = .nothing := by rw [hsym.1 e.dest hd e.src hs]; exact hfree
  have href : ∀ u < c.maxV, ∀ v < c.maxV, cur.cons u v ≠ .nothing → r.1.1.cons u v = cur.cons u v := by
    intro u hu v hv huv
    have h1 : cur1.cons u v = cur.cons u v := hr u v huv
    have h2 : s(u, v) ≠ s(e.src, e.dest) := by
      intro h
      rcases Sym2.eq_iff.1 h with ⟨rfl, rfl⟩ | ⟨rfl, rfl⟩
      · exact huv hfree
      · exact huv hfree'
    have h3 : ch.cons u v = cur.cons u v := by rw [k10 u hu v hv, if_neg h2, h1]
    rw [hi.refines u v (by rw [h3]; exact huv), h3]
  refine ⟨⟨hi.book k1, ?_, ?_, ?_, ?_, ?_, ?_, ?_⟩, by rw [hrest']; exact k2⟩
  · intro t ht
    refine ⟨ht.1, fun u hu v hv huv => ?_⟩
    refine ⟨fun h => (ht.2 u hu v hv huv).1 ?_, fun h => (ht.2 u hu v hv huv).2 ?_⟩
    · rw [href u hu v hv (by rw [h]; simp), h]
    · rw [href u hu v hv (by rw [h]; simp), h]
  · refine Finset.card_lt_card ?_
    refine Finset.ssubset_iff_subset_ne.2 ⟨?_, ?_⟩
    · rintro ⟨u, v⟩ hx
      simp only [undecided, Finset.mem_filter, Finset.mem_product, Finset.mem_range] at hx ⊢
      refine ⟨hx.1, ?_⟩
      by_contra hcon
      rw [href u hx.1.1 v hx.1.2 hcon] at hx
      exact hcon hx.2
    · intro heq
      have : (e.src, e.dest) ∈ undecided c.maxV cur.cons := by
        simp only [undecided, Finset.mem_filter, Finset.mem_product, Finset.mem_range]
        exact ⟨⟨hs, hd⟩, hfree⟩
      rw [← heq] at this
      simp only [undecided, Finset.mem_filter, Finset.mem_product, Finset.mem_range] at this
      have hne' : ch.cons e.src e.dest ≠ .nothing := by
        rw [k10 _ hs _ hd, if_pos rfl]; split <;> simp
      rw [hi.refines _ _ hne'] at this
      exact hne' this.2
  · rw [hrest', ← (by rw [hrest] : cur1.value = cur.value)]; exact k4
  · rw [hrest', ← (by rw [hrest] : cur1.treeLevel = cur.treeLevel)]; exact k5
  · rw [hrest', ← (by rw [hrest] : cur1.id = cur.id)]; exact k3
  · rw [hrest']; exact k6
  · rw [hrest']; exact k8

end Verif
