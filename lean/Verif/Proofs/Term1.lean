import Verif.Proofs.Search1

/-!
# The main loop makes progress on every graph

Nothing is assumed here about the graph except that the ends of its edges are nodes.
-/
namespace Verif
open Verif.Spec
set_option autoImplicit false

variable [Rounding]

variable {c : Cfg} {env : Env}

/-- decided entries stay decided -/
def Decides (n : Nat) (a b : Nat → Nat → CType) : Prop := ∀ u < n, ∀ v < n, a u v ≠ .nothing → b u v ≠ .nothing

omit [Rounding] in
theorem Decides.refl {n : Nat} (a : Nat → Nat → CType) : Decides n a a := fun _ _ _ _ h => h

omit [Rounding] in
theorem Decides.trans {n : Nat} {a b d : Nat → Nat → CType} (h : Decides n a b) (h' : Decides n b d) : Decides n a d :=
  fun u hu v hv hx => h' u hu v hv (h u hu v hv hx)

omit [Rounding] in
theorem Decides.set {n : Nat} {a b : Nat → Nat → CType} (h : Decides n a b) (i j : Nat) {x : CType} (hx : x ≠ .nothing) : Decides n a (setCons b i j x) := by
  intro u hu v hv huv
  rw [setCons_apply]
  split
  · exact hx
  · exact h u hu v hv huv

omit [Rounding] in
theorem Decides.card {n : Nat} {a b : Nat → Nat → CType} (h : Decides n a b) {u v : Nat} (hu : u < n) (hv : v < n) (ha : a u v = .nothing) (hb : b u v ≠ .nothing) :
    (undecided n b).card < (undecided n a).card := by
  refine Finset.card_lt_card (Finset.ssubset_iff_subset_ne.2 ⟨?_, ?_⟩)
  · rintro ⟨x, y⟩ hx
    simp only [undecided, Finset.mem_filter, Finset.mem_product, Finset.mem_range] at hx ⊢
    refine ⟨hx.1, ?_⟩
    by_contra hcon
    exact h x hx.1.1 y hx.1.2 hcon hx.2
  · intro heq
    have : (u, v) ∈ undecided n a := by
      simp only [undecided, Finset.mem_filter, Finset.mem_product, Finset.mem_range]
      exact ⟨⟨hu, hv⟩, ha⟩
    rw [← heq] at this
    simp only [undecided, Finset.mem_filter, Finset.mem_product, Finset.mem_range] at this
    exact hb this.2

omit [Rounding] in
theorem pushMandatory_cons {sp sp' : SubProblem} {u v : Nat} (e : pushMandatory c sp u v = .ok sp') : sp'.cons = sp.cons ∧ sp'.edgeToBranch = sp.edgeToBranch := by
  unfold pushMandatory at e
  split at e
  · cases e
  · cases e; exact ⟨rfl, rfl⟩

omit [Rounding] in
theorem requireEdge_cons {sp sp' : SubProblem} {e : Edge} (h : requireEdge c sp e = .ok sp') : sp'.cons = setCons sp.cons e.src e.dest .mandatory ∧ sp'.edgeToBranch = sp.edgeToBranch :=
  pushMandatory_cons h

omit [Rounding] in
/-- inference only decides -/
theorem inferConstraints_decides {sp : SubProblem} {f : Nat} {r : (SubProblem × Nat) × Bool} (e : inferConstraints c sp f = .ok r) :
    Decides c.maxV sp.cons r.1.1.cons ∧ r.1.1.edgeToBranch = sp.edgeToBranch := by
  refine forList_inv (fun _ (r : (SubProblem × Nat) × Bool) => Decides c.maxV sp.cons r.1.1.cons ∧ r.1.1.edgeToBranch = sp.edgeToBranch) ?_ _ _ _ ⟨Decides.refl _, rfl⟩ e
  intro _ i s s' h e
  unfold inferRow at e
  split at e
  · simp only at e
    split at e
    · obtain ⟨q, e1, e2⟩ := bind_eq_ok.1 e
      cases e2
      refine forList_inv (fun _ (r : SubProblem × Nat) => Decides c.maxV sp.cons r.1.cons ∧ r.1.edgeToBranch = sp.edgeToBranch) ?_ _ _ _ h e1
      intro _ j b b' hb e
      cases e
      exact ⟨hb.1.set _ _ (by simp), hb.2⟩
    · split at e
      · cases e; exact h
      · split at e
        · split at e
          · obtain ⟨q, e1, e2⟩ := bind_eq_ok.1 e
            cases e2
            refine forList_inv (fun _ (r : SubProblem × Nat) => Decides c.maxV sp.cons r.1.cons ∧ r.1.edgeToBranch = sp.edgeToBranch) ?_ _ _ _ h e1
            intro _ j b b' hb e
            unfold inferMandatory at e
            obtain ⟨q', e1, e2⟩ := bind_eq_ok.1 e
            cases e2
            obtain ⟨k1, k2⟩ := pushMandatory_cons e1
            simp only at k1 k2 ⊢
            rw [k1, k2]
            exact ⟨hb.1.set _ _ (by simp), hb.2⟩
          · cases e; exact h
        · cases e; exact h
  · cases e; exact h

omit [Rounding] in
/-- a child decides everything its father decides, and the branching edge -/
theorem makeChild_decides {mem cur ch : SubProblem} {e : Edge} {id i : Nat} (h : makeChild c mem cur e id i = .ok ch) :
    Decides c.maxV cur.cons ch.cons ∧ ch.cons e.src e.dest ≠ .nothing ∧ ch.edgeToBranch = -1 := by
  unfold makeChild at h
  simp only at h
  obtain ⟨s, e1, e2⟩ := bind_eq_ok.1 h
  unfold copyConstraints at e1
  have hc := forList_inv (CopyInv c { mem with type := .opened, id := id, fatherId := cur.id, value := cur.value, treeLevel := cur.treeLevel + 1, numCycle := 0, prob := cur.prob, edgeToBranch := -1 } cur)
    (fun P a b b' h e => copyCell_ok h e) _ _ _ (by exact ⟨rfl, by simp, by simp, by simp, by simp, by simp⟩) e1
  have hd : Decides c.maxV cur.cons s.cons := by
    intro u hu v hv huv
    rw [hc.cons u v (by rw [mem_upperPairs, mem_upperPairs]; simp only; omega)]
    exact huv
  have hed : s.edgeToBranch = -1 := by
    have := hc.rest
    unfold SameRest at this
    rw [this]
  split at e2
  · obtain ⟨k1, k2⟩ := requireEdge_cons e2
    rw [k1, k2]
    exact ⟨hd.set _ _ (by simp), by rw [setCons_apply, if_pos (Or.inl ⟨rfl, rfl⟩)]; simp, hed⟩
  · cases e2
    exact ⟨hd.set _ _ (by simp), by show setCons s.cons _ _ _ _ _ ≠ _; rw [setCons_apply, if_pos (Or.inl ⟨rfl, rfl⟩)]; simp, hed⟩

/-- variable fixing only decides -/
theorem variableFixing_decides {p : Problem} {sp : SubProblem} {r : SubProblem × Nat} (e : variableFixing c p sp = .ok r) :
    Decides c.maxV sp.cons r.1.cons ∧ r.1.edgeToBranch = sp.edgeToBranch := by
  unfold variableFixing at e
  obtain ⟨s1, e1, e⟩ := bind_eq_ok.1 e
  obtain ⟨s2, e2, e⟩ := bind_eq_ok.1 e
  cases e
  have h1 := forList_inv (fun _ (s : FixState) => Decides c.maxV sp.cons s.sp.cons ∧ s.sp.edgeToBranch = sp.edgeToBranch) (by
    intro _ i s s' h e
    unfold fixForbid at e
    simp only at e
    split at e
    · obtain ⟨m, e1, e2⟩ := bind_eq_ok.1 e
      have hm : Decides c.maxV sp.cons m.sp.cons ∧ m.sp.edgeToBranch = sp.edgeToBranch := by
        split at e1
        · obtain ⟨q, -, e4⟩ := bind_eq_ok.1 e1
          split at e4
          · cases e4; exact ⟨h.1.set _ _ (by simp), h.2⟩
          · cases e4; exact h
        · cases e1; exact h
      split at e2
      · split at e2
        · cases e2; exact hm
        · cases e2; exact hm
      · cases e2; exact hm
    · cases e; exact h) _ _ _ ⟨Decides.refl _, rfl⟩ e1
  refine forList_inv (fun _ (s : FixState) => Decides c.maxV sp.cons s.sp.cons ∧ s.sp.edgeToBranch = sp.edgeToBranch) ?_ _ _ _ h1 e2
  intro _ i s s' h e
  have req : ∀ {q : SubProblem}, requireEdge c s.sp (s.sp.oneTree.edges i) = .ok q → Decides c.maxV sp.cons q.cons ∧ q.edgeToBranch = sp.edgeToBranch := by
    intro q hq
    obtain ⟨k1, k2⟩ := requireEdge_cons hq
    rw [k1, k2]; exact ⟨h.1.set _ _ (by simp), h.2⟩
  unfold fixMandatory at e
  simp only at e
  split at e
  · split at e
    · split at e
      · cases e
      · split at e
        · obtain ⟨q, e1, e2⟩ := bind_eq_ok.1 e
          cases e2; exact req e1
        · cases e; exact h
    · split at e
      · obtain ⟨q, e1, e2⟩ := bind_eq_ok.1 e
        cases e2; exact req e1
      · cases e; exact h
  · cases e; exact h

/-! ### `bound` does not touch the constraints -/

theorem constrainedPrim_frame {pn : Nat} {g : Graph} {sp sp' : SubProblem} {cand : Nat} {loc : PState} (e : constrainedPrim c pn g sp cand loc = .ok sp') :
    ∃ t, sp' = { sp with oneTree := t } := by
  unfold constrainedPrim at e
  simp only at e
  obtain ⟨s1, -, e⟩ := bind_eq_ok.1 e
  obtain ⟨s2, -, e⟩ := bind_eq_ok.1 e
  obtain ⟨s3, -, e⟩ := bind_eq_ok.1 e
  obtain ⟨s4, -, e⟩ := bind_eq_ok.1 e
  obtain ⟨s5, -, e⟩ := bind_eq_ok.1 e
  split at e
  · cases e; exact ⟨_, rfl⟩
  · cases e; exact ⟨_, rfl⟩

theorem mstToOneTree_frame {g : Graph} {sp : SubProblem} {cand : Nat} {r : BBType × SubProblem} (e : mstToOneTree c g sp cand = .ok r) :
    ∃ t, r.2 = { sp with oneTree := t } := by
  unfold mstToOneTree at e
  simp only at e
  obtain ⟨s1, -, e⟩ := bind_eq_ok.1 e
  split at e
  · cases e; exact ⟨_, rfl⟩
  · split at e
    · obtain ⟨s2, -, e⟩ := bind_eq_ok.1 e
      obtain ⟨s3, -, e⟩ := bind_eq_ok.1 e
      cases e; exact ⟨_, rfl⟩
    · split at e
      · obtain ⟨s2, -, e⟩ := bind_eq_ok.1 e
        obtain ⟨s3, -, e⟩ := bind_eq_ok.1 e
        cases e; exact ⟨_, rfl⟩
      · obtain ⟨s2, -, e⟩ := bind_eq_ok.1 e
        obtain ⟨s3, -, e⟩ := bind_eq_ok.1 e
        cases e; exact ⟨_, rfl⟩

omit [Rounding] in
theorem walkCycle_cons {g : Graph} {parent : Nat → Option Nat} {start : Nat} : ∀ (fuel dst : Nat) (sp sp' : SubProblem), walkCycle c g parent start fuel dst sp = .ok sp' →
    sp'.cons = sp.cons ∧ sp'.edgeToBranch = sp.edgeToBranch := by
  intro fuel
  induction fuel with
  | zero => intro dst sp sp' e; cases e
  | succ fuel ih =>
    intro dst sp sp' e
    unfold walkCycle at e
    split at e
    · cases e
    · split at e
      · cases e
      · simp only at e
        split at e
        · cases e; exact ⟨rfl, rfl⟩
        · have := ih _ _ _ e
          exact this

omit [Rounding] in
theorem checkHamiltonian_cons {g : Graph} {sp : SubProblem} {cand : Nat} {r : SubProblem × Bool} (e : checkHamiltonian c g sp cand = .ok r) :
    r.1.cons = sp.cons ∧ r.1.edgeToBranch = sp.edgeToBranch := by
  unfold checkHamiltonian at e
  obtain ⟨s, e1, e⟩ := bind_eq_ok.1 e
  cases e
  unfold dfs at e1
  simp only at e1
  split at e1
  · cases e1
  · split at e1
    · cases e1
    · obtain ⟨q, -, e1⟩ := bind_eq_ok.1 e1
      split at e1
      · exact walkCycle_cons _ _ _ _ e1
      · cases e1; exact ⟨rfl, rfl⟩

theorem judge_cons {iter : Nat} {p : Problem} {a : SubProblem} {r : SubProblem × Problem} (e : judge c iter p a = .ok r) :
    r.1.cons = a.cons ∧ r.1.edgeToBranch = a.edgeToBranch ∧ r.2.graph = p.graph := by
  unfold judge at e
  split at e
  · cases e; exact ⟨rfl, rfl, rfl⟩
  · obtain ⟨⟨a1, ham⟩, e1, e⟩ := bind_eq_ok.1 e
    have := checkHamiltonian_cons e1
    simp only at this e
    split at e
    · cases e; exact ⟨this.1, this.2, rfl⟩
    · cases e; exact ⟨this.1, this.2, rfl⟩

theorem boundIter_cons {cur : SubProblem} {loc : PState} {N iter : Nat} {s : BState} {r : BState ⊕ (Problem × BBType)} (e : boundIter c cur loc N iter s = .ok r) :
    (∀ s', r = .inl s' → s'.prob.graph = s.prob.graph ∧ ∃ a, s'.gen = s.gen ++ [a] ∧ a.cons = cur.cons ∧ a.edgeToBranch = cur.edgeToBranch) ∧
    (∀ q, r = .inr q → q.1.graph = s.prob.graph) := by
  unfold boundIter at e
  simp only at e
  generalize hp : (if s.first = true then s.prob else { s.prob with reform := if s.first = true then s.prob.graph else applyPi s.pi s.prob.graph.numEdges s.prob.reform }) = p at e
  have hg : p.graph = s.prob.graph := by rw [← hp]; split <;> rfl
  obtain ⟨a1, e1, e⟩ := bind_eq_ok.1 e
  obtain ⟨t1, rfl⟩ := constrainedPrim_frame e1
  simp only at e
  split at e
  · obtain ⟨⟨ty, a2⟩, e2, e⟩ := bind_eq_ok.1 e
    obtain ⟨t2, h2⟩ := mstToOneTree_frame e2
    simp only at h2 e
    subst h2
    split at e
    · obtain ⟨⟨val, score⟩, e3, e⟩ := bind_eq_ok.1 e
      obtain ⟨⟨a3, p3⟩, e4, e⟩ := bind_eq_ok.1 e
      obtain ⟨k1, k2, k3⟩ := judge_cons e4
      simp only at k1 k2 k3 e
      split at e
      · cases e
        refine ⟨by simp, ?_⟩
        intro q hq; cases hq; exact k3.trans hg
      · cases e
        refine ⟨?_, by simp⟩
        intro s' hs; cases hs
        exact ⟨k3.trans hg, a3, rfl, k1, k2⟩
    · cases e
      exact ⟨by simp, by intro q hq; cases hq; exact hg⟩
  · cases e
    exact ⟨by simp, by intro q hq; cases hq; exact hg⟩

theorem boundLoop_cons {cur : SubProblem} {loc : Nat → PState} {N : Nat} : ∀ (left iter : Nat) (s : BState) (r : BState ⊕ (Problem × BBType)),
    (∀ a ∈ s.gen, a.cons = cur.cons ∧ a.edgeToBranch = cur.edgeToBranch) → boundLoop c cur loc N left iter s = .ok r →
    (∀ s', r = .inl s' → s'.prob.graph = s.prob.graph ∧ ∀ a ∈ s'.gen, a.cons = cur.cons ∧ a.edgeToBranch = cur.edgeToBranch) ∧
    (∀ q, r = .inr q → q.1.graph = s.prob.graph) := by
  intro left
  induction left with
  | zero => intro iter s r h e; cases e; exact ⟨by intro s' hs; cases hs; exact ⟨rfl, h⟩, by simp⟩
  | succ left ih =>
    intro iter s r h e
    unfold boundLoop at e
    obtain ⟨q, e1, e⟩ := bind_eq_ok.1 e
    obtain ⟨k1, k2⟩ := boundIter_cons e1
    cases q with
    | inl s1 =>
      obtain ⟨g1, a, ga, ca, da⟩ := k1 s1 rfl
      have := ih (iter + 1) s1 r (by
        intro x hx
        rw [ga] at hx
        rcases List.mem_append.1 hx with hx | hx
        · exact h x hx
        · rw [List.mem_singleton] at hx; subst hx; exact ⟨ca, da⟩) e
      rw [g1] at this
      exact this
    | inr q =>
      cases e
      refine ⟨by simp, ?_⟩
      intro q' hq; cases hq; exact k2 q rfl

/-- `bound` keeps the graph and the constraints, and the branching edge it chooses is undecided -/
theorem bound_cons {loc : Nat → PState} {p p' : Problem} {cur cur' : SubProblem} (e : bound c loc p cur = .ok (p', cur')) :
    p'.graph = p.graph ∧ cur'.cons = cur.cons ∧
    (cur'.edgeToBranch = cur.edgeToBranch ∨ ∃ i < p.graph.numEdges, cur'.edgeToBranch = (i : Int) ∧ cur.cons (p.graph.edges i).src (p.graph.edges i).dest = .nothing) := by
  unfold bound at e
  split at e
  · simp only at e
    obtain ⟨r, e1, e⟩ := bind_eq_ok.1 e
    obtain ⟨k1, k2⟩ := boundLoop_cons _ _ _ _ (by simp) e1
    cases r with
    | inr q =>
      obtain ⟨p1, ty⟩ := q
      cases e
      exact ⟨k2 _ rfl, rfl, Or.inl rfl⟩
    | inl s =>
      obtain ⟨hg, hgen⟩ := k1 s rfl
      simp only at hg hgen e
      split at e
      · cases e
      · next a l hl =>
        have ha := hgen a (by rw [hl]; simp)
        split at e
        · cases e
          refine ⟨hg, ha.1, ?_⟩
          have := foldl_inv (f := pickEdge c s.prob.graph
              { a with type := (s.gen.foldl (pickBest s.bestLB) { a with oneTree := { a.oneTree with cost := a.value } }).type
                       value := (s.gen.foldl (pickBest s.bestLB) { a with oneTree := { a.oneTree with cost := a.value } }).value
                       oneTree := { a.oneTree with cost := a.value } }
              (s.gen.foldl (pickBest s.bestLB) { a with oneTree := { a.oneTree with cost := a.value } }) s.score)
            (fun P (r : ℚ × ℚ × Int) => r.2.2 = cur.edgeToBranch ∨
              ∃ i ∈ P, r.2.2 = (i : Int) ∧ cur.cons (p.graph.edges i).src (p.graph.edges i).dest = .nothing) (by
              intro P i r hr
              unfold pickEdge
              simp only
              split
              · next hcond =>
                right
                refine ⟨i, by simp, rfl, ?_⟩
                rw [← hg, ← ha.1]; exact hcond.1
              · rcases hr with hr | ⟨j, hj, hr⟩
                · exact Or.inl hr
                · exact Or.inr ⟨j, by simp [hj], hr⟩) (List.range s.prob.graph.numEdges) (-1, -1, a.edgeToBranch) (Or.inl ha.2)
          rcases this with h | ⟨i, hi, h1, h2⟩
          · exact Or.inl h
          · refine Or.inr ⟨i, ?_, h1, h2⟩
            rw [List.mem_range] at hi
            rw [← hg]; exact hi
        · cases e
          exact ⟨hg, ha.1, Or.inl ha.2⟩
  · cases e
    exact ⟨rfl, rfl, Or.inl rfl⟩

/-! ### the measure -/

/-- an open subproblem with `m` undecided entries counts `3 ^ m` -/
def load (n : Nat) (o : List SubProblem) : Nat := (o.map fun x => 3 ^ (undecided n x.cons).card).sum

omit [Rounding] in
theorem load_perm {n : Nat} {a b : List SubProblem} (h : a.Perm b) : load n a = load n b := (h.map _).sum_eq

/-- a round takes away one from the measure at least -/
theorem bbRound_load {k : Nat} {p p' : Problem} {cur : SubProblem} {rest o' : List SubProblem} (hends : ∀ i < p.graph.numEdges, (p.graph.edges i).src < c.maxV ∧ (p.graph.edges i).dest < c.maxV)
    (hopen : ∀ x ∈ cur :: rest, x.edgeToBranch = -1) (e : bbRound c env k p cur rest = .ok (p', o')) :
    p'.graph = p.graph ∧ (∀ x ∈ o', x.edgeToBranch = -1) ∧ load c.maxV o' + 1 ≤ load c.maxV (cur :: rest) := by
  obtain ⟨p1, cur1, e1, hcase⟩ := bbRound_cases e
  obtain ⟨g1, c1, b1⟩ := bound_cons e1
  have hpos : ∀ x : SubProblem, 1 ≤ 3 ^ (undecided c.maxV x.cons).card := fun x => Nat.one_le_pow _ _ (by omega)
  rcases hcase with ⟨-, rfl, rfl⟩ | ⟨hyes, cur2, fixed, e2, e3⟩
  · refine ⟨g1, fun x hx => hopen x (by simp [hx]), ?_⟩
    unfold load
    rw [List.map_cons, List.sum_cons]
    have := hpos cur
    omega
  · obtain ⟨d2, b2⟩ := variableFixing_decides e2
    simp only at d2 b2
    obtain ⟨ch0, ch1, r0, r1, o1, q1, f, m0, m1, i0, i1, -, -, hp', hperm⟩ := branch_parts e3
    simp only at m0 m1 hp'
    rcases b1 with b1 | ⟨i, hi, hie, hfree⟩
    · rw [hopen cur (by simp)] at b1; exact absurd b1 hyes.2
    have hee : p1.graph.edges cur2.edgeToBranch.toNat = p.graph.edges i := by rw [b2, hie, g1]; rfl
    rw [hee] at m0 m1
    have key : ∀ {ch : SubProblem} {r : (SubProblem × Nat) × Bool} {mem : SubProblem} {id j f' : Nat}, makeChild c mem cur2 (p.graph.edges i) id j = .ok ch →
        inferConstraints c ch f' = .ok r → (undecided c.maxV r.1.1.cons).card < (undecided c.maxV cur.cons).card ∧ r.1.1.edgeToBranch = -1 := by
      intro ch r mem id j f' m hi'
      obtain ⟨d3, n3, b3⟩ := makeChild_decides m
      obtain ⟨d4, b4⟩ := inferConstraints_decides hi'
      rw [c1] at d2
      refine ⟨((d2.trans d3).trans d4).card (hends i hi).1 (hends i hi).2 hfree ?_, by rw [b4, b3]⟩
      exact d4 _ (hends i hi).1 _ (hends i hi).2 n3
    obtain ⟨c0, n0⟩ := key m0 i0
    obtain ⟨c1', n1⟩ := key m1 i1
    refine ⟨by rw [hp']; exact g1, ?_, ?_⟩
    · intro x hx
      rw [hperm.mem_iff] at hx
      simp only [List.mem_append] at hx
      rcases hx with (hx | hx) | hx
      · split at hx
        · rw [List.mem_singleton] at hx; rw [hx]; exact n1
        · cases hx
      · split at hx
        · rw [List.mem_singleton] at hx; rw [hx]; exact n0
        · cases hx
      · exact hopen x (by simp [hx])
    · rw [load_perm hperm]
      unfold load
      rw [List.map_cons, List.sum_cons, List.map_append, List.map_append, List.sum_append, List.sum_append]
      obtain ⟨m, hm⟩ : ∃ m, (undecided c.maxV cur.cons).card = m + 1 := ⟨(undecided c.maxV cur.cons).card - 1, by omega⟩
      have q0 : 3 ^ (undecided c.maxV r0.1.1.cons).card ≤ 3 ^ m := Nat.pow_le_pow_right (by omega) (by omega)
      have q1 : 3 ^ (undecided c.maxV r1.1.1.cons).card ≤ 3 ^ m := Nat.pow_le_pow_right (by omega) (by omega)
      have q2 : 3 ^ (undecided c.maxV cur.cons).card = 3 * 3 ^ m := by rw [hm, pow_succ]; ring
      have q3 : 1 ≤ 3 ^ m := Nat.one_le_pow _ _ (by omega)
      have s0 : ((if r0.2 = true then [r0.1.1] else []).map fun x => 3 ^ (undecided c.maxV x.cons).card).sum ≤ 3 ^ m := by split <;> simp [q0]
      have s1 : ((if r1.2 = true then [r1.1.1] else []).map fun x => 3 ^ (undecided c.maxV x.cons).card).sum ≤ 3 ^ m := by split <;> simp [q1]
      rw [q2]
      omega

/-- the measure along a run -/
theorem Spec.Run.load {p0 : Problem} {o0 : List SubProblem} (hends : ∀ i < p0.graph.numEdges, (p0.graph.edges i).src < c.maxV ∧ (p0.graph.edges i).dest < c.maxV)
    (hopen : ∀ x ∈ o0, x.edgeToBranch = -1) {k : Nat} {p : Problem} {o made : List SubProblem} (h : Run c env p0 o0 k p o made) :
    p.graph = p0.graph ∧ (∀ x ∈ o, x.edgeToBranch = -1) ∧ k + Verif.load c.maxV o ≤ Verif.load c.maxV o0 ∧ made.length ≤ o0.length + 2 * k := by
  induction h with
  | start => exact ⟨rfl, hopen, by omega, by omega⟩
  | round h hclk e hn ih =>
    obtain ⟨i1, i2, i3, i4⟩ := ih
    obtain ⟨h1, h2, h3⟩ := bbRound_load (by rw [i1]; exact hends) i2 e
    refine ⟨h1.trans i1, h2, by omega, ?_⟩
    rw [List.length_append]
    have : ∀ {l : List SubProblem} {k : Nat} {p : Problem} {cur : SubProblem} {rest : List SubProblem}, Makes c env k p cur rest l → l.length ≤ 2 := by
      intro l k p cur rest hm; cases hm <;> simp
    have := this hn
    omega

end Verif
