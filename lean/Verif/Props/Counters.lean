import Verif.Proofs.Counters
import Verif.Props.SearchFails

/-!
# Property C62: the 16-bit counters of the search do not overflow
-/
namespace Verif
open Verif.Spec
set_option autoImplicit false

section Arith
variable [Rounding] {c : Cfg} {env : Env}

/-- the bounds on the counters of a subproblem of an instance with `n` nodes: at most `n` mandatory edges are recorded, at most `n (n + 1) / 2 + 1` forbidden ones are counted, and the
level is at most `n (n - 1) / 2 + 1` -/
structure SmallCounters (n : Nat) (x : SubProblem) : Prop where
  mandatory : x.numMandatory ≤ n
  forbidden : 2 * x.numForbidden ≤ n * (n + 1) + 2
  level : 2 * x.treeLevel + 2 * n ≤ n * (n + 1) + 2

omit [Rounding] in
theorem SmallCounters.short {n : Nat} {x : SubProblem} (h : SmallCounters n x) (hn : n ≤ 361) : x.numMandatory < 65536 ∧ x.numForbidden < 65536 ∧ x.treeLevel < 65536 := by
  have h1 := h.mandatory
  have h2 := h.forbidden
  have h3 := h.level
  have h4 : n * (n + 1) ≤ 361 * 362 := Nat.mul_le_mul hn (by omega)
  omega

/-- what holds of an open subproblem -/
structure Bounding (n : Nat) (x : SubProblem) : Prop where
  forb : 2 * fpot n x ≤ n * (n + 1) + 2
  level : 2 * x.treeLevel + 2 * (freePairs n x.cons).card + 2 * n ≤ n * (n + 1) + 2

omit [Rounding] in
theorem Bounding.small {n : Nat} {x : SubProblem} (h : Bounding n x) (hb : Bookkeeping n x) : SmallCounters n x := by
  have h1 := h.forb
  have h2 := h.level
  unfold fpot at h1
  exact ⟨hb.room, by omega, by omega⟩

omit [Rounding] in
theorem bbRoot_bounding : Bounding c.maxV (bbRoot c env) := by
  obtain ⟨m, e, -⟩ := initializeMatrix_ok c { env.root with treeLevel := 1, id := 1, fatherId := 0, type := .opened, prob := 0, value := INFINITE, numCycle := 0, edgeToBranch := -1 }
  unfold bbRoot
  rw [e]
  have := freePairs_total (n := c.maxV) m
  constructor
  · unfold fpot
    simp only
    omega
  · simp only
    omega

/-- the subproblem that is branched on, after fixing -/
theorem fixed_facts {p0 p p1 : Problem} {cur cur1 : SubProblem} {rest : List SubProblem} {loc : Nat → PState} (heps : 0 ≤ c.eps) (hs : SInv c p0 p (cur :: rest))
    (e1 : bound c loc p cur = .ok (p1, cur1)) : p1.graph = p.graph ∧ cur1.cons = cur.cons ∧ cur1.numForbidden = cur.numForbidden ∧ cur1.numMandatory = cur.numMandatory ∧
    cur1.treeLevel = cur.treeLevel ∧
    (cur1.type = .opened → ∀ r, variableFixing c p1 cur1 = .ok r → Bookkeeping c.maxV r.1 ∧ SameRest cur1 r.1 ∧ Refines cur1 r.1 ∧ fpot c.maxV r.1 ≤ fpot c.maxV cur ∧
      (cur1.edgeToBranch ≠ -1 → ∃ i < p.graph.numEdges, r.1.edgeToBranch.toNat = i ∧ cur.cons (p.graph.edges i).src (p.graph.edges i).dest = .nothing ∧
        (p.graph.edges i).src < c.maxV ∧ (p.graph.edges i).dest < c.maxV ∧ (p.graph.edges i).src ≠ (p.graph.edges i).dest)) := by
  obtain ⟨hb, hed, -⟩ := hs.subs cur (by simp)
  have hB := bound_ok hs.inst hb heps hs.value e1
  obtain ⟨g, j, hsame, hj⟩ := hB.same
  have hfr := hB.frame
  have hg1 : p1.graph = p.graph := by rw [hsame]
  have hends : ∀ i < p.graph.numEdges, (p.graph.edges i).src < c.maxV ∧ (p.graph.edges i).dest < c.maxV ∧ (p.graph.edges i).src ≠ (p.graph.edges i).dest := by
    intro i hi
    have := hs.inst.stored.ends i hi
    rw [hs.inst.nodes] at this
    exact this
  refine ⟨hg1, by rw [hfr], by rw [hfr], by rw [hfr], by rw [hfr], ?_⟩
  intro hty r e2
  obtain ⟨L, f1, f2, f3⟩ := hB.fix hty
  obtain ⟨b2, rest2, ref2, -⟩ := variableFixing_ok f1 f2 f3 e2
  refine ⟨b2, rest2, ref2, ?_, ?_⟩
  · have := variableFixing_pot (by rw [hfr]; exact hb.sym) (by rw [hg1]; exact hends) e2
    refine this.trans (le_of_eq ?_)
    unfold fpot
    rw [hfr]
  · intro hne
    have hed2 : r.1.edgeToBranch = cur1.edgeToBranch := by unfold SameRest at rest2; rw [rest2]
    rcases hB.edge hty with ⟨h', -⟩ | ⟨i, hi, hie, hfree⟩
    · rw [hed] at h'; exact absurd h' hne
    · exact ⟨i, hi, by rw [hed2, hie]; rfl, hfree, hends i hi⟩

omit [Rounding] in
/-- a child before inference -/
theorem child_small {cur cur1 cur2 ch mem : SubProblem} {e : Edge} {id i : Nat} (hB : Bounding c.maxV cur) (hs : e.src < c.maxV) (hd : e.dest < c.maxV) (hne : e.src ≠ e.dest)
    (hsym : SymMatrix c.maxV cur.cons) (hfree : cur.cons e.src e.dest = .nothing) (hl : cur1.treeLevel = cur.treeLevel) (hb : Bookkeeping c.maxV cur2) (hr : SameRest cur1 cur2)
    (m : makeChild c mem cur2 e id i = .ok ch) : SmallCounters c.maxV ch ∧ SymMatrix c.maxV ch.cons := by
  have k := makeChild_ok hb.sym hs hd hne m
  have hp := makeChild_pot hb.sym m
  have hlev : ch.treeLevel = cur.treeLevel + 1 := by
    rw [k.2.2.2.2.1, ← hl]
    unfold SameRest at hr
    rw [hr]
  have hfr := freePairs_lt (n := c.maxV) (a := cur.cons) (b := setCons cur.cons e.src e.dest .forbidden) (setCons_decides (by simp)) hs hd hne hfree (by rw [hsym.symm _ hd _ hs]; exact hfree)
    (by rw [setCons_apply, if_pos (Or.inl ⟨rfl, rfl⟩)]; simp) (by rw [setCons_apply, if_pos (Or.inr ⟨rfl, rfl⟩)]; simp)
  have h2 := hB.level
  unfold fpot at hp
  exact ⟨⟨k.1.room, by omega, by omega⟩, k.1.sym⟩

/-- the invariant along a run -/
theorem run_small {p0 : Problem} (heps : 0 ≤ c.eps) (h0 : SInv c p0 p0 [bbRoot c env]) {k : Nat} {p : Problem} {o made : List SubProblem}
    (hr : Run c env p0 [bbRoot c env] k p o made) : (∀ x ∈ o, Bounding c.maxV x) ∧ ∀ x ∈ made, SmallCounters c.maxV x := by
  generalize ho : [bbRoot c env] = o0 at *
  induction hr with
  | start =>
    subst ho
    refine ⟨?_, ?_⟩
    · intro x hx; rw [List.mem_singleton] at hx; subst hx; exact bbRoot_bounding
    · intro x hx; rw [List.mem_singleton] at hx; subst hx
      exact bbRoot_bounding.small (h0.subs _ (by simp)).1
  | @round k p2 p3 cur rest o3 made new hr hclk er hmk ih =>
    obtain ⟨i1, i2⟩ := ih
    have hs := SInv.run heps h0 hr
    have hcur := i1 cur (by simp)
    have hbk := (hs.subs cur (by simp)).1
    refine ⟨?_, ?_⟩
    · obtain ⟨kids, v, hR, -⟩ := bbRound_ok hs.inst hbk heps hs.value (hs.subs cur (by simp)).2.1 er
      obtain ⟨p1, cur1, e1, hcase⟩ := bbRound_cases er
      obtain ⟨g1, c1, -, -, l1, hfix⟩ := fixed_facts heps hs e1
      rcases hcase with ⟨-, rfl, rfl⟩ | ⟨hyes, cur2, fixed, e2, e3⟩
      · exact fun x hx => i1 x (by simp [hx])
      · obtain ⟨b2, rest2, ref2, pot2, hedge⟩ := hfix hyes.1 _ e2
        obtain ⟨i, hi, hie, hfree, d1, d2, d3⟩ := hedge hyes.2
        obtain ⟨ch0, ch1, r0, r1, o1, q1, f, m0, m1, j0, j1, -, -, hp', hperm⟩ := branch_parts e3
        simp only at m0 m1 hie b2 rest2 ref2
        rw [hie, g1] at m0 m1
        have key : ∀ {ch mem : SubProblem} {r : (SubProblem × Nat) × Bool} {id j f' : Nat}, makeChild c mem cur2 (p2.graph.edges i) id j = .ok ch →
            inferConstraints c ch f' = .ok r → Bounding c.maxV r.1.1 := by
          intro ch mem r id j f' m hi'
          have hch := makeChild_ok b2.sym d1 d2 d3 m
          have hp := makeChild_pot b2.sym m
          have hp' := inferConstraints_pot hch.1.sym hi'
          obtain ⟨hc, -⟩ := child_of d1 d2 d3 (by rw [c1]; exact hfree) b2 (by rw [c1]; exact hbk.sym) ref2 rest2 m hi'
          have hf := hc.fewer
          rw [undecided_card hc.book.sym, undecided_card (by rw [c1]; exact hbk.sym), c1] at hf
          have hl := hc.level
          rw [l1] at hl
          have := hcur.level
          exact ⟨by omega, by omega⟩
        intro x hx
        rw [hperm.mem_iff] at hx
        simp only [List.mem_append] at hx
        rcases hx with (hx | hx) | hx
        · split at hx
          · rw [List.mem_singleton] at hx; rw [hx]; exact key m1 j1
          · cases hx
        · split at hx
          · rw [List.mem_singleton] at hx; rw [hx]; exact key m0 j0
          · cases hx
        · exact i1 x (by simp [hx])
    · intro x hx
      rcases List.mem_append.1 hx with hx | hx
      · exact i2 x hx
      · cases hmk with
        | none => cases hx
        | two h1 h2 h3 h4 h5 h6 =>
          obtain ⟨g1, c1, -, -, l1, hfix⟩ := fixed_facts heps hs h1
          obtain ⟨b2, rest2, ref2, -, hedge⟩ := hfix h2.1 _ h3
          obtain ⟨i, hi, hie, hfree, d1, d2, d3⟩ := hedge h2.2
          simp only at hie b2 rest2
          rw [hie, g1] at h4 h6
          rcases List.mem_cons.1 hx with rfl | hx
          · exact (child_small hcur d1 d2 d3 hbk.sym hfree l1 b2 rest2 h4).1
          · rw [List.mem_singleton] at hx; subst hx
            exact (child_small hcur d1 d2 d3 hbk.sym hfree l1 b2 rest2 h6).1

/-- C62. In every state of the main loop of `branch_and_bound`, on every complete instance: every subproblem made so far and every open one has at most `n` recorded mandatory edges, a forbidden counter of
at most `n (n + 1) / 2 + 1` and a level of at most `n (n - 1) / 2 + 1`; so has the subproblem that is taken from the open list, after `bound` and after `variable_fixing`; and the number of
levels in the problem has the same bound. With at most 361 nodes they are all below 65536, so the unsigned shorts that hold them never wrap. -/
theorem C62_no_wrap {p p1 : Problem} {cand : Nat} (h : Instance c p) (hp : ProbsAbove c p) (heps : 0 ≤ c.eps) (hn : c.maxV ≤ 361)
    (e : findCandidate c env { p with bestValue := INFINITE } = .ok (p1, cand))
    {k : Nat} {p2 : Problem} {open2 made : List SubProblem} (hr : Run c env (bbStart p1 cand) [bbRoot c env] k p2 open2 made) :
    (∀ x, x ∈ made ∨ x ∈ open2 → SmallCounters c.maxV x ∧ x.numMandatory < 65536 ∧ x.numForbidden < 65536 ∧ x.treeLevel < 65536) ∧
    (∀ cur rest p3 cur1, open2 = cur :: rest → bound c (env.loc k) p2 cur = .ok (p3, cur1) → SmallCounters c.maxV cur1 ∧
      (cur1.type = .opened → ∀ r, variableFixing c p3 cur1 = .ok r → SmallCounters c.maxV r.1)) ∧
    p2.totLevels < 65536 := by
  obtain ⟨h0, -⟩ := start_inv h hp heps (by omega) e
  obtain ⟨k1, k2⟩ := run_small heps h0 hr
  have hs := SInv.run heps h0 hr
  have hopen : ∀ x ∈ open2, SmallCounters c.maxV x := fun x hx => (k1 x hx).small (hs.subs x hx).1
  refine ⟨?_, ?_, ?_⟩
  · intro x hx
    have : SmallCounters c.maxV x := by
      rcases hx with hx | hx
      · exact k2 x hx
      · exact hopen x hx
    exact ⟨this, this.short hn⟩
  · rintro cur rest p3 cur1 rfl e1
    have hc := hopen cur (by simp)
    have hb := k1 cur (by simp)
    obtain ⟨g1, c1, n1, n2, l1, hfix⟩ := fixed_facts heps hs e1
    refine ⟨⟨by rw [n2]; exact hc.mandatory, by rw [n1]; exact hc.forbidden, by rw [l1]; exact hc.level⟩, ?_⟩
    intro hty r e2
    obtain ⟨b2, rest2, -, pot2, -⟩ := hfix hty r e2
    have hf := hb.forb
    refine ⟨b2.room, ?_, ?_⟩
    · unfold fpot at pot2 hf; omega
    · unfold SameRest at rest2
      rw [rest2]
      show 2 * cur1.treeLevel + _ ≤ _
      rw [l1]; exact hc.level
  · obtain ⟨-, -, -, -, ⟨-, x, hx, hx2⟩, -⟩ := C45_accounting h hp heps (by omega) e hr
    rw [← hx2]
    exact ((k2 x hx).short hn).2.2

end Arith

/-- C62: a state on five nodes with open subproblems, the first of which has counted six forbidden pairs (the diagonal among them) -/
example : ∃ (env : Env) (p p1 p2 : Problem) (cand k : Nat) (x : SubProblem) (rest made : List SubProblem), Instance Ex.cF p ∧ ProbsAbove Ex.cF p ∧ 0 ≤ Ex.cF.eps ∧ Ex.cF.maxV ≤ 361 ∧
    findCandidate Ex.cF env { p with bestValue := INFINITE } = .ok (p1, cand) ∧ Run Ex.cF env (bbStart p1 cand) [bbRoot Ex.cF env] k p2 (x :: rest) made ∧ 5 < x.numForbidden ∧ x.treeLevel = 2 := by
  let env : Env := { Ex.env with clk := fun k => decide (2 ≤ k) }
  have h : Ex.okAnd (createEuclideanGraph Ex.cF (fun a b => Ex.wF a.pos b.pos) Ex.mem (Ex.nodes 5)) (fun g => checkFeasibility g &&
      Ex.okAnd (branchAndBound Ex.cF { Ex.env with clk := fun k => decide (2 ≤ k) } 10 (Ex.probN g)) (fun r => match r.2 with
        | [] => false
        | x :: _ => decide (5 < x.numForbidden) && decide (x.treeLevel = 2))) = true := by
    decide +kernel
  obtain ⟨g, e, h⟩ := Ex.okAnd_elim h
  rw [Bool.and_eq_true] at h
  obtain ⟨hfe, h⟩ := h
  obtain ⟨⟨p', o'⟩, e1, h⟩ := Ex.okAnd_elim h
  have hI : Instance Ex.cF (Ex.probN g) := by
    refine Ex.prob_instance (g := g) (d := Ex.wF) rfl (by decide) (show (0 : Nat) < 5 by decide) ?_ e
    intro u v huv hv
    have : v < 5 := hv
    interval_cases v <;> interval_cases u <;> decide +kernel
  obtain ⟨p1, cand, k, p2, made, q1, q2, -⟩ := branchAndBound_run e1 hfe
  match o', h, q2 with
  | x :: rest, h, q2 =>
    simp only [Bool.and_eq_true, decide_eq_true_eq] at h
    exact ⟨env, Ex.probN g, p1, p2, cand, k, x, rest, made, hI, Ex.classic rfl, by norm_num [Ex.cF], by norm_num [Ex.cF], q1, q2, h.1, h.2⟩

end Verif
