import Verif.Proofs.Bound4

/-!
# `bound` as a whole
-/
namespace Verif
open Verif.Spec
set_option autoImplicit false

variable [Rounding] {c : Cfg} {p : Problem} {cur : SubProblem}

omit [Rounding] in
/-- the choice among the generated subproblems -/
theorem pickBest_ok (lb : ℚ) (x : SubProblem) (l : List SubProblem) :
    l.foldl (pickBest lb) x = x ∨ (l.foldl (pickBest lb) x ∈ l ∧ (l.foldl (pickBest lb) x).value ≤ lb) := by
  refine foldl_inv (fun q b => b = x ∨ (b ∈ q ∧ b.value ≤ lb)) ?_ l x (Or.inl rfl)
  intro q a b hb
  unfold pickBest
  split
  · next h => exact Or.inr ⟨by simp, h.2⟩
  · rcases hb with h | ⟨h1, h2⟩
    · exact Or.inl h
    · exact Or.inr ⟨List.mem_append_left _ h1, h2⟩

/-- the choice of the branching edge -/
theorem pickEdge_ok (c : Cfg) (g : Graph) (cur best : SubProblem) (score : Nat → ℚ) (hs : ∀ j, 0 ≤ score j ∧ score j ≤ 10 / 8) (e0 : Int) (k : Nat) :
    let r := (List.range k).foldl (pickEdge c g cur best score) (-1, -1, e0)
    (r.2.2 = e0 ∧ r.1 = -1 ∧ ∀ i < k, ¬ (cur.cons (g.edges i).src (g.edges i).dest = .nothing ∧ best.oneTree.mat (g.edges i).src (g.edges i).dest ≠ -1)) ∨
    ∃ i < k, r.2.2 = (i : Int) ∧ cur.cons (g.edges i).src (g.edges i).dest = .nothing ∧ best.oneTree.mat (g.edges i).src (g.edges i).dest ≠ -1 := by
  induction k with
  | zero => simp
  | succ k ih =>
    simp only at ih ⊢
    rw [List.range_succ, List.foldl_append, List.foldl_cons, List.foldl_nil]
    generalize (List.range k).foldl (pickEdge c g cur best score) (-1, -1, e0) = r at ih
    unfold pickEdge
    simp only
    split
    · next h => exact Or.inr ⟨k, by omega, rfl, h.1, h.2.1⟩
    · next h =>
      rcases ih with ⟨h1, h2, h3⟩ | ⟨i, hi, h'⟩
      · refine Or.inl ⟨h1, h2, ?_⟩
        intro i hi hcon
        by_cases hik : i = k
        · subst hik
          refine h ⟨hcon.1, hcon.2, Or.inl ?_⟩
          rw [h2]
          have := hs i
          have e1 : fl ((-1 : ℚ) - 1 / 2) = -1 - 1 / 2 := by
            have := Rounding.exact (-3) (-1) (by norm_num) (by norm_num)
            norm_num at this ⊢
            exact this
          have e2 : fl (3 / 4) = 3 / 4 := by
            have := fl_eighth 6 (by norm_num)
            norm_num at this
            exact this
          have e3 : fl (-(1 / 2)) = -(1 / 2) := by
            have := Rounding.exact (-1) (-1) (by norm_num) (by norm_num)
            norm_num at this ⊢
            exact this
          rw [e1, show |(-1 : ℚ) - 1 / 2| = 3 / 2 by rw [abs_of_neg] <;> norm_num]
          rw [abs_lt]
          have f1 := fl_mono (show score i - 1 / 2 ≤ 3 / 4 by linarith)
          have f2 := fl_mono (show -(1 / 2) ≤ score i - 1 / 2 by linarith)
          rw [e2] at f1
          rw [e3] at f2
          constructor <;> linarith
        · exact h3 i (by omega) hcon
      · exact Or.inr ⟨i, by omega, h'⟩

omit [Rounding] in
theorem maxIter_three (c : Cfg) (level : Nat) : 15 ≤ maxIter c level := by
  unfold maxIter; split <;> omega

/-- what `bound` guarantees -/
structure Bounded (c : Cfg) (p : Problem) (cur : SubProblem) (p' : Problem) (cur' : SubProblem) : Prop where
  same : ∃ g k, p' = { p with explored := p.explored + k, reform := g, bestValue := p'.bestValue, best := p'.best } ∧ k ≤ 1
  best : (p'.bestValue = p.bestValue ∧ p'.best = p.best) ∨
    (c.eps < fl (p.bestValue - p'.bestValue) ∧ p'.best.value = p'.bestValue ∧ ∃ t, Solution c.maxV (weight p.graph) p'.best t)
  closed : ∀ z, Tame z c p cur (maxIter c cur.treeLevel) → ValidUpTo z c p cur → cur'.type ≠ .opened → ∀ t, AllowedBy c.maxV cur.cons t → p'.bestValue - c.eps - z.slack c.maxV ≤ tourCost (weight p.graph) t
  openBest : cur'.type = .opened → p'.bestValue = p.bestValue ∧ p'.best = p.best
  frame : cur' = { cur with type := cur'.type, value := cur'.value, oneTree := cur'.oneTree, prob := cur'.prob, numCycle := cur'.numCycle, cycle := cur'.cycle, edgeToBranch := cur'.edgeToBranch }
  value : ∀ z, Tame z c p cur (maxIter c cur.treeLevel) → cur'.type = .opened → ∀ t, Better (z.slack c.maxV) c p cur t → cur'.value ≤ tourCost (weight p.graph) t + z.gap c.maxV
  edge : cur'.type = .opened → (cur'.edgeToBranch = cur.edgeToBranch ∧ ∀ t, ¬ AllowedBy c.maxV cur.cons t) ∨
    ∃ i < p.graph.numEdges, cur'.edgeToBranch = (i : Int) ∧ cur.cons (p.graph.edges i).src (p.graph.edges i).dest = .nothing
  fix : cur'.type = .opened → ∃ L, FixReady c p' cur' L ∧ FixMin c p' cur' L ∧ (spokes p'.cand (pairs L)).card = 2

theorem Tame.slacks (h : Instance c p) (heps : 0 ≤ c.eps) {z : Scale} {N : Nat} (ht : Tame z c p cur N) :
    z.gap c.maxV + z.ε ≤ z.slack c.maxV ∧ c.maxV * z.ε ≤ z.gap c.maxV ∧ 0 ≤ z.slack c.maxV ∧ 0 ≤ z.gap c.maxV := by
  have hz := ht.sizes h heps
  have := hz.ne0
  have := hz.e0
  have e : z.slack c.maxV = 5 * (c.maxV * z.ε) + 6 * z.ε := by unfold Scale.slack; ring
  have e' : z.gap c.maxV = 5 * (c.maxV * z.ε) + 2 * z.ε := by unfold Scale.gap; ring
  rw [e, e']
  refine ⟨?_, ?_, ?_, ?_⟩ <;> linarith

theorem Tame.fine_sums (h : Instance c p) (heps : 0 ≤ c.eps) {z : Scale} {N : Nat} (ht : Tame z c p cur N) : Fine z c p := by
  have hz := ht.sizes h heps
  refine ⟨ht.near.mono ?_, ht.U0, ht.W0, ht.best, ht.weights, hz.ne1⟩
  have n0 : (0 : ℚ) ≤ c.maxV := by linarith [hz.n3]
  have a1 := mul_nonneg n0 hz.P0
  have a2 := mul_nonneg n0 hz.T0
  have a3 : 0 ≤ 4 * ((N : ℚ) * N) * (z.T c.maxV + 2) := by have := hz.T0; positivity
  unfold Scale.need
  linarith [show 4 * (c.maxV : ℚ) * (z.W + 1) = 4 * (c.maxV * z.W) + 4 * c.maxV by ring,
    show 4 * (c.maxV : ℚ) * (z.W + z.P c.maxV N + z.T c.maxV + 2) = 4 * (c.maxV * z.W) + 4 * (c.maxV * z.P c.maxV N) + 4 * (c.maxV * z.T c.maxV) + 8 * c.maxV by ring]

/-- an open 1-tree in which every edge is decided leaves no allowed tour -/
theorem Analysed.stuck (h : Instance c p) (hb : Bookkeeping c.maxV cur) {a : SubProblem} {L : List Edge} (hk : Analysed c p cur a L) (ho : a.type = .opened)
    (hno : ∀ i < p.graph.numEdges, ¬ (cur.cons (p.graph.edges i).src (p.graph.edges i).dest = .nothing ∧ a.oneTree.mat (p.graph.edges i).src (p.graph.edges i).dest ≠ -1)) :
    ∀ t, ¬ AllowedBy c.maxV cur.cons t := by
  intro t ht
  have hkind : ¬ ∃ t, IsTour c.maxV t ∧ tourEdges t = pairs L := by
    rcases hk.kind with ⟨-, -, h'⟩ | ⟨h', -⟩
    · exact h'
    · rw [h'] at ho; cases ho
  refine hkind ⟨t, ht.1, ?_⟩
  symm
  refine Finset.eq_of_subset_of_card_le ?_ (by rw [tourEdges_card h.three ht.1, SimpleList.card hk.simple, hk.len])
  intro e he
  have heE := Finset.mem_sdiff.1 (hk.one.sub he)
  obtain ⟨i, hi, hie⟩ := mem_edgeSet.1 heE.1
  have hends := h.stored.ends i hi
  rw [h.nodes] at hends
  have hm := (hk.rep.mat_mem hk.simple hends.1 hends.2.1).1
  have hin : a.oneTree.mat (p.graph.edges i).src (p.graph.edges i).dest ≠ -1 := by
    intro h'
    exact hm.1 h' (by rw [show s((p.graph.edges i).src, (p.graph.edges i).dest) = e from hie]; exact he)
  have hnn : cur.cons (p.graph.edges i).src (p.graph.edges i).dest ≠ .nothing := fun h' => hno i hi ⟨h', hin⟩
  rw [← hie] at heE ⊢
  cases hcv : cur.cons (p.graph.edges i).src (p.graph.edges i).dest with
  | nothing => exact absurd hcv hnn
  | mandatory => exact (ht.2 _ hends.1 _ hends.2.1 hends.2.2).1 hcv
  | forbidden => exact absurd ((mem_consSet hb.sym).2 ⟨hends.1, hends.2.1, hends.2.2, hcv⟩) heE.2

/-- the invariant before the loop -/
theorem BInv.init (h : Instance c p) (heps : 0 ≤ c.eps) : BInv c p cur (maxIter c cur.treeLevel) 1
    { pi := fun _ => 0, v := fun _ => 0, vOld := fun _ => 0, totalPi := 0, bestLB := 0, t0 := 0, gen := [], first := true
      score := fun _ => 0, prob := { p with explored := p.explored + 1 } } := by
  refine ⟨rfl, fun _ => ⟨rfl, rfl, fun _ => rfl, rfl⟩, fun h' => absurd rfl h', by simp, ?_, ?_⟩
  · intro j; simp
  · intro z htame t ht
    have hg := (htame.slacks h heps).2.2.2
    have hz := htame.sizes h heps
    unfold Scale.gap at hg
    refine ⟨le_refl _, by have := tourCost_nonneg h ht.1.1; simp only; linarith, ?_, ?_, ?_, ?_⟩
    · intro j _; simp [stepSum]
    · intro j _; simp [stepSum]
    · intro j _
      simp only
      constructor
      · norm_num
      · positivity
    · simp; exact hz.ne0

theorem bound_ok (h : Instance c p) (hb : Bookkeeping c.maxV cur) (heps : 0 ≤ c.eps)
    (hbest : p.best.value = p.bestValue)
    {loc : Nat → PState} {p' : Problem} {cur' : SubProblem} (e : bound c loc p cur = .ok (p', cur')) : Bounded c p cur p' cur' := by
  unfold bound at e
  split at e
  · next hopen =>
    obtain ⟨r, e1, e2⟩ := bind_eq_ok.1 e
    have hinit := BInv.init (cur := cur) h heps
    rcases boundLoop_inv h hb heps (by have := maxIter_three c cur.treeLevel; omega) loc _ _ _ _ (le_refl _) (by omega) hinit e1 with ⟨s, rfl, hs⟩ | ⟨p1, ty, rfl, hty, hcl, g, hp1⟩
    · obtain ⟨-, hreform, -, a, rest, L, loc', sp1, sp2, hgen, hk, q1, q2, q3, q4⟩ := hs.later (by have := maxIter_three c cur.treeLevel; omega)
      obtain ⟨z1, z2, z3⟩ := hk.zero h hb (fun _ => rfl)
      have hz : ({ a.oneTree with cost := a.value } : MST) = a.oneTree := by rw [← z1]
      simp only [hgen, hz] at e2
      have hpb := pickBest_ok s.bestLB a (a :: rest)
      generalize hbd : (a :: rest).foldl (pickBest s.bestLB) a = best at hpb e2
      -- the best one is analysed, and its value is a bound
      obtain ⟨L', hk'⟩ : ∃ L', Analysed c p cur best L' := by
        rcases hpb with rfl | ⟨h1, -⟩
        · exact ⟨L, hk.toAnalysed⟩
        · exact hs.gens best (by rw [hgen]; exact h1)
      have hvalue : ∀ z, Tame z c p cur (maxIter c cur.treeLevel) → ∀ t, Better (z.slack c.maxV) c p cur t → best.value ≤ tourCost (weight p.graph) t + z.gap c.maxV := by
        intro z htame t ht
        rcases hpb with rfl | ⟨-, h1⟩
        · have q1 := z3 t ht.1
          have q2 := abs_le.1 (htame.addsUp h heps hk.in_graph hk.card hk.addsUp)
          have q3 := (htame.slacks h heps).2.1
          linarith
        · exact h1.trans (hs.num z htame t ht).lb
      have hprob : s.prob = { p with explored := p.explored + 1, reform := s.prob.reform } := hs.prob
      have hsg : s.prob.graph = p.graph := by rw [hprob]
      have hsb : s.prob.bestValue = p.bestValue := by rw [hprob]
      have hsbest : s.prob.best = p.best := by rw [hprob]
      have hsc : s.prob.cand = p.cand := by rw [hprob]
      have hsame : ∃ g k, s.prob = { p with explored := p.explored + k, reform := g, bestValue := s.prob.bestValue, best := s.prob.best } ∧ k ≤ 1 :=
        ⟨s.prob.reform, 1, by rw [hsb, hsbest]; exact hprob, le_refl _⟩
      have hfr := hk.frame
      have hclosed : ∀ z, Tame z c p cur (maxIter c cur.treeLevel) → best.type ≠ .opened → ∀ t, AllowedBy c.maxV cur.cons t → s.prob.bestValue - c.eps - z.slack c.maxV ≤ tourCost (weight p.graph) t := by
        intro z htame hne t ht
        rw [hsb]
        rcases hk'.kind with ⟨h', -⟩ | ⟨-, h'⟩
        · exact absurd h' hne
        · by_cases hbt : tourCost (weight p.graph) t < p.bestValue - z.slack c.maxV
          · have q1 := hvalue z htame t ⟨ht, hbt⟩
            have q2 := htame.closed h heps h'
            have q3 := (htame.slacks h heps).1
            linarith
          · linarith
      split at e2
      · next hop =>
        have hcons : a.cons = cur.cons := by rw [hfr]
        have hed : a.edgeToBranch = cur.edgeToBranch := by rw [hfr]
        have hpe := pickEdge_ok c s.prob.graph { a with type := best.type, value := best.value } best s.score (by
          intro j
          obtain ⟨k1, k2⟩ := hs.score j
          refine ⟨k1, k2.trans ?_⟩
          have := maxIter_three c cur.treeLevel
          rw [show maxIter c cur.treeLevel + 1 - 1 - (maxIter c cur.treeLevel - 10) = 10 by omega]
          norm_num) a.edgeToBranch s.prob.graph.numEdges
        generalize hrd : (List.range s.prob.graph.numEdges).foldl (pickEdge c s.prob.graph { a with type := best.type, value := best.value } best s.score)
          (-1, -1, a.edgeToBranch) = rr at hpe e2
        simp only [hcons, hsg] at hpe
        cases e2
        refine ⟨hsame, Or.inl ⟨hsb, hsbest⟩, fun _ _ _ h' => absurd hop h', fun _ => ⟨hsb, hsbest⟩, ?_, fun z ht _ => hvalue z ht, ?_, ?_⟩
        · simp only; rw [hfr]
        · intro _
          rcases hpe with ⟨h1, -, h3⟩ | ⟨i, hi, h1, h3, -⟩
          · exact Or.inl ⟨by simp only; rw [h1, hed], hk'.stuck h hb hop h3⟩
          · exact Or.inr ⟨i, hi, h1, h3⟩
        · intro _
          obtain ⟨t, Lf, f1, f2, f3, f4⟩ := h.fixReady hb q1 q2 q3
          have htree : a.oneTree = t := by rw [q4, f1]
          have hmf : a.mandatory = cur.mandatory ∧ a.numMandatory = cur.numMandatory ∧ a.numForbidden = cur.numForbidden := by
            rw [hfr]; exact ⟨rfl, rfl, rfl⟩
          have f2t : sp2.oneTree = t := by rw [f1]
          have f2c : sp2.cons = cur.cons := by rw [f1]
          refine ⟨Lf, ⟨?_, ?_, ?_, ?_, ?_, h.three, ?_, ?_, f2.simple, f2.len, ?_, ?_, ?_, ?_⟩, ?_, ?_⟩
          · rw [hsg]; exact f2.stored
          · rw [hsg]; exact f2.nodes
          · rw [hsg]; exact f2.complete
          · rw [hsg]; exact f2.nonneg
          · rw [hsc]; exact f2.cand
          · exact ⟨by simp only [hcons]; exact hb.sym, by simp only [hcons, hmf]; exact hb.recorded, by simp only [hcons, hmf]; exact hb.entries,
              by simp only [hcons, hmf]; exact hb.counted, by simp only [hmf]; exact hb.room⟩
          · simp only; rw [q4]; exact f2.rep
          · simp only; rw [q4]; exact f2.pos
          · simp only; rw [q4, hsg]; exact f2.cost
          · rw [hsc]; exact f2.off
          · rw [hsc]; exact f2.conn
          · unfold FixMin at f3 ⊢
            simp only [hcons, hsg, hsc]
            rw [f2c] at f3
            exact f3
          · rw [hsc]; exact f4
      · next hop =>
        cases e2
        exact ⟨hsame, Or.inl ⟨hsb, hsbest⟩, fun z ht _ _ => hclosed z ht hop, fun h' => absurd h' hop, by simp only; rw [hfr], fun _ _ h' => absurd h' hop,
          fun h' => absurd h' hop, fun h' => absurd h' hop⟩
    · cases e2
      rcases hp1 with rfl | ⟨a, t, hsol, hlt, rfl⟩
      · exact ⟨⟨g, 1, rfl, le_refl _⟩, Or.inl ⟨rfl, rfl⟩, fun z ht _ _ => hcl z ht, fun h' => absurd h' hty, rfl, fun _ _ h' => absurd h' hty,
          fun h' => absurd h' hty, fun h' => absurd h' hty⟩
      · exact ⟨⟨g, 1, rfl, le_refl _⟩, Or.inr ⟨hlt, rfl, t, hsol⟩, fun z ht _ _ => hcl z ht, fun h' => absurd h' hty, rfl, fun _ _ h' => absurd h' hty,
          fun h' => absurd h' hty, fun h' => absurd h' hty⟩
  · next hopen =>
    cases e
    push Not at hopen
    refine ⟨⟨p.reform, 0, by simp, by omega⟩, Or.inl ⟨rfl, rfl⟩, ?_, by simp, rfl, by simp, by simp, by simp⟩
    intro z htame hval _ t ht
    by_cases hbt : tourCost (weight p.graph) t < p.bestValue - z.slack c.maxV
    · have q1 := hval hopen.2 t ht hbt
      have q2 := htame.closed h heps hopen.1
      have q3 := (htame.slacks h heps).1
      rw [hbest] at q2
      linarith
    · linarith

end Verif
