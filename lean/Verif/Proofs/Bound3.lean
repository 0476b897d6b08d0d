import Verif.Proofs.Bound2

/-!
# One iteration of `bound`
-/
namespace Verif
open Verif.Spec
set_option autoImplicit false

variable [Rounding] {c : Cfg} {p : Problem} {cur : SubProblem}

/-- the graph used in an iteration: weights increased by the dual variables of both ends -/
theorem used_ok (h : Instance c p) (hb : Bookkeeping c.maxV cur) {pi : Nat → ℚ} {used : Graph}
    (hu : (used = p.graph ∧ ∀ i, pi i = 0) ∨ used = applyPi pi p.graph.numEdges p.graph) :
    CReady c used cur p.cand (consSet c.maxV cur.cons .mandatory) (consSet c.maxV cur.cons .forbidden) ∧ used.numNodes = c.maxV ∧
    edgeSet used = edgeSet p.graph ∧ used.nodes = p.graph.nodes ∧ ∀ e ∈ edgeSet p.graph, weight used e = piWeight (weight p.graph) pi e := by
  have hr := h.cready hb
  rcases hu with ⟨rfl, h0⟩ | rfl
  · refine ⟨hr, h.nodes, rfl, rfl, ?_⟩
    intro e he; unfold piWeight reweigh; rw [h0, h0, add_zero, fl_zero, if_neg (by simp)]
  · obtain ⟨h1, h2, h3, h4, h5, h6, h7, -⟩ := applyPi_ok h.stored h.positions pi
    exact ⟨hr.applyPi pi, by rw [h5]; exact h.nodes, h3, h7, h4⟩

omit [Rounding] in
/-- two adjacent pairs with the same position are the same pair -/
theorem pos_inj {g : Graph} (st : Stored g) (ps : Positions g) {u v a b : Nat} (h1 : s(u, v) ∈ edgeSet g) (h2 : s(a, b) ∈ edgeSet g)
    (h : (g.mat u v).pos = (g.mat a b).pos) : s(u, v) = s(a, b) := by
  have key : ∀ {x y : Nat}, s(x, y) ∈ edgeSet g → ∃ i < g.numEdges, Joins (g.edges i) x y ∧ (g.mat x y).pos = i := by
    intro x y hxy
    obtain ⟨i, hi, hj⟩ := mem_edgeSet_adj.1 hxy
    refine ⟨i, hi, hj, ?_⟩
    have := ps i hi
    rcases hj with ⟨rfl, rfl⟩ | ⟨rfl, rfl⟩
    · exact this.2.1
    · exact this.2.2
  obtain ⟨i, hi, hj, e1⟩ := key h1
  obtain ⟨j, -, hj', e2⟩ := key h2
  rw [e1, e2] at h
  subst h
  rw [joins_iff] at hj hj'
  rw [← hj, ← hj']

/-- one more count of an edge -/
def bump (x : ℚ) : ℚ := fl (fl (fl (x * 10) + 1) / 10)

theorem bump_exact (hx : Exact) (x : ℚ) : bump x = x + 1 / 10 := by
  unfold bump; rw [hx, hx, hx]; ring

/-- the loop over the edges of the 1-tree -/
theorem sumLoop_ok {g : Graph} (st : Stored g) (ps : Positions g) {t : MST} {n : Nat} {L : List Edge} (rep : TreeRep c t n L) (hs : SimpleList n L)
    (hE : pairs L ⊆ edgeSet g) (count : Bool) (sc0 : Nat → ℚ) : ∀ (k : Nat) (r : ℚ × (Nat → ℚ)), k ≤ L.length →
    forList (sumEdge c g t count) (List.range k) (0, sc0) = .ok r →
    r.1 = flSum ((L.take k).map fun e => weight g (epair e)) ∧
    ∀ j, (r.2 j = sc0 j ∧ (count = true → ∀ i (hi : i < L.length), i < k → (g.mat L[i].src L[i].dest).pos ≠ j)) ∨ (count = true ∧ r.2 j = bump (sc0 j) ∧ ∃ i, ∃ hi : i < L.length, i < k ∧ (g.mat L[i].src L[i].dest).pos = j) := by
  intro k
  induction k with
  | zero =>
    intro r _ e
    cases e
    exact ⟨by simp, fun j => Or.inl ⟨rfl, fun _ i _ hi => absurd hi (by omega)⟩⟩
  | succ k ih =>
    intro r hk e
    rw [List.range_succ, forList_snoc] at e
    obtain ⟨r1, e1, e2⟩ := bind_eq_ok.1 e
    obtain ⟨i1, i2⟩ := ih r1 (by omega) e1
    have hkL : k < L.length := by omega
    have hed := rep.edges k hkL
    unfold sumEdge at e2
    simp only [hed] at e2
    have hmem : epair L[k] ∈ edgeSet g := hE (mem_pairs.2 ⟨_, List.getElem_mem hkL, rfl⟩)
    have hw : (g.mat L[k].src L[k].dest).weight = weight g (epair L[k]) := (st.mat_weight hmem).1
    have htot : fl (r1.1 + (g.mat L[k].src L[k].dest).weight) = flSum ((L.take (k + 1)).map fun e => weight g (epair e)) := by
      rw [i1, hw, List.take_succ_eq_append_getElem hkL, List.map_append, List.map_cons, List.map_nil, flSum_append]
    split at e2
    · cases e2
    split at e2
    · cases e2
    split at e2
    · next hc =>
      split at e2
      · cases e2
      cases e2
      refine ⟨htot, ?_⟩
      intro j
      simp only [upd_apply]
      by_cases hj : j = (g.mat L[k].src L[k].dest).pos
      · rw [if_pos hj]
        right
        refine ⟨hc, ?_, k, hkL, by omega, hj.symm⟩
        rw [← hj]
        rcases i2 j with ⟨h', -⟩ | ⟨-, -, i, hi, hik, h'⟩
        · rw [h']; rfl
        · exfalso
          have hmi : epair L[i] ∈ edgeSet g := hE (mem_pairs.2 ⟨_, List.getElem_mem hi, rfl⟩)
          have := pos_inj st ps (u := L[i].src) (v := L[i].dest) (a := L[k].src) (b := L[k].dest) hmi hmem (by rw [h', hj])
          exact List.pairwise_iff_getElem.1 hs.2 i k hi hkL hik this
      · rw [if_neg hj]
        rcases i2 j with ⟨h', hno⟩ | ⟨h0, h', i, hi, hik, h''⟩
        · refine Or.inl ⟨h', fun hc i hi hik => ?_⟩
          by_cases hie : i = k
          · subst hie; exact fun hh => hj hh.symm
          · exact hno hc i hi (by omega)
        · exact Or.inr ⟨h0, h', i, hi, by omega, h''⟩
    · next hc =>
      cases e2
      refine ⟨htot, ?_⟩
      intro j
      rcases i2 j with ⟨h', hno⟩ | ⟨h0, h', i, hi, hik, h''⟩
      · exact Or.inl ⟨h', fun hc' => absurd hc' hc⟩
      · exact Or.inr ⟨h0, h', i, hi, by omega, h''⟩

/-- what is known of a subproblem that `bound` puts in its list -/
structure Analysed (c : Cfg) (p : Problem) (cur a : SubProblem) (L : List Edge) : Prop where
  frame : a = { cur with oneTree := a.oneTree, prob := a.prob, type := a.type, value := a.value, numCycle := a.numCycle, cycle := a.cycle }
  rep : TreeRep c a.oneTree c.maxV L
  simple : SimpleList c.maxV L
  len : L.length = c.maxV
  one : OneTree c.maxV p.cand (edgeSet p.graph \ consSet c.maxV cur.cons .forbidden) (pairs L)
  value : a.value = flSum (L.map fun e => weight p.graph (epair e))
  pos : ∀ i < c.maxV, (a.oneTree.nodes i).pos = i
  kind : (a.type = .opened ∧ c.eps < fl (p.bestValue - a.value) ∧ ¬ ∃ t, IsTour c.maxV t ∧ tourEdges t = pairs L) ∨
    (a.type = .closedBound ∧ fl (p.bestValue - a.value) ≤ c.eps)

/-- the result of one iteration with dual variables `pi` that does not end the loop -/
structure Kept (c : Cfg) (p : Problem) (cur : SubProblem) (pi : Nat → ℚ) (a : SubProblem) (L : List Edge) : Prop extends Analysed c p cur a L where
  cost : a.oneTree.cost = flSum (L.map fun e => piWeight (weight p.graph) pi (epair e))
  bound : (∀ e ∈ consSet c.maxV cur.cons .mandatory, -(c.maxV : ℚ) ≤ piWeight (weight p.graph) pi e) →
    ∀ t, AllowedBy c.maxV cur.cons t → total (piWeight (weight p.graph) pi) (pairs L) ≤ tourCost (piWeight (weight p.graph) pi) t

/-- the tour uses no forbidden edge -/
def AllowedTree (c : Cfg) (_p : Problem) (cur : SubProblem) (t : List Nat) : Prop := ∀ e ∈ tourEdges t, e ∉ consSet c.maxV cur.cons .forbidden

omit [Rounding] in
theorem SimpleList.reweight {n : Nat} {L : List Edge} (h : SimpleList n L) (f : Sym2 Nat → ℚ) :
    SimpleList n (L.map fun e => { e with weight := f (epair e) }) ∧ pairs (L.map fun e => { e with weight := f (epair e) }) = pairs L := by
  refine ⟨⟨?_, ?_⟩, ?_⟩
  · intro e he
    obtain ⟨x, hx, rfl⟩ := List.mem_map.1 he
    exact h.1 x hx
  · rw [List.pairwise_map]; exact h.2
  · ext e
    rw [mem_pairs, mem_pairs]
    constructor
    · rintro ⟨x, hx, rfl⟩
      obtain ⟨y, hy, rfl⟩ := List.mem_map.1 hx
      exact ⟨y, hy, rfl⟩
    · rintro ⟨x, hx, rfl⟩
      exact ⟨_, List.mem_map.2 ⟨x, hx, rfl⟩, rfl⟩

omit [Rounding] in
theorem totalWeight_reweight {n : Nat} {L : List Edge} (h : SimpleList n L) (f : Sym2 Nat → ℚ) :
    totalWeight (L.map fun e => { e with weight := f (epair e) }) = total f (pairs L) := by
  obtain ⟨h1, h2⟩ := SimpleList.reweight h f
  rw [SimpleList.total h1 (w := f), h2]
  intro e he
  obtain ⟨x, -, rfl⟩ := List.mem_map.1 he
  rfl

omit [Rounding] in
theorem total_pairs {n : Nat} {L : List Edge} (h : SimpleList n L) (f : Sym2 Nat → ℚ) : total f (pairs L) = (L.map fun e => f (epair e)).sum := by
  rw [← totalWeight_reweight h f]
  unfold totalWeight
  rw [List.map_map]
  rfl

/-- one iteration of `bound` -/
theorem boundIter_ok (h : Instance c p) (hb : Bookkeeping c.maxV cur) {s : BState} {loc : PState} {N iter : Nat} {r : BState ⊕ (Problem × BBType)}
    (hg : s.prob.graph = p.graph) (hc : s.prob.cand = p.cand) (hbv : s.prob.bestValue = p.bestValue)
    (hf : (s.first = true ∧ ∀ i, s.pi i = 0) ∨ (s.first = false ∧ s.prob.reform = p.graph)) (e : boundIter c cur loc N iter s = .ok r) :
    ∃ p1, (∃ g, p1 = { s.prob with reform := g }) ∧
    ((r = .inr (p1, .closedUnfeasible) ∧ ((∀ e ∈ edgeSet p.graph, piWeight (weight p.graph) s.pi e < FLT_MAX) → ∀ t, ¬ AllowedBy c.maxV cur.cons t)) ∨
     (∃ a L, Kept c p cur s.pi a L ∧ iter = 1 ∧ r = .inr (p1, .closedBound) ∧ a.type = .closedBound) ∨
     (∃ a t, Solution c.maxV (weight p.graph) a t ∧ r = .inr ({ p1 with bestValue := a.value, best := a }, a.type) ∧
       (a.type = if iter = 1 then .closed1Tree else .closedSubgradient) ∧ c.eps < fl (p.bestValue - a.value) ∧ AllowedTree c p cur t ∧
       ((∀ e ∈ consSet c.maxV cur.cons .mandatory, -(c.maxV : ℚ) ≤ piWeight (weight p.graph) s.pi e) →
         ∀ t', AllowedBy c.maxV cur.cons t' → tourCost (piWeight (weight p.graph) s.pi) t ≤ tourCost (piWeight (weight p.graph) s.pi) t')) ∨
     (∃ a L sc, Kept c p cur s.pi a L ∧ r = .inl (dualUpdate c N iter s a p1 sc) ∧
       (∀ j, sc j = s.score j ∨ (iter > N - 10 ∧ sc j = bump (s.score j))) ∧
       (∀ j < p.graph.numEdges, sc j = if iter > N - 10 ∧ epair (p.graph.edges j) ∈ pairs L then bump (s.score j) else s.score j) ∧
       (s.first = true → ∃ sp1 sp2, constrainedPrim c p.graph.numNodes p.graph cur p.cand loc = .ok sp1 ∧ sp1.oneTree.isValid = true ∧
         mstToOneTree c p.graph sp1 p.cand = .ok (.opened, sp2) ∧ a.oneTree = sp2.oneTree))) := by
  unfold boundIter at e
  simp only at e
  generalize hused : (if s.first = true then s.prob.graph else applyPi s.pi s.prob.graph.numEdges s.prob.reform) = used at e
  generalize hp1 : (if s.first = true then s.prob else { s.prob with reform := used }) = p1 at e
  have hp1' : ∃ g, p1 = { s.prob with reform := g } := by
    rw [← hp1]; split
    · exact ⟨s.prob.reform, rfl⟩
    · exact ⟨used, rfl⟩
  have hg1 : p1.graph = p.graph := by obtain ⟨g, rfl⟩ := hp1'; exact hg
  have hc1 : p1.cand = p.cand := by obtain ⟨g, rfl⟩ := hp1'; exact hc
  have hbv1 : p1.bestValue = p.bestValue := by obtain ⟨g, rfl⟩ := hp1'; exact hbv
  refine ⟨p1, hp1', ?_⟩
  have hu : (used = p.graph ∧ ∀ i, s.pi i = 0) ∨ used = applyPi s.pi p.graph.numEdges p.graph := by
    rcases hf with ⟨h1, h2⟩ | ⟨h1, h2⟩
    · rw [if_pos h1, hg] at hused; exact Or.inl ⟨hused.symm, h2⟩
    · rw [if_neg (by simp [h1]), h2, hg] at hused; exact Or.inr hused.symm
  obtain ⟨hr, hnn, hE, hnd, hw⟩ := used_ok h hb hu
  have hpos : (used.nodes p.cand).pos = p.cand := by rw [hnd]; exact h.pos _ h.cand
  have hn3 : 3 ≤ used.numNodes := by rw [hnn]; exact h.three
  have hiff := fun t => allowedBy_iff (t := t) hb.sym h.complete h.three
  rw [hg1, hc1] at e
  obtain ⟨a1, e1, e⟩ := bind_eq_ok.1 e
  split at e
  · next hv =>
    obtain ⟨⟨ty, a2⟩, e2, e⟩ := bind_eq_ok.1 e
    rcases relaxation hr hpos hn3 e1 hv with (⟨-, h'⟩ | ⟨-, h'⟩) | ⟨h', hno⟩ | ⟨t, L, et, rep, hsim, ⟨hlen, -, -⟩, ho, -, -, hp, hLw, -, -, hlb⟩
    · rw [h'] at e2; cases e2
    · rw [h'] at e2; cases e2
    · rw [h'] at e2; cases e2
      simp only at e
      cases e
      left
      refine ⟨rfl, fun _ t ht => ?_⟩
      have := (hiff t).1 ht
      rw [hnn, hE] at hno
      exact hno t this.1 this.2
    rw [et] at e2; cases e2
    simp only at e
    rw [hnn] at rep hsim hlen ho hp hlb
    rw [hE] at ho hlb
    rw [hnd] at hp
    have hsubE : pairs L ⊆ edgeSet p.graph := ho.sub.trans Finset.sdiff_subset
    obtain ⟨⟨value, score⟩, e3, e⟩ := bind_eq_ok.1 e
    obtain ⟨k1, k2⟩ := sumLoop_ok h.stored h.positions rep hsim hsubE _ _ _ _ (by rw [h.nodes]; omega) e3
    have hvalue : value = flSum (L.map fun e => weight p.graph (epair e)) := by
      simp only at k1
      rw [k1, h.nodes, List.take_of_length_le (by omega)]
    have hLw' : ∀ e ∈ L, e.weight = weight used (epair e) := by
      intro e he
      obtain ⟨i, hi, h1, h2⟩ := hLw e he
      rw [h2, h1, hr.stored.weight_eq hi]
    have hcost' : t.cost = flSum (L.map fun e => piWeight (weight p.graph) s.pi (epair e)) := by
      rw [rep.sum]
      congr 1
      refine List.map_congr_left fun e he => ?_
      rw [hLw' e he]
      exact hw _ (hsubE (mem_pairs.2 ⟨e, he, rfl⟩))
    have hpos' : ∀ i < c.maxV, (t.nodes i).pos = i := fun i hi => by rw [hp i hi]; exact h.pos i hi
    have hbound : (∀ e ∈ consSet c.maxV cur.cons .mandatory, -(c.maxV : ℚ) ≤ piWeight (weight p.graph) s.pi e) →
        ∀ t', AllowedBy c.maxV cur.cons t' → total (piWeight (weight p.graph) s.pi) (pairs L) ≤ tourCost (piWeight (weight p.graph) s.pi) t' := by
      intro hlow t' ht'
      have ha := (hiff t').1 ht'
      have := hlb (by
        intro e he
        rw [h.nodes]
        have he' := (mem_away.1 he).1
        rw [hw e (by have := hr.mand_sub he'; rwa [hE] at this)]
        exact hlow e he') t' ha.1 ha.2
      rw [ha.1.cost h.three, total_congr (fun e he => hw e (hsubE he)), total_congr (fun e he => hw e (ha.2.1 he)), ← ha.1.cost h.three] at this
      exact this
    -- the judgement
    obtain ⟨⟨a3, p3⟩, e4, e⟩ := bind_eq_ok.1 e
    unfold judge at e4
    simp only [hbv1, hg1, hc1] at e4
    have hfirst : s.first = true → ∃ sp1 sp2, constrainedPrim c p.graph.numNodes p.graph cur p.cand loc = .ok sp1 ∧ sp1.oneTree.isValid = true ∧
         mstToOneTree c p.graph sp1 p.cand = .ok (.opened, sp2) ∧ t = sp2.oneTree := by
      intro hft
      rw [if_pos hft, hg] at hused
      subst hused
      exact ⟨a1, _, e1, hv, et, rfl⟩
    have hsc : ∀ j, score j = s.score j ∨ (iter > N - 10 ∧ score j = bump (s.score j)) := by
      intro j
      rcases k2 j with ⟨h', -⟩ | ⟨h0, h', -⟩
      · exact Or.inl h'
      · exact Or.inr ⟨by simpa using h0, h'⟩
    have hex : ∀ j < p.graph.numEdges, score j = if iter > N - 10 ∧ epair (p.graph.edges j) ∈ pairs L then bump (s.score j) else s.score j := by
      intro j hj
      have hposj : ∀ i (hi : i < L.length), (p.graph.mat L[i].src L[i].dest).pos = j ↔ epair L[i] = epair (p.graph.edges j) := by
        intro i hi
        have hpj := h.positions j hj
        have hjE : s((p.graph.edges j).src, (p.graph.edges j).dest) ∈ edgeSet p.graph := mem_edgeSet.2 ⟨j, hj, rfl⟩
        have hmi : s(L[i].src, L[i].dest) ∈ edgeSet p.graph := hsubE (mem_pairs.2 ⟨_, List.getElem_mem hi, rfl⟩)
        constructor
        · intro h'
          exact pos_inj h.stored h.positions hmi hjE (by rw [h', hpj.2.1])
        · intro h'
          rcases Sym2.eq_iff.1 (show s(L[i].src, L[i].dest) = s((p.graph.edges j).src, (p.graph.edges j).dest) from h') with ⟨h1, h2⟩ | ⟨h1, h2⟩
          · rw [h1, h2]; exact hpj.2.1
          · rw [h1, h2]; exact hpj.2.2
      rcases k2 j with ⟨h', hno⟩ | ⟨h0, h', i, hi, -, hij⟩
      · rw [if_neg]
        · exact h'
        · rintro ⟨h1, h2⟩
          obtain ⟨x, hx, hxe⟩ := mem_pairs.1 h2
          obtain ⟨i, hi, rfl⟩ := List.getElem_of_mem hx
          exact hno (by simpa using h1) i hi (by rw [h.nodes]; omega) ((hposj i hi).2 hxe)
      · rw [if_pos ⟨by simpa using h0, mem_pairs.2 ⟨L[i], List.getElem_mem hi, (hposj i hi).1 hij⟩⟩]
        exact h'
    split at e4
    · next hle =>
      cases e4
      simp only at e
      have hK : ∀ a, a = { cur with oneTree := t, prob := t.prob, type := .closedBound, value := value } → Kept c p cur s.pi a L := by
        rintro a rfl
        exact ⟨⟨rfl, rep, hsim, hlen, ho, hvalue, hpos', Or.inr ⟨rfl, hle⟩⟩, hcost', hbound⟩
      split at e
      · next hcond =>
        cases e
        right; left
        refine ⟨_, L, hK _ rfl, ?_, rfl, rfl⟩
        rcases hcond.2 with h' | h'
        · exact h'
        · cases h'
      · cases e
        right; right; right
        exact ⟨_, L, score, hK _ rfl, rfl, hsc, hex, hfirst⟩
    · next hgt =>
      rw [not_le] at hgt
      obtain ⟨⟨a4, ham⟩, e5, e4⟩ := bind_eq_ok.1 e4
      have hst := storedTree_of_rep rep hsim hpos'
      have hTE : treeEdges t = pairs L := rep.treeEdges
      have honeE : OneTree c.maxV p.cand (edgeSet p.graph) (pairs L) := by
        refine ⟨hsubE, ⟨?_, ho.tree.conn, ho.tree.acyclic⟩, ho.two⟩
        exact Finset.filter_subset_filter _ hsubE
      obtain ⟨sp', b, q1, q2, q3, q4⟩ := C30_check_hamiltonian (c := c) (g := p.graph) (cand := p.cand)
        (sp := { cur with oneTree := t, prob := t.prob, type := .opened, value := value, numCycle := 0 })
        h.stored hst (by rw [rep.nn]; exact h.three) (by rw [rep.nn]) (by rw [rep.nn]; exact h.cand) (h.pos _ h.cand) rfl (by
          simp only; rw [rep.nn, hTE]; exact honeE)
      simp only [rep.nn, hTE] at q3 q4
      rw [q1] at e5
      cases e5
      simp only at e4
      split at e4
      · next hb1 =>
        cases e4
        obtain ⟨t', ht', hte, hrec⟩ := q4 hb1
        simp only at e
        have hcond : ((if iter = 1 then BBType.closed1Tree else BBType.closedSubgradient) ≠ BBType.opened ∧
            (iter = 1 ∨ (if iter = 1 then BBType.closed1Tree else BBType.closedSubgradient) = BBType.closedSubgradient)) := by
          by_cases hi : iter = 1
          · simp [hi]
          · simp [hi]
        rw [if_pos hcond] at e
        cases e
        right; right; left
        have hval' : Exact → value = tourCost (weight p.graph) t' := fun hx => by
          rw [hvalue, flSum_exact hx, ht'.cost h.three, hte]
          exact (total_pairs hsim _).symm
        have hadd : AddsUp (weight p.graph) (tourEdges t') value := by
          refine ⟨L.map epair, SimpleList.nodup hsim, ?_, ?_⟩
          · rw [hte]; rfl
          · rw [hvalue, List.map_map]; rfl
        have hq : a4.oneTree = t := by rw [q2]
        have hqv : a4.value = value := by rw [q2]
        refine ⟨{ a4 with type := if iter = 1 then BBType.closed1Tree else BBType.closedSubgradient }, t', ⟨ht', ⟨by simp only [hqv]; exact hadd, by simp only [hqv]; exact hval'⟩, ⟨hrec.1, hrec.2⟩, ?_⟩, ?_, rfl, by simp only [hqv]; exact hgt, ?_, ?_⟩
        · simp only [hq]; rw [hTE, hte]
        · simp only [hqv, hg1, hc1]
        · intro e he
          rw [hte] at he
          exact (Finset.mem_sdiff.1 (ho.sub he)).2
        · intro hlow t2 ht2
          have h1 := hbound hlow t2 ht2
          rwa [← hte, ← ht'.cost h.three] at h1
      · next hb1 =>
        cases e4
        simp only at e
        rw [if_neg (by simp)] at e
        cases e
        right; right; right
        refine ⟨{ a4 with type := .opened }, L, score, ?_, rfl, hsc, hex, ?_⟩
        · have hq : a4.oneTree = t := by rw [q2]
          have hqv : a4.value = value := by rw [q2]
          refine ⟨⟨?_, ?_, hsim, hlen, ho, ?_, ?_, Or.inl ⟨rfl, by simp only [hqv]; exact hgt, ?_⟩⟩, ?_, ?_⟩
          · rw [q2]
          · simp only [hq]; exact rep
          · simp only [hqv]; exact hvalue
          · simp only [hq]; exact hpos'
          · intro h'; exact hb1 (q3.2 h')
          · simp only [hq]; exact hcost'
          · exact hbound
        · intro h'
          have hq : a4.oneTree = t := by rw [q2]
          simp only [hq]; exact hfirst h'
  · next hv =>
    cases e
    left
    refine ⟨rfl, fun hsm t ht => ?_⟩
    have := (hiff t).1 ht
    have hno := invalid_no_tour hr hn3 (by
      intro e he
      rw [hE] at he
      have he' := (Finset.mem_sdiff.1 he).1
      rw [hw e he']; exact hsm e he') e1 (by simpa using hv)
    rw [hnn, hE] at hno
    exact hno t this.1 this.2

end Verif
