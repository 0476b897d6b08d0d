import Verif.Proofs.Search3
import Verif.Proofs.Term1
import Verif.Proofs.PathTotal

/-!
# No loop of the search runs out of fuel: every function of the search returns or leaves an array
-/
namespace Verif
open Verif.Spec
set_option autoImplicit false

variable [Rounding]

variable {c : Cfg} {env : Env} {p : Problem} {cur : SubProblem}

/-- the only faults are accesses outside an array at one of the four named places; the table of `consolidate` is left only with 57 nodes or more -/
def OnlyOob {α : Type} (c : Cfg) (x : Res α) : Prop := ∀ f, x = .error f → ∃ site, f = .oobAt site ∧ (site = .degreeList → 57 ≤ c.maxV)

omit [Rounding] in
theorem OnlyOob.ok {α : Type} (a : α) : OnlyOob c (.ok a : Res α) := by intro f h; cases h
omit [Rounding] in
theorem OnlyOob.mand {α : Type} : OnlyOob c (.error (.oobAt .mandatoryEdges) : Res α) := by intro f h; cases h; exact ⟨_, rfl, by simp⟩
omit [Rounding] in
theorem OnlyOob.best {α : Type} : OnlyOob c (.error (.oobAt .bestEdges) : Res α) := by intro f h; cases h; exact ⟨_, rfl, by simp⟩
omit [Rounding] in
theorem OnlyOob.minus {α : Type} : OnlyOob c (.error (.oobAt .minusOne) : Res α) := by intro f h; cases h; exact ⟨_, rfl, by simp⟩

omit [Rounding] in
theorem OnlyOob.bind {α β : Type} {x : Res α} {f : α → Res β} (hx : OnlyOob c x) (hf : ∀ a, x = .ok a → OnlyOob c (f a)) : OnlyOob c (x >>= f) := by
  cases x with
  | error e => intro f' h; cases h; exact hx e rfl
  | ok a => exact hf a rfl

omit [Rounding] in
theorem OnlyOob.forList {α β : Type} {f : β → α → Res β} (I : List α → β → Prop) (hstep : ∀ p a b b', I p b → f b a = .ok b' → I (p ++ [a]) b') :
    ∀ (l : List α), (∀ A a B b, l = A ++ a :: B → I A b → OnlyOob c (f b a)) → ∀ b, I [] b → OnlyOob c (Verif.forList f l b) := by
  intro l
  induction l using List.reverseRecOn with
  | nil => intro _ b _; exact OnlyOob.ok _
  | append_singleton l a ih =>
    intro hone b hb
    rw [forList_snoc]
    refine OnlyOob.bind (ih (fun A x B y hl => hone A x (B ++ [a]) y (by rw [hl]; simp)) b hb) ?_
    intro b1 e1
    exact hone l a [] b1 (by simp) (forList_inv I hstep l b b1 hb e1)

omit [Rounding] in
theorem pushMandatory_only {sp : SubProblem} {u v : Nat} : OnlyOob c (pushMandatory c sp u v) := by
  unfold pushMandatory; split
  · exact OnlyOob.mand
  · exact OnlyOob.ok _

omit [Rounding] in
theorem inferConstraints_only {sp : SubProblem} {f : Nat} : OnlyOob c (inferConstraints c sp f) := by
  refine OnlyOob.forList (fun _ _ => True) (by simp) _ ?_ _ trivial
  intro A i B s _ _
  unfold inferRow
  split
  · simp only
    split
    · refine OnlyOob.bind (OnlyOob.forList (fun _ _ => True) (by simp) _ ?_ _ trivial) (fun _ _ => OnlyOob.ok _)
      intro _ _ _ _ _ _; exact OnlyOob.ok _
    · split
      · exact OnlyOob.ok _
      · split
        · split
          · refine OnlyOob.bind (OnlyOob.forList (fun _ _ => True) (by simp) _ ?_ _ trivial) (fun _ _ => OnlyOob.ok _)
            intro _ _ _ _ _ _
            unfold inferMandatory
            exact OnlyOob.bind pushMandatory_only (fun _ _ => OnlyOob.ok _)
          · exact OnlyOob.ok _
        · exact OnlyOob.ok _
  · exact OnlyOob.ok _

omit [Rounding] in
theorem makeChild_only {mem : SubProblem} {e : Edge} {id i : Nat} : OnlyOob c (makeChild c mem cur e id i) := by
  unfold makeChild
  simp only
  refine OnlyOob.bind (OnlyOob.forList (fun _ _ => True) (by simp) _ ?_ _ trivial) ?_
  · intro _ a _ s _ _
    unfold copyCell
    simp only
    split
    · exact pushMandatory_only
    · split
      · exact OnlyOob.ok _
      · exact OnlyOob.ok _
  · intro s _
    split
    · exact pushMandatory_only
    · exact OnlyOob.ok _

theorem branch_only {mem : Nat → SubProblem} {o : List SubProblem} (hi : 0 ≤ cur.edgeToBranch ∧ cur.edgeToBranch < c.maxE) : OnlyOob c (branch c mem p o cur) := by
  unfold branch
  simp only
  split
  · omega
  · refine OnlyOob.forList (fun _ _ => True) (by simp) _ ?_ _ trivial
    intro _ i _ s _ _
    unfold branchChild
    refine OnlyOob.bind makeChild_only (fun ch _ => OnlyOob.bind inferConstraints_only (fun r _ => ?_))
    simp only
    split
    · exact OnlyOob.ok _
    · exact OnlyOob.ok _

/-! ### `variable_fixing` -/

variable {L : List Edge}

/-- the candidate has its two neighbours -/
theorem FixReady.two_nbrs (h : FixReady c p cur L) (h2 : (spokes p.cand (pairs L)).card = 2) : ¬ (cur.oneTree.nodes p.cand).nn < 2 := by
  have st := storedTree_of_rep h.rep h.simple h.pos
  have hT : treeEdges cur.oneTree = pairs L := h.rep.treeEdges
  have hc : p.cand < cur.oneTree.numNodes := by rw [h.rep.nn]; exact h.cand
  have hsub : spokes p.cand (pairs L) ⊆ ((cur.oneTree.nodes p.cand).list.toFinset).image (fun v => s(p.cand, v)) := by
    intro e he
    obtain ⟨h1, h3⟩ := mem_spokes.1 he
    obtain ⟨v, rfl⟩ := Sym2.mem_iff_exists.1 h3
    refine Finset.mem_image.2 ⟨v, ?_, rfl⟩
    rw [List.mem_toFinset, st.nbr _ hc, hT]; exact h1
  have hcard := Finset.card_le_card hsub
  have := Finset.card_image_le (s := (cur.oneTree.nodes p.cand).list.toFinset) (f := fun v => s(p.cand, v))
  have := List.toFinset_card_le (cur.oneTree.nodes p.cand).list
  rw [Node.nn_eq]
  omega

theorem fixMandatory_tree {i : Nat} {s s' : FixState} (e : fixMandatory c p s i = .ok s') : s'.sp.oneTree = s.sp.oneTree := by
  have req : ∀ {sp sp' : SubProblem} {e : Edge}, requireEdge c sp e = .ok sp' → sp'.oneTree = sp.oneTree := by
    intro sp sp' e h
    unfold requireEdge pushMandatory at h
    split at h
    · cases h
    · cases h; rfl
  unfold fixMandatory at e
  simp only at e
  split at e
  · split at e
    · split at e
      · cases e
      · split at e
        · obtain ⟨q, e1, e2⟩ := bind_eq_ok.1 e
          cases e2; exact req e1
        · cases e; rfl
    · split at e
      · obtain ⟨q, e1, e2⟩ := bind_eq_ok.1 e
        cases e2; exact req e1
      · cases e; rfl
  · cases e; rfl

theorem variableFixing_only (h : FixReady c p cur L) (hf : FixMin c p cur L) (h2 : (spokes p.cand (pairs L)).card = 2) : OnlyOob c (variableFixing c p cur) := by
  unfold variableFixing
  refine OnlyOob.bind ?_ (fun s1 e1 => OnlyOob.bind ?_ (fun s2 _ => OnlyOob.ok _))
  · -- the first loop
    have key : ∀ m ≤ p.graph.numEdges, OnlyOob c (forList (fixForbid c p) (List.range m) { sp := cur, num := 0, repl := fun _ => INFINITE, candRepl := INFINITE }) := by
      intro m
      induction m with
      | zero => intro _; exact OnlyOob.ok _
      | succ m ih =>
        intro hm
        rw [List.range_succ, forList_snoc]
        refine OnlyOob.bind (ih (by omega)) ?_
        intro s e1
        have hs := fixLoop1 h hf h2 m (by omega) { sp := cur, num := 0, repl := fun _ => INFINITE, candRepl := INFINITE } s
          ⟨(rfl : SameRest cur cur), h.book, fun _ _ => Or.inl rfl, fun _ _ t ht _ => ht, fun _ _ _ => fl_infinite, by simp, by simp⟩ e1
        have hr := h.change hs.rest hs.book
        have htree : s.sp.oneTree = cur.oneTree := hs.rest.tree
        have hends := h.stored.ends m (by omega)
        rw [h.nodes] at hends
        unfold fixForbid
        simp only
        split
        · refine OnlyOob.bind ?_ ?_
          · split
            · refine OnlyOob.bind ?_ ?_
              · split
                · next hcc =>
                  obtain ⟨r, er⟩ := maxEdgePath_total hr hends.1 hcc.2 hends.2.1 hcc.1 hends.2.2 s.repl
                  rw [er]; exact OnlyOob.ok _
                · rw [if_neg (by rw [htree]; exact h.two_nbrs h2)]
                  exact OnlyOob.ok _
              · intro r _
                split
                · exact OnlyOob.ok _
                · exact OnlyOob.ok _
            · exact OnlyOob.ok _
          · intro s1 _
            split
            · split
              · exact OnlyOob.ok _
              · exact OnlyOob.ok _
            · exact OnlyOob.ok _
        · exact OnlyOob.ok _
    exact key _ (le_refl _)
  · have hs1 := fixLoop1 h hf h2 _ (le_refl _) { sp := cur, num := 0, repl := fun _ => INFINITE, candRepl := INFINITE } s1
      ⟨(rfl : SameRest cur cur), h.book, fun _ _ => Or.inl rfl, fun _ _ t ht _ => ht, fun _ _ _ => fl_infinite, by simp, by simp⟩ e1
    refine OnlyOob.forList (fun _ (s : FixState) => s.sp.oneTree = cur.oneTree) (fun P i s s' hs e => (fixMandatory_tree e).trans hs) _ ?_ _ hs1.rest.tree
    intro A i B s hl hs
    have hi : i < c.maxV := by apply List.mem_range.1; rw [hl]; simp
    have hiL : i < L.length := by rw [h.len]; exact hi
    have hedge := h.rep.edges i hiL
    unfold fixMandatory
    simp only
    split
    · split
      · next hnc =>
        split
        · next hge =>
          have hoff := (h.off i hiL).2 hge
          rw [hs, hedge] at hnc
          simp only [epair, Sym2.mem_iff] at hoff
          rcases hoff with h' | h'
          · exact absurd h'.symm hnc.1
          · exact absurd h'.symm hnc.2
        · split
          · exact OnlyOob.bind pushMandatory_only (fun _ _ => OnlyOob.ok _)
          · exact OnlyOob.ok _
      · split
        · exact OnlyOob.bind pushMandatory_only (fun _ _ => OnlyOob.ok _)
        · exact OnlyOob.ok _
    · exact OnlyOob.ok _

/-! ### `bound` -/

theorem constrainedPrim_only {pn : Nat} {g : Graph} {sp : SubProblem} {cand : Nat} {M F : EdgeSet} (h : CReady c g sp cand M F) (hn : g.numNodes = c.maxV) (loc : PState) :
    OnlyOob c (constrainedPrim c pn g sp cand loc) := by
  rcases constrainedPrim_main (pn := pn) h loc with ⟨h', h57⟩ | ⟨t, L, h', -⟩
  · rw [h']
    intro f hf; cases hf
    exact ⟨_, rfl, fun _ => by omega⟩
  · rw [h']; exact OnlyOob.ok _

theorem boundIter_only (h : Instance c p) (hb : Bookkeeping c.maxV cur) {s : BState} {loc : PState} {N iter : Nat}
    (hg : s.prob.graph = p.graph) (hc : s.prob.cand = p.cand)
    (hf : (s.first = true ∧ ∀ i, s.pi i = 0) ∨ (s.first = false ∧ s.prob.reform = p.graph)) : OnlyOob c (boundIter c cur loc N iter s) := by
  unfold boundIter
  simp only
  generalize hused : (if s.first = true then s.prob.graph else applyPi s.pi s.prob.graph.numEdges s.prob.reform) = used
  generalize hp1 : (if s.first = true then s.prob else { s.prob with reform := used }) = p1
  have hp1' : ∃ g, p1 = { s.prob with reform := g } := by
    rw [← hp1]; split
    · exact ⟨s.prob.reform, rfl⟩
    · exact ⟨used, rfl⟩
  have hg1 : p1.graph = p.graph := by obtain ⟨g, rfl⟩ := hp1'; exact hg
  have hc1 : p1.cand = p.cand := by obtain ⟨g, rfl⟩ := hp1'; exact hc
  have hu : (used = p.graph ∧ ∀ i, s.pi i = 0) ∨ used = applyPi s.pi p.graph.numEdges p.graph := by
    rcases hf with ⟨h1, h2⟩ | ⟨h1, h2⟩
    · rw [if_pos h1, hg] at hused; exact Or.inl ⟨hused.symm, h2⟩
    · rw [if_neg (by simp [h1]), h2, hg] at hused; exact Or.inr hused.symm
  obtain ⟨hr, hnn, hE, hnd, hw⟩ := used_ok h hb hu
  have hpos : (used.nodes p.cand).pos = p.cand := by rw [hnd]; exact h.pos _ h.cand
  have hn3 : 3 ≤ used.numNodes := by rw [hnn]; exact h.three
  rw [hg1, hc1]
  refine OnlyOob.bind (constrainedPrim_only hr (by rw [hnn]) loc) ?_
  intro a1 e1
  split
  · next hv =>
    rcases relaxation hr hpos hn3 e1 hv with (⟨-, h'⟩ | ⟨-, h'⟩) | ⟨h', -⟩ | ⟨t, L, et, rep, hsim, ⟨hlen, -, -⟩, ho, -, -, hp, -⟩
    · rw [h']; exact OnlyOob.best
    · rw [h']; exact OnlyOob.minus
    · rw [h']; exact OnlyOob.ok _
    rw [et]
    simp only [ok_bind]
    rw [if_pos trivial]
    rw [hnn] at rep hsim hlen ho hp
    rw [hE] at ho
    rw [hnd] at hp
    have hsubE : pairs L ⊆ edgeSet p.graph := ho.sub.trans Finset.sdiff_subset
    have hpos' : ∀ i < c.maxV, (t.nodes i).pos = i := fun i hi => by rw [hp i hi]; exact h.pos i hi
    refine OnlyOob.bind ?_ ?_
    · refine OnlyOob.forList (fun _ _ => True) (by simp) _ ?_ _ trivial
      intro A i B r hl _
      have hi : i < c.maxV := by
        rw [← h.nodes]; apply List.mem_range.1; rw [hl]; simp
      have hiL : i < L.length := by omega
      have hed := rep.edges i hiL
      have hmem : epair L[i] ∈ edgeSet p.graph := hsubE (mem_pairs.2 ⟨_, List.getElem_mem hiL, rfl⟩)
      obtain ⟨j, hj, hje⟩ := mem_edgeSet_adj.1 (show s(L[i].src, L[i].dest) ∈ edgeSet p.graph from hmem)
      have hjp : (p.graph.mat L[i].src L[i].dest).pos = j := by
        have := h.positions j hj
        rcases hje with ⟨h1, h2⟩ | ⟨h1, h2⟩
        · rw [← h1, ← h2]; exact this.2.1
        · rw [← h1, ← h2]; exact this.2.2
      have hjE := h.edges
      unfold sumEdge
      rw [if_neg (by omega), if_neg (by rw [rep.num]; omega)]
      simp only
      split
      · split
        · next hbad =>
          rw [hed, hjp] at hbad
          omega
        · exact OnlyOob.ok _
      · exact OnlyOob.ok _
    · intro r _
      refine OnlyOob.bind ?_ ?_
      · unfold judge
        split
        · exact OnlyOob.ok _
        · have hst := storedTree_of_rep rep hsim hpos'
          have hTE : treeEdges t = pairs L := rep.treeEdges
          have honeE : OneTree c.maxV p.cand (edgeSet p.graph) (pairs L) := by
            refine ⟨hsubE, ⟨?_, ho.tree.conn, ho.tree.acyclic⟩, ho.two⟩
            exact Finset.filter_subset_filter _ hsubE
          rw [hg1, hc1]
          obtain ⟨sp', b, q1, -⟩ := C30_check_hamiltonian (c := c) (g := p.graph) (cand := p.cand)
            (sp := { cur with oneTree := t, prob := t.prob, type := .opened, value := r.1, numCycle := 0 })
            h.stored hst (by rw [rep.nn]; exact h.three) (by rw [rep.nn]) (by rw [rep.nn]; exact h.cand) (h.pos _ h.cand) rfl (by
              simp only; rw [rep.nn, hTE]; exact honeE)
          refine OnlyOob.bind ?_ ?_
          · rw [q1]; exact OnlyOob.ok _
          · intro a _
            simp only
            split
            · exact OnlyOob.ok _
            · exact OnlyOob.ok _
      · intro a _
        split
        · exact OnlyOob.ok _
        · exact OnlyOob.ok _
  · exact OnlyOob.ok _

theorem boundLoop_only (h : Instance c p) (hb : Bookkeeping c.maxV cur) (heps : 0 ≤ c.eps) {N : Nat} (hN : 3 ≤ N) (loc : Nat → PState) :
    ∀ (left iter : Nat) (s : BState), 1 ≤ iter → iter + left = N + 1 → BInv c p cur N iter s → OnlyOob c (boundLoop c cur loc N left iter s) := by
  intro left
  induction left with
  | zero => intro iter s _ _ _; exact OnlyOob.ok _
  | succ left ih =>
    intro iter s h1 h2 hi
    have hg : s.prob.graph = p.graph := by rw [hi.prob]
    have hc : s.prob.cand = p.cand := by rw [hi.prob]
    have hf : (s.first = true ∧ ∀ i, s.pi i = 0) ∨ (s.first = false ∧ s.prob.reform = p.graph) := by
      by_cases h' : iter = 1
      · exact Or.inl ⟨(hi.start h').1, (hi.start h').2.2.1⟩
      · exact Or.inr ⟨(hi.later h').1, (hi.later h').2.1⟩
    rw [boundLoop]
    refine OnlyOob.bind (boundIter_only h hb hg hc hf) ?_
    intro r e1
    rcases boundIter_inv h hb heps hN h1 (by omega) hi e1 with ⟨s', rfl, hs'⟩ | ⟨p', ty, rfl, hcl⟩
    · exact ih (iter + 1) s' (by omega) (by omega) hs'
    · exact OnlyOob.ok _

theorem bound_only (h : Instance c p) (hb : Bookkeeping c.maxV cur) (heps : 0 ≤ c.eps) (loc : Nat → PState) : OnlyOob c (bound c loc p cur) := by
  unfold bound
  split
  · have hinit := BInv.init (cur := cur) h heps
    have h3 : 3 ≤ maxIter c cur.treeLevel := by have := maxIter_three c cur.treeLevel; omega
    simp only
    refine OnlyOob.bind (boundLoop_only h hb heps h3 loc _ _ _ (le_refl _) (by omega) hinit) ?_
    intro r e1
    rcases boundLoop_inv h hb heps h3 loc _ _ _ _ (le_refl _) (by omega) hinit e1 with ⟨s, rfl, hs⟩ | ⟨p1, ty, rfl, -⟩
    · obtain ⟨-, -, -, a, rest, L, loc', sp1, sp2, hgen, -⟩ := hs.later (by omega)
      simp only [hgen]
      split
      · exact OnlyOob.ok _
      · exact OnlyOob.ok _
    · exact OnlyOob.ok _
  · exact OnlyOob.ok _

/-! ### the main loop -/

theorem bbRound_only {k : Nat} {rest : List SubProblem} (hm1 : cur.edgeToBranch = -1) (h : Instance c p) (hb : Bookkeeping c.maxV cur) (heps : 0 ≤ c.eps) (hbest : p.best.value = p.bestValue) :
    OnlyOob c (bbRound c env k p cur rest) := by
  unfold bbRound
  refine OnlyOob.bind (bound_only h hb heps _) ?_
  rintro ⟨p1, cur1⟩ e1
  have hB := bound_ok h hb heps hbest e1
  simp only
  split
  · next hyes =>
    obtain ⟨L, f1, f2, f3⟩ := hB.fix hyes.1
    refine OnlyOob.bind (variableFixing_only f1 f2 f3) ?_
    rintro ⟨cur2, fixed⟩ e2
    have hb2 := (variableFixing_decides e2).2
    simp only at hb2
    have hrange : 0 ≤ cur2.edgeToBranch ∧ cur2.edgeToBranch < c.maxE := by
      rw [hb2]
      rcases (bound_cons e1).2.2 with h' | ⟨i, hi, h', -⟩
      · rw [hm1] at h'; exact absurd h' hyes.2
      · have := h.edges
        rw [h']; omega
    refine OnlyOob.bind (branch_only hrange) ?_
    rintro ⟨o2, p2⟩ _
    exact OnlyOob.ok _
  · exact OnlyOob.ok _

theorem bbLoop_only (heps : 0 ≤ c.eps) {p0 : Problem} : ∀ (fuel k : Nat) (p : Problem) (o : List SubProblem), SInv c p0 p o → load c.maxV o < fuel →
    OnlyOob c (bbLoop c env fuel k p o) := by
  intro fuel
  induction fuel with
  | zero => intro k p o _ h; omega
  | succ fuel ih =>
    intro k p o hi hl
    cases o with
    | nil => exact OnlyOob.ok _
    | cons cur rest =>
      rw [bbLoop]
      split
      · exact OnlyOob.ok _
      · refine OnlyOob.bind (bbRound_only (hi.subs cur (by simp)).2.1 hi.inst (hi.subs cur (by simp)).1 heps hi.value) ?_
        rintro ⟨p', o'⟩ e1
        have hends : ∀ i < p.graph.numEdges, (p.graph.edges i).src < c.maxV ∧ (p.graph.edges i).dest < c.maxV := by
          intro i hi'
          have := hi.inst.stored.ends i hi'
          rw [hi.inst.nodes] at this
          exact ⟨this.1, this.2.1⟩
        obtain ⟨-, -, hload⟩ := bbRound_load hends (fun x hx => (hi.subs x hx).2.1) e1
        exact ih (k + 1) p' o' (hi.round heps e1).1 (by omega)

theorem findCandidate_only (h : Instance c p) (hp : ProbsAbove c p) : OnlyOob c (findCandidate c env p) := by
  unfold findCandidate
  refine OnlyOob.bind ?_ (fun _ _ => OnlyOob.ok _)
  refine OnlyOob.forList (fun _ (s : Problem × Nat × ℚ × ℚ) => s.1.graph = p.graph) ?_ _ ?_ _ rfl
  · intro A k s s' hg e
    unfold candStep at e
    obtain ⟨p1, e0, e⟩ := bind_eq_ok.1 e
    have : p1.graph = s.1.graph := by
      unfold nearestNeighbour at e0
      obtain ⟨nn, -, e0⟩ := bind_eq_ok.1 e0
      split at e0
      · obtain ⟨pnn, -, e0⟩ := bind_eq_ok.1 e0
        simp only at e0
        split at e0 <;> split at e0 <;> cases e0 <;> rfl
      · split at e0 <;> cases e0 <;> rfl
    obtain ⟨sp1, -, e⟩ := bind_eq_ok.1 e
    obtain ⟨r, -, e⟩ := bind_eq_ok.1 e
    simp only at e
    split at e <;> cases e <;> exact this.trans hg
  · intro A k B s hl hg
    have hk' : k < c.maxV := by rw [← h.nodes]; apply List.mem_range.1; rw [hl]; simp
    have hI : Instance c { s.1 with cand := k } := h.of_graph hg hk'
    have hp' : ProbsAbove c { s.1 with cand := k } := by
      intro hy; show ∀ e ∈ edgeSet s.1.graph, -1 < edgeProb s.1.graph e
      rw [hg]; exact hp hy
    obtain ⟨p1, t1, t2, x1, x2, e0, -, -, -, q6⟩ := C39_nearest_neighbour hI hp' (env.nn k) (env.pnn k) hk'
    have hpg : p1.graph = p.graph ∧ p1.cand = k := by
      rcases q6 with rfl | ⟨-, q6, -⟩
      · exact ⟨hg, rfl⟩
      · rw [q6]; exact ⟨hg, rfl⟩
    have hr := free_ready h (env.cand k) hk'
    unfold candStep
    rw [e0]
    simp only [ok_bind, hpg.1, hpg.2]
    refine OnlyOob.bind (constrainedPrim_only hr (by rw [h.nodes]) _) ?_
    intro sp1 e1
    have hv := free_valid h (env.cand k) hk' e1
    refine OnlyOob.bind ?_ ?_
    · rcases relaxation hr (h.pos k hk') (by rw [h.nodes]; exact h.three) e1 hv with (⟨-, h'⟩ | ⟨-, h'⟩) | ⟨h', -⟩ | ⟨t, L, et, -⟩
      · rw [h']; exact OnlyOob.best
      · rw [h']; exact OnlyOob.minus
      · rw [h']; exact OnlyOob.ok _
      · rw [et]; exact OnlyOob.ok _
    · intro r _
      split
      · exact OnlyOob.ok _
      · exact OnlyOob.ok _

omit [Rounding] in
/-- the root counts less than `3 ^ (n n)` -/
theorem load_root : load c.maxV [bbRoot c env] ≤ 3 ^ (c.maxV * c.maxV) := by
  unfold load
  simp only [List.map_cons, List.map_nil, List.sum_cons, List.sum_nil, add_zero]
  refine Nat.pow_le_pow_right (by omega) ?_
  unfold undecided
  refine (Finset.card_filter_le _ _).trans ?_
  rw [Finset.card_product, Finset.card_range]

end Verif
