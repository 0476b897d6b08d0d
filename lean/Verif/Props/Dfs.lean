import Verif.Proofs.Dfs
import Verif.Spec.StoredTree
import Verif.Proofs.Bound1
import Verif.Props.OneTreeFails

/-!
# Properties C30, C31: the cycle through the candidate
-/
namespace Verif
open Verif.Spec
set_option autoImplicit false

section Arith
variable [Rounding]
variable {c : Cfg} {g : Graph} {sp : SubProblem} {cand : Nat}

omit [Rounding] in
theorem Spec.StoredTree.ctx {t : MST} (h : StoredTree t) : DCtx t t.numNodes (treeEdges t) := ⟨rfl, h.pos, h.nbr, h.within⟩

/-- the trees built by `add_edge` from simple edge sequences are of that kind -/
theorem storedTree_of_rep {t : MST} {n : Nat} {L : List Edge} (rep : TreeRep c t n L) (hs : SimpleList n L) (hp : ∀ i < n, (t.nodes i).pos = i) : StoredTree t := by
  have hT : treeEdges t = pairs L := rep.treeEdges
  have hn := rep.nn
  constructor
  · rw [hn]; exact hp
  · rw [hn]
    intro u hu v
    rw [rep.nodes u hu, mem_nbrs, hT, mem_pairs]
    constructor
    · rintro ⟨e, he, ⟨h1, h2⟩ | ⟨h1, h2⟩⟩
      · exact ⟨e, he, by rw [epair, h1, h2]⟩
      · exact ⟨e, he, by rw [epair, h1, h2, Sym2.eq_swap]⟩
    · rintro ⟨e, he, h⟩
      rw [epair, Sym2.eq_iff] at h
      exact ⟨e, he, by rcases h with h | h; exacts [Or.inl h, Or.inr h]⟩
  · rw [hn]
    intro u hu; rw [rep.nodes u hu]; exact nbrs_nodup hs u
  · rw [hn]
    intro u v huv
    rw [hT, mem_pairs] at huv
    obtain ⟨e, he, h⟩ := huv
    have := hs.1 e he
    rw [epair, Sym2.eq_iff] at h
    omega
  · rw [rep.num, hT, SimpleList.card hs]

omit [Rounding] in
theorem mat_ends (st : Stored g) {u v : Nat} (h : s(u, v) ∈ edgeSet g) : s((g.mat u v).src, (g.mat u v).dest) = s(u, v) := by
  obtain ⟨i, hi, hj⟩ := mem_edgeSet_adj.1 h
  have := st.mat i hi u v hj
  simp only [content, Prod.mk.injEq] at this
  rw [this.1, this.2.1, Sym2.eq_iff]
  rcases hj with h | h
  · exact Or.inl h
  · exact Or.inr h

omit [Rounding] in
theorem recordsCycle_of {sp' : SubProblem} {w : List Nat} (h0 : sp.numCycle = 0) (h : Recorded sp sp' (steps w)) : RecordsCycle sp' w := by
  obtain ⟨cyc, h1, -, h3⟩ := h
  have hl : (steps w).length = w.length := by simp [steps]
  rw [h1]
  refine ⟨by simp [h0, hl], ?_⟩
  simp only [h0, Nat.zero_add] at h3 ⊢
  apply List.ext_getElem
  · simp
  · intro i hi1 hi2
    simp only [List.getElem_map, List.getElem_range]
    exact h3 i hi2

omit [Rounding] in
/-- C31. On every tree or other simple graph stored in the subproblem (with an empty cycle record), `dfs` returns; it either changes nothing, or
it records the steps of a closed walk from the candidate through at least three distinct nodes, along edges of the tree. -/
theorem C31_dfs_cycle (st : Stored g) (ht : StoredTree sp.oneTree) (hsub : treeEdges sp.oneTree ⊆ edgeSet g) (hcand : cand < sp.oneTree.numNodes)
    (hpos : (g.nodes cand).pos = cand) (h0 : sp.numCycle = 0) (hroom : sp.oneTree.numNodes ≤ c.maxV) :
    dfs c g sp cand = .ok sp ∨
    ∃ (sp' : SubProblem) (p : List Nat), dfs c g sp cand = .ok sp' ∧ RecordsCycle sp' (cand :: p) ∧ (cand :: p).Nodup ∧ 3 ≤ (cand :: p).length ∧
      tourEdges (cand :: p) ⊆ treeEdges sp.oneTree ∧ sp' = { sp with numCycle := sp'.numCycle, cycle := sp'.cycle } := by
  obtain ⟨s, ks, -, -, ⟨-, -, h⟩ | ⟨-, sp', p, h1, h2, h3, h4, h5, h6⟩⟩ := dfs_main (c := c) (g := g) (sp := sp) ht.ctx hpos hcand
    (by omega) (fun u v huv => mat_ends st (hsub huv))
  · exact Or.inl h
  · refine Or.inr ⟨sp', p, h1, recordsCycle_of h0 h6, h2, h4, ?_, ?_⟩
    · intro e he; exact h5 e (List.mem_toFinset.1 he)
    · obtain ⟨cyc, e1, -⟩ := h6
      rw [e1]

omit [Rounding] in
/-- C30. On every 1-tree stored in the subproblem (with an empty cycle record), `check_hamiltonian` returns true exactly when the edges of
the 1-tree are the edges of a tour; it then has recorded the steps of that tour. -/
theorem C30_check_hamiltonian (st : Stored g) (ht : StoredTree sp.oneTree) (hn : 3 ≤ sp.oneTree.numNodes) (hroom : sp.oneTree.numNodes ≤ c.maxV)
    (hcand : cand < sp.oneTree.numNodes) (hpos : (g.nodes cand).pos = cand) (h0 : sp.numCycle = 0)
    (hone : OneTree sp.oneTree.numNodes cand (edgeSet g) (treeEdges sp.oneTree)) :
    ∃ (sp' : SubProblem) (b : Bool), checkHamiltonian c g sp cand = .ok (sp', b) ∧ sp' = { sp with numCycle := sp'.numCycle, cycle := sp'.cycle } ∧
      (b = true ↔ ∃ t, IsTour sp.oneTree.numNodes t ∧ tourEdges t = treeEdges sp.oneTree) ∧
      (b = true → ∃ t, IsTour sp.oneTree.numNodes t ∧ tourEdges t = treeEdges sp.oneTree ∧ RecordsCycle sp' t) := by
  set n := sp.oneTree.numNodes with hnd
  set T := treeEdges sp.oneTree with hTd
  have hwi : Within ((Finset.range n).erase cand) (away cand T) := by
    intro u v huv
    rw [mem_away] at huv
    have := ht.within u v huv.1
    refine ⟨Finset.mem_erase.2 ⟨?_, Finset.mem_range.2 this.1⟩, Finset.mem_erase.2 ⟨?_, Finset.mem_range.2 this.2.1⟩⟩ <;>
    · rintro rfl; exact huv.2 (by simp)
  have hcardV : ((Finset.range n).erase cand).card = n - 1 := by rw [Finset.card_erase_of_mem (Finset.mem_range.2 hcand), Finset.card_range]
  have hTcard : T.card = n := by
    have h1 := hone.tree.acyclic.card_of_connected hwi (by rw [← Finset.card_pos, hcardV]; omega) hone.tree.conn
    have h2 := away_card (u := cand) (S := T)
    have h3 := hone.two
    unfold spokes at h3
    omega
  have hnum : sp.oneTree.numEdges = n := by rw [ht.count]; exact hTcard
  -- the two neighbours of the candidate
  obtain ⟨a, b, hab, habne⟩ : ∃ a b, (sp.oneTree.nodes cand).list = [a, b] ∧ a ≠ b := by
    have h1 : spokes cand T = spokeSet cand (sp.oneTree.nodes cand).list := spokeSet_ext (fun d => (ht.nbr cand hcand d).symm)
    have hnd := ht.nodup cand hcand
    have h2 := hone.two
    rw [h1, spokeSet_card hnd] at h2
    match hl : (sp.oneTree.nodes cand).list, h2 with
    | [a, b], _ => rw [hl] at hnd; exact ⟨a, b, rfl, by simp at hnd; exact hnd⟩
  obtain ⟨s, ks, hinv, hloop, h⟩ := dfs_main (c := c) (g := g) (sp := sp) ht.ctx hpos hcand (by omega) (fun u v huv => mat_ends st (hone.sub huv))
  have hfound := dfs_complete ht.ctx hcand hab habne hone.tree.conn (pot0 ht.ctx) hloop
  rcases h with ⟨h, -⟩ | ⟨-, sp', p, h1, h2, h3, h4, h5, h6⟩
  · exact absurd h hfound
  have hrec := recordsCycle_of h0 h6
  have hCsub : tourEdges (cand :: p) ⊆ T := fun e he => h5 e (List.mem_toFinset.1 he)
  have hCcard : (tourEdges (cand :: p)).card = (cand :: p).length := by
    unfold tourEdges
    rw [List.toFinset_card_of_nodup (steps_nodup h2 (by simp at h4; omega))]
    simp [steps]
  have hframe : sp' = { sp with numCycle := sp'.numCycle, cycle := sp'.cycle } := by
    obtain ⟨cyc, e1, -⟩ := h6
    rw [e1]
  refine ⟨sp', decide (sp'.numCycle = sp'.oneTree.numEdges), ?_, hframe, ?_⟩
  · unfold checkHamiltonian; rw [h1]; rfl
  have htree : sp'.oneTree = sp.oneTree := by rw [hframe]
  have hb : decide (sp'.numCycle = sp'.oneTree.numEdges) = true ↔ (cand :: p).length = n := by
    rw [decide_eq_true_iff, hrec.1, htree, hnum]
  have hdir : (cand :: p).length = n → IsTour n (cand :: p) ∧ tourEdges (cand :: p) = T := by
    intro hl
    exact ⟨isTour_of h2 hl h3, Finset.eq_of_subset_of_card_le hCsub (by rw [hCcard, hTcard, hl])⟩
  constructor
  · rw [hb]
    constructor
    · intro hl; exact ⟨_, hdir hl⟩
    · rintro ⟨t, htour, hE⟩
      by_contra hl
      -- a shorter cycle would live in a tree
      have hset := htour.set hn
      obtain ⟨u, hu, hup⟩ : ∃ u < n, u ∉ cand :: p := by
        by_contra hcon
        push Not at hcon
        have hsub2 : List.range n ⊆ cand :: p := fun i hi => hcon i (List.mem_range.1 hi)
        have h7 := (List.subperm_of_subset List.nodup_range hsub2).length_le
        have h8 := (List.subperm_of_subset h2 (fun i hi => List.mem_range.2 (h3 i hi) : (cand :: p) ⊆ List.range n)).length_le
        simp only [List.length_range] at h7 h8
        omega
      have hspan := hset.span hu (E := away u (tourEdges t)) (Finset.Subset.refl _)
      have hwi' : Within ((Finset.range n).erase u) (away u (tourEdges t)) := by
        intro x y hxy
        rw [mem_away] at hxy
        have := hset.within x y hxy.1
        refine ⟨Finset.mem_erase.2 ⟨?_, this.1⟩, Finset.mem_erase.2 ⟨?_, this.2⟩⟩ <;>
        · rintro rfl; exact hxy.2 (by simp)
      have hac := (hspan.tree hwi' (by rw [← Finset.card_pos, Finset.card_erase_of_mem (Finset.mem_range.2 hu), Finset.card_range]; omega)).acyclic
      refine cycle_not_acyclic h2 (by simp at h4; omega) (hac.subset ?_)
      intro e he
      rw [mem_away, hE]
      refine ⟨hCsub he, ?_⟩
      intro hue
      rw [List.mem_toFinset] at he
      refine hup ?_
      rw [steps_cons, List.mem_append] at he
      rcases he with he | he
      · exact pathE_mem he u hue
      · rw [List.mem_singleton] at he
        subst he
        rcases Sym2.mem_iff.1 hue with rfl | rfl
        · exact List.getLast_mem _
        · simp
  · rw [hb]
    intro hl
    exact ⟨_, (hdir hl).1, (hdir hl).2, hrec⟩

/-- a tree on `n` nodes holding the given pairs -/
theorem Ex.treeOf (c : Cfg) (n : Nat) (hn : n ≤ c.maxV) (L : List Edge) (hs : SimpleList n L) (hl : L.length ≤ c.maxV) :
    ∃ t, TreeRep c t n L ∧ StoredTree t ∧ t.numNodes = n := by
  have hends : ∀ e ∈ L, e.src < n ∧ e.dest < n := fun e he => ⟨(hs.1 e he).1, (hs.1 e he).2.1⟩
  obtain ⟨t, e, rep⟩ := addAll_ok hn L (treeRep_create c Ex.emptyTree (fun i => ⟨0, 0, i, 0, fun _ => 0⟩) n) hends (by simpa using hl) (by
    intro u hu; have := nbrs_length_le hs hu; simp only [List.nil_append]; omega)
  rw [List.nil_append] at rep
  refine ⟨t, rep, storedTree_of_rep rep hs ?_, rep.nn⟩
  intro i hi
  rw [addAll_nodepos L e i]
  simp [createMst, hi]

end Arith

/-- the hypotheses of C30 and C31 hold both for a 1-tree that is a tour and for one that is not, on the complete graph with four nodes -/
example (c : Cfg) (hc : c.maxV = 4) (mem : Graph) : ∃ g t1 t2, Stored g ∧ (g.nodes 0).pos = 0 ∧ StoredTree t1 ∧ StoredTree t2 ∧ t1.numNodes = 4 ∧ t2.numNodes = 4 ∧
    OneTree 4 0 (edgeSet g) (treeEdges t1) ∧ OneTree 4 0 (edgeSet g) (treeEdges t2) ∧
    (∃ t, IsTour 4 t ∧ tourEdges t = treeEdges t1) ∧ ¬ (∃ t, IsTour 4 t ∧ tourEdges t = treeEdges t2) := by
  obtain ⟨g, st, ps, ho, hn, hm, hE, hw, hnp⟩ := Ex.complete' c mem 4 (by omega) (fun u v => u + v + 1)
  let ed : Nat → Nat → Edge := fun u v => ⟨u, v, 0, 0, 0, 0⟩
  obtain ⟨t1, r1, s1, n1⟩ := Ex.treeOf c 4 (by omega) [ed 1 2, ed 2 3, ed 0 1, ed 0 3] (by constructor <;> decide) (by simp [hc])
  obtain ⟨t2, r2, s2, n2⟩ := Ex.treeOf c 4 (by omega) [ed 1 2, ed 1 3, ed 0 1, ed 0 2] (by constructor <;> decide) (by simp [hc])
  have h1 : treeEdges t1 = {s(1, 2), s(2, 3), s(0, 1), s(0, 3)} := by rw [r1.treeEdges]; decide
  have h2 : treeEdges t2 = {s(1, 2), s(1, 3), s(0, 1), s(0, 2)} := by rw [r2.treeEdges]; decide
  have hsub : ∀ T : EdgeSet, (∀ e ∈ T, ∃ u v, e = s(u, v) ∧ u < 4 ∧ v < 4 ∧ u ≠ v) → T ⊆ edgeSet g := by
    intro T hT e he
    obtain ⟨u, v, rfl, hu, hv, huv⟩ := hT e he
    exact hE u hu v hv huv
  have hsub1 : treeEdges t1 ⊆ edgeSet g := hsub _ (by
    intro e he; induction e using Sym2.ind with
    | _ u v => exact ⟨u, v, rfl, by have := s1.within u v he; omega⟩)
  have hsub2 : treeEdges t2 ⊆ edgeSet g := hsub _ (by
    intro e he; induction e using Sym2.ind with
    | _ u v => exact ⟨u, v, rfl, by have := s2.within u v he; omega⟩)
  have hT1 : IsTour 4 [0, 1, 2, 3] := List.Perm.refl _
  have hE1 : tourEdges [0, 1, 2, 3] = treeEdges t1 := by rw [h1]; decide
  have haw1 : away 0 (treeEdges t1) ⊆ away 0 (edgeSet g) := Finset.filter_subset_filter _ hsub1
  have haw2 : away 0 (treeEdges t2) ⊆ away 0 (edgeSet g) := Finset.filter_subset_filter _ hsub2
  have hwi : Within ((Finset.range 4).erase 0) (away 0 (edgeSet g)) := by
    intro u v huv
    rw [mem_away] at huv
    have := st.within u v huv.1
    rw [hn] at this
    refine ⟨Finset.mem_erase.2 ⟨?_, this.1⟩, Finset.mem_erase.2 ⟨?_, this.2⟩⟩ <;>
    · rintro rfl; exact huv.2 (by simp)
  refine ⟨g, t1, t2, st, hnp 0 (by omega), s1, s2, n1, n2, ⟨hsub1, ?_, by rw [h1]; decide⟩, ⟨hsub2, ?_, by rw [h2]; decide⟩, ⟨_, hT1, hE1⟩, ?_⟩
  · have := (hT1.set (by omega)).span (u := 0) (by omega) (E := away 0 (edgeSet g)) (by rw [hE1]; exact haw1)
    rw [hE1] at this
    exact this.tree hwi ⟨1, by simp⟩
  · have hA : away 0 (treeEdges t2) = {s(1, 2), s(1, 3)} := by rw [h2]; decide
    refine Span.tree ⟨haw2, ?_, by rw [hA]; decide⟩ hwi ⟨1, by simp⟩
    have c1 : ∀ v ∈ (Finset.range 4).erase 0, Conn (away 0 (treeEdges t2)) 1 v := by
      intro v hv
      rw [Finset.mem_erase, Finset.mem_range] at hv
      obtain rfl | rfl | rfl : v = 1 ∨ v = 2 ∨ v = 3 := by omega
      · exact Conn.refl' _ _
      · exact Conn.edge (by rw [hA]; simp)
      · exact Conn.edge (by rw [hA]; simp)
    intro u hu v hv
    exact (c1 u hu).symm'.trans' (c1 v hv)
  · rintro ⟨t, ht, he⟩
    have := (ht.set (by omega)).deg 3 (by omega)
    rw [he, h2] at this
    exact absurd this (by decide)

end Verif
