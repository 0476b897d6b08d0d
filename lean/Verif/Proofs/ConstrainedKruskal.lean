import Verif.Props.Constrained

/-!
# constrained_kruskal: main lemma
-/
namespace Verif
open Verif.Spec
set_option autoImplicit false

variable [Rounding]

omit [Rounding] in
theorem exists_below (w : Sym2 Nat → ℚ) (E : EdgeSet) : ∃ low : ℚ, ∀ e ∈ E, low < w e := by
  induction E using Finset.induction_on with
  | empty => exact ⟨0, by simp⟩
  | insert a E _ ih =>
    obtain ⟨low, h⟩ := ih
    refine ⟨min low (w a - 1), ?_⟩
    intro e he
    rcases Finset.mem_insert.1 he with rfl | he
    · have := min_le_right low (w e - 1); linarith
    · exact lt_of_le_of_lt (min_le_left _ _) (h e he)

theorem ckruskalMand_all {c : Cfg} {g : Graph} {sp : SubProblem} {cand : Nat} {M F : EdgeSet} (h : CReady c g sp cand M F)
    (hclean : ∀ k < sp.numMandatory, s((sp.mandatory k).1, (sp.mandatory k).2) ∈ M) {low : ℚ} (hlow : ∀ e ∈ usable g cand F, low < weight g e)
    {s0 : KState} (h0 : KInv c g.numNodes (others g cand) s0 []) : ∀ k, k ≤ sp.numMandatory →
    ∃ s L, forList (ckruskalMand c g sp cand) (List.range k) s0 = .ok s ∧ KInv c g.numNodes (others g cand) s L ∧
      pairs L ⊆ away cand M ∧ (∀ e ∈ L, ∃ u v, s(u, v) ∈ edgeSet g ∧ e = g.mat u v) ∧
      Promising (forced (weight g) (away cand M) low) (others g cand) (usable g cand F) (pairs L) ∧
      ∀ i < k, cand ∉ s((sp.mandatory i).1, (sp.mandatory i).2) → Conn (pairs L) (sp.mandatory i).1 (sp.mandatory i).2 := by
  intro k
  induction k with
  | zero => intro _; exact ⟨s0, [], rfl, h0, by simp [pairs], by simp, by simpa [pairs] using promising_empty _ _ _, by intro i hi; omega⟩
  | succ k ih =>
    intro hk
    obtain ⟨s, L, e, hi, hsub, hmem, hp, hcon⟩ := ih (by omega)
    rw [List.range_succ, forList_snoc, e, ok_bind]
    unfold ckruskalMand
    have hroom := h.room
    have hn := h.nodes
    obtain ⟨h1, h2, h3, -⟩ := h.desc.list k (by omega)
    rw [if_neg (by omega)]
    simp only
    rw [if_neg (by omega)]
    have hE := h.real k (by omega)
    obtain ⟨-, hep⟩ := h.stored.mat_weight hE
    have hcc : ((g.mat (sp.mandatory k).1 (sp.mandatory k).2).src ≠ cand ∧ (g.mat (sp.mandatory k).1 (sp.mandatory k).2).dest ≠ cand) ↔
        cand ∉ s((sp.mandatory k).1, (sp.mandatory k).2) := by rw [← notMem_pair]; unfold epair at hep; rw [hep]
    by_cases hc : cand ∉ s((sp.mandatory k).1, (sp.mandatory k).2)
    · rw [if_pos (hcc.2 hc)]
      have hm : s((sp.mandatory k).1, (sp.mandatory k).2) ∈ away cand M := mem_away.2 ⟨hclean k (by omega), hc⟩
      have hV := usable_within h.stored cand F (g.mat (sp.mandatory k).1 (sp.mandatory k).2).src (g.mat (sp.mandatory k).1 (sp.mandatory k).2).dest
        (by show epair _ ∈ _; rw [hep]; exact h.mand_usable hm)
      obtain ⟨s', L', e1, hi', hL', hsub', hp', hc', hmono⟩ := join_greedy (E := usable g cand F) (w := forced (weight g) (away cand M) low)
        hi hn (fun i hi => Finset.mem_range.2 (mem_others.1 hi).1) hV.1 hV.2 (le_refl _) (by rw [hep]; exact h.mand_usable hm)
        (hsub.trans h.mand_usable) hp (by
          intro x y hxy _
          rw [hep]
          have : forced (weight g) (away cand M) low s((sp.mandatory k).1, (sp.mandatory k).2) = low := if_pos hm
          rw [this]
          unfold forced
          split
          · exact le_refl _
          · exact (hlow _ hxy).le)
      refine ⟨s', L', e1, hi', ?_, ?_, hp', ?_⟩
      · rcases hL' with rfl | rfl
        · exact hsub
        · rw [pairs_append, hep]; exact Finset.insert_subset hm hsub
      · rcases hL' with rfl | rfl
        · exact hmem
        · intro e' he'
          rcases List.mem_append.1 he' with h4 | h4
          · exact hmem e' h4
          · simp at h4; exact ⟨_, _, hE, h4⟩
      · intro i hi'' hci
        by_cases hik : i = k
        · subst hik
          unfold epair at hep
          rw [Sym2.eq_iff] at hep
          rcases hep with ⟨q1, q2⟩ | ⟨q1, q2⟩
          · rw [q1, q2] at hc'; exact hc'
          · rw [q1, q2] at hc'; exact hc'.symm'
        · exact (hcon i (by omega) hci).mono hmono
    · rw [if_neg (fun h' => hc (hcc.1 h'))]
      refine ⟨s, L, rfl, hi, hsub, hmem, hp, ?_⟩
      intro i hi' hci
      by_cases hik : i = k
      · subst hik; exact absurd hci hc
      · exact hcon i (by omega) hci

theorem ckruskalLoop_ok {c : Cfg} {g : Graph} {sp : SubProblem} {cand : Nat} {M F : EdgeSet} (h : CReady c g sp cand M F) {hy : Bool}
    (hso : (edgeList g).Pairwise (Before hy)) {low : ℚ} (hlow : ∀ e ∈ usable g cand F, low < weight g e) : ∀ (fuel iG : Nat) (s : KState) (L : List Edge),
    KInv c g.numNodes (others g cand) s L → iG ≤ g.numEdges → g.numEdges - iG < fuel → pairs L ⊆ usable g cand F →
    (∀ e ∈ L, weight g (epair e) = e.weight) →
    Promising (forced (weight g) (away cand M) low) (others g cand) (usable g cand F) (pairs L) →
    (∀ x y, s(x, y) ∈ away cand M → Conn (pairs L) x y) →
    (∀ j < iG, epair (g.edges j) ∈ usable g cand F → Conn (pairs L) (g.edges j).src (g.edges j).dest) →
    ∃ s' L', ckruskalLoop c g sp cand fuel iG s = .ok s' ∧ KInv c g.numNodes (others g cand) s' L' ∧ pairs L' ⊆ usable g cand F ∧
      (∀ e ∈ L', weight g (epair e) = e.weight) ∧ pairs L ⊆ pairs L' ∧
      Promising (forced (weight g) (away cand M) low) (others g cand) (usable g cand F) (pairs L') ∧
      ((L'.length : Int) < (g.numNodes : Int) - 2 → ∀ x y, s(x, y) ∈ usable g cand F → Conn (pairs L') x y) := by
  intro fuel
  have hst := h.stored
  induction fuel with
  | zero => intro iG s L _ _ hf; omega
  | succ fuel ih =>
    intro iG s L hi hle hf hsub hmem hp hM hconn
    rw [ckruskalLoop]
    by_cases hcond : iG < g.numEdges ∧ (s.inMST : Int) < (g.numNodes : Int) - 2
    · rw [if_pos hcond]
      have hends := hst.ends iG hcond.1
      by_cases hus : epair (g.edges iG) ∈ usable g cand F
      · have hus' := mem_usable.1 hus
        have hcc := notMem_pair.1 hus'.2.2
        simp only
        rw [if_pos hcc, if_pos ((h.desc.notForbidden hends.1 hends.2.1 hends.2.2).2 hus'.2.1)]
        have hV := usable_within hst cand F _ _ hus
        have hmin : ∀ x y, s(x, y) ∈ usable g cand F → ¬ Conn (pairs L) x y →
            forced (weight g) (away cand M) low (epair (g.edges iG)) ≤ forced (weight g) (away cand M) low s(x, y) := by
          intro x y hxy hnc
          have hxM : s(x, y) ∉ away cand M := fun hm => hnc (hM x y hm)
          obtain ⟨j, hj, hjn⟩ := mem_edgeSet.1 (mem_usable.1 hxy).1
          have hij : iG ≤ j := by
            by_contra hlt
            have := hconn j (by omega) (by rw [hjn]; exact hxy)
            rw [Sym2.eq_iff] at hjn
            rcases hjn with ⟨rfl, rfl⟩ | ⟨rfl, rfl⟩
            · exact hnc this
            · exact hnc this.symm'
          have hw : weight g (epair (g.edges iG)) ≤ weight g s(x, y) := by
            rw [← hjn, hst.weight_eq hcond.1, hst.weight_eq hj]
            rcases Nat.lt_or_ge iG j with h1 | h1
            · unfold edgeList at hso
              rw [List.pairwise_map] at hso
              have := List.pairwise_iff_getElem.1 hso iG j (by simpa using hcond.1) (by simpa using hj) h1
              simp only [List.getElem_range] at this
              rcases this with h2 | h2
              · exact h2.le
              · exact h2.1.le
            · rw [show iG = j by omega]
          by_cases hiM : epair (g.edges iG) ∈ away cand M
          · unfold forced; rw [if_pos hiM, if_neg hxM]; exact (hlow _ hxy).le
          · unfold forced; rw [if_neg hiM, if_neg hxM]; exact hw
        obtain ⟨s', L', e1, hi', hL', hsub', hp', hc', hmono⟩ := join_greedy hi h.nodes (fun i hi => Finset.mem_range.2 (mem_others.1 hi).1)
          hV.1 hV.2 (le_refl _) hus hsub hp hmin
        rw [e1, ok_bind]
        obtain ⟨s2, L2, r1, r2, r3, r4, r5, r6, r7⟩ := ih (iG + 1) s' L' hi' hcond.1 (by omega) hsub' (by
            rcases hL' with rfl | rfl
            · exact hmem
            · intro e he
              rcases List.mem_append.1 he with h1 | h1
              · exact hmem e h1
              · simp at h1; rw [h1]; exact hst.weight_eq hcond.1) hp' (fun x y hxy => (hM x y hxy).mono hmono) (by
            intro j hj hju
            rcases Nat.lt_or_ge j iG with h1 | h1
            · exact (hconn j h1 hju).mono hmono
            · rw [show j = iG by omega]; exact hc')
        exact ⟨s2, L2, r1, r2, r3, r4, hmono.trans r5, r6, r7⟩
      · have hskip : (if (g.edges iG).src ≠ cand ∧ (g.edges iG).dest ≠ cand then
            (if sp.notForbidden (g.edges iG).src (g.edges iG).dest = true then joinEdge c (g.numNodes + 1) s (g.edges iG) else pure s)
            else pure s) = Except.ok s := by
          split
          · next hcc =>
            split
            · next hnf =>
              exact absurd (mem_usable.2 ⟨mem_edgeSet.2 ⟨iG, hcond.1, rfl⟩,
                (h.desc.notForbidden hends.1 hends.2.1 hends.2.2).1 hnf, notMem_pair.2 hcc⟩) hus
            · rfl
          · rfl
        simp only
        rw [hskip, ok_bind]
        refine ih (iG + 1) s L hi hcond.1 (by omega) hsub hmem hp hM ?_
        intro j hj hju
        rcases Nat.lt_or_ge j iG with h1 | h1
        · exact hconn j h1 hju
        · rw [show j = iG by omega] at hju; exact absurd hju hus
    · rw [if_neg hcond]
      refine ⟨s, L, rfl, hi, hsub, hmem, Finset.Subset.refl _, hp, ?_⟩
      intro hlt x y hxy
      rw [hi.count] at hcond
      obtain ⟨j, hj, hjn⟩ := mem_edgeSet.1 (mem_usable.1 hxy).1
      have := hconn j (by by_contra h1; exact hcond ⟨by omega, hlt⟩) (by rw [hjn]; exact hxy)
      unfold epair at hjn
      rw [Sym2.eq_iff] at hjn
      rcases hjn with ⟨rfl, rfl⟩ | ⟨rfl, rfl⟩
      · exact this
      · exact this.symm'

omit [Rounding] in
theorem CReady.sorted {c : Cfg} {cap : Nat} {g g' : Graph} {sp : SubProblem} {cand : Nat} {M F : EdgeSet} (h : CReady c g sp cand M F)
    (hk : KruskalReady c cap g) (e : Sort.wrapQuickSort c.hybrid cap g = .ok g') :
    CReady c g' sp cand M F ∧ (edgeList g').Pairwise (Before c.hybrid) ∧ edgeSet g' = edgeSet g ∧ weight g' = weight g ∧
      g'.numNodes = g.numNodes ∧ g'.nodes = g.nodes ∧ KruskalReady c cap g' := by
  obtain ⟨st, ps, hE, hw, hso, hnn, hne, hnodes, hord⟩ := hk.stored.sorted hk.someEdge hk.room hk.short hk.positions hk.ordered e
  exact ⟨⟨st, ps, by rw [hnn]; exact h.nodes, by rw [hne]; exact h.edges, by rw [hnn]; exact h.two, by rw [hnn]; exact h.cand,
    by rw [hnn]; exact h.desc, h.room, by rw [hE]; exact h.real⟩, hso, hE, funext hw, hnn, hnodes,
    ⟨st, ps, by rw [hnn]; exact h.nodes, by rw [hne]; exact hk.someEdge, by rw [hne]; exact hk.room, by rw [hne]; exact hk.short, fun _ => hso⟩⟩

theorem constrainedKruskal_main {c : Cfg} {cap : Nat} {g : Graph} {sp : SubProblem} {cand : Nat} {M F : EdgeSet}
    (h : CReady c g sp cand M F) (hk : KruskalReady c cap g)
    (hclean : ∀ k < sp.numMandatory, s((sp.mandatory k).1, (sp.mandatory k).2) ∈ M) :
    ∃ g' t L low, constrainedKruskal c cap g sp cand = .ok (g', { sp with oneTree := t }) ∧ CReady c g' sp cand M F ∧ KruskalReady c cap g' ∧
      edgeSet g' = edgeSet g ∧ weight g' = weight g ∧ TreeRep c t g.numNodes L ∧ SimpleList g.numNodes L ∧ Acyclic (pairs L) ∧
      pairs L ⊆ usable g cand F ∧ (∀ e ∈ L, weight g (epair e) = e.weight) ∧
      Promising (forced (weight g) (away cand M) low) (others g cand) (usable g cand F) (pairs L) ∧
      (Acyclic (away cand M) → away cand M ⊆ pairs L) ∧
      (t.isValid = true ↔ L.length + 2 = g.numNodes) ∧ (t.isValid = true ↔ Connected (others g cand) (usable g cand F)) := by
  obtain ⟨g1, e1⟩ := Sort.C16_in_bounds_partial (hy := c.hybrid) hk.someEdge hk.room hk.short
  obtain ⟨h1, hso, hE, hw, hnn, hnodes, hk1⟩ := h.sorted hk e1
  have hus : usable g1 cand F = usable g cand F := by unfold usable; rw [hE]
  have hot : others g1 cand = others g cand := by unfold others; rw [hnn]
  obtain ⟨low, hlow⟩ := exists_below (weight g1) (usable g1 cand F)
  have hstart := KInv.start c g1.numNodes sp.oneTree g.nodes (V := others g1 cand) (Mf.rep_create_constrained g1.numNodes cand)
  obtain ⟨s1, L1, e2, hi1, hsub1, hmem1, hp1, hcon1⟩ := ckruskalMand_all h1 hclean hlow hstart sp.numMandatory (le_refl _)
  have hM : ∀ x y, s(x, y) ∈ away cand M → Conn (pairs L1) x y := by
    intro x y hxy
    obtain ⟨hm, hc⟩ := mem_away.1 hxy
    obtain ⟨k, hk', hkk⟩ := h.desc.recorded _ hm
    have := hcon1 k hk' (by rw [hkk]; exact hc)
    rw [Sym2.eq_iff] at hkk
    rcases hkk with ⟨q1, q2⟩ | ⟨q1, q2⟩
    · rw [← q1, ← q2]; exact this
    · rw [← q1, ← q2]; exact this.symm'
  obtain ⟨s2, L, e3, hi2, hsub2, hwt2, hmono, hp2, hfull⟩ := ckruskalLoop_ok h1 hso hlow (g1.numEdges + 1) 0 s1 L1 hi1 (by omega) (by omega)
    (hsub1.trans h1.mand_usable) (by
      intro e he
      obtain ⟨u, v, hE', rfl⟩ := hmem1 e he
      rw [(h1.stored.mat_weight hE').2, (h1.stored.mat_weight hE').1]) hp1 hM (by intro j hj; omega)
  have hcont : Acyclic (away cand M) → away cand M ⊆ pairs L := by
    intro hac m hm
    by_contra hn
    induction m using Sym2.ind with
    | _ u v =>
      have h3 : Conn (pairs L1) u v := hM u v hm
      refine hac u v hm (h3.mono ?_)
      intro e he
      exact Finset.mem_erase.2 ⟨fun h' => hn (hmono (h' ▸ he)), hsub1 he⟩
  have hwi := usable_within h1.stored cand F
  have hco := card_others h1.cand
  have hne : (others g1 cand).Nonempty := by rw [← Finset.card_pos]; have := h1.two; omega
  have hcard := SimpleList.card hi2.simple
  have hconn : L.length + 2 = g1.numNodes ↔ Connected (others g1 cand) (usable g1 cand F) := by
    constructor
    · intro hl u hu v hv
      exact (hi2.acyc.connected_of_card (hwi.subset hsub2) (by omega) u hu v hv).mono hsub2
    · intro hc
      by_contra hl
      have hle := hi2.acyc.card_lt (hwi.subset hsub2) hne
      have : Connected (others g1 cand) (pairs L) := by
        intro u hu v hv
        refine Conn.lift ?_ (hc u hu v hv)
        intro x y hxy
        exact hfull (by omega) x y hxy
      have := hi2.acyc.card_of_connected (hwi.subset hsub2) hne this
      omega
  rw [hnn] at hi2
  rw [hus, hot, hnn] at hconn
  rw [hus] at hsub2
  rw [hw] at hwt2
  rw [hw, hus, hot] at hp2
  unfold constrainedKruskal
  rw [hnn] at e2
  simp only [e1, ok_bind, e2, e3, hnn]
  have hcnt := hi2.count
  by_cases hv : (s2.inMST : Int) = (g.numNodes : Int) - 2
  · rw [if_pos hv]
    exact ⟨g1, _, L, low, rfl, h1, hk1, hE, hw, hi2.rep.setValid true, hi2.simple, hi2.acyc, hsub2, hwt2, hp2, hcont, by simp; omega, by rw [← hconn]; simp; omega⟩
  · rw [if_neg hv]
    exact ⟨g1, _, L, low, rfl, h1, hk1, hE, hw, hi2.rep.setValid false, hi2.simple, hi2.acyc, hsub2, hwt2, hp2, hcont, by simp; omega, by rw [← hconn]; simp; omega⟩

end Verif
