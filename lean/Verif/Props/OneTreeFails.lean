import Verif.Props.OneTree
import Verif.Props.ConstrainedExamples

/-!
# C26, C28, C29: examples, and where C29 fails
-/
namespace Verif
open Verif.Spec
set_option autoImplicit false

/-- weights of a complete graph given on ordered pairs -/
theorem all_pairs {g : Graph} {n : Nat} (st : Stored g) (hn : g.numNodes = n) {P : Sym2 Nat → Prop} (h : ∀ u v, u < v → v < n → P s(u, v)) :
    ∀ e ∈ edgeSet g, P e := by
  intro e he
  induction e using Sym2.ind with
  | _ u v =>
    have := st.within u v he
    rw [hn, Finset.mem_range, Finset.mem_range] at this
    rcases Nat.lt_trichotomy u v with h' | h' | h'
    · exact h u v h' this.2
    · subst h'; exact absurd he (st.noloop u)
    · rw [Sym2.eq_swap]; exact h v u h' this.1

/-- the tour 0,1,2,3,4 -/
theorem tour5 : IsTour 5 [0, 1, 2, 3, 4] ∧ tourEdges [0, 1, 2, 3, 4] = {s(0, 1), s(1, 2), s(2, 3), s(3, 4), s(4, 0)} := by
  constructor
  · exact List.Perm.refl _
  · decide

theorem tour5_allowed {g : Graph} (hE : ∀ u < 5, ∀ v < 5, u ≠ v → s(u, v) ∈ edgeSet g) : Allowed (edgeSet g) {s(1, 2)} {s(1, 3)} [0, 1, 2, 3, 4] := by
  rw [Allowed, tour5.2]
  refine ⟨?_, ?_, ?_⟩
  · intro e he
    simp only [Finset.mem_insert, Finset.mem_singleton] at he
    rcases he with rfl | rfl | rfl | rfl | rfl <;> exact hE _ (by omega) _ (by omega) (by omega)
  · decide
  · decide

/-- on the complete graph with five nodes, edge 1–2 mandatory and edge 1–3 forbidden, both functions succeed and give a 1-tree -/
theorem relax5 {c : Cfg} {g : Graph} (st : Stored g) (hn : g.numNodes = 5) (hE : ∀ u < 5, ∀ v < 5, u ≠ v → s(u, v) ∈ edgeSet g)
    (hr : CReady c g Ex.sub 0 {s(1, 2)} {s(1, 3)}) (hpos : (g.nodes 0).pos = 0) (hsmall : ∀ e ∈ edgeSet g, weight g e < FLT_MAX) (pn : Nat) (loc : PState) :
    ∃ sp1 sp2, constrainedPrim c pn g Ex.sub 0 loc = .ok sp1 ∧ sp1.oneTree.isValid = true ∧ mstToOneTree c g sp1 0 = .ok (.opened, sp2) := by
  have hs : ∀ e ∈ edgeSet g \ {s(1, 3)}, weight g e < FLT_MAX := fun e he => hsmall e (Finset.mem_sdiff.1 he).1
  rcases constrainedPrim_main (pn := pn) hr loc with ⟨-, h57⟩ | ⟨t, -, e, -⟩
  · omega
  have ht : IsTour g.numNodes [0, 1, 2, 3, 4] := by rw [hn]; exact tour5.1
  have ha := tour5_allowed hE
  cases hv : t.isValid with
  | false => exact absurd ha (invalid_no_tour hr (by omega) hs e hv _ ht)
  | true =>
    rcases relaxation hr hpos (by omega) e hv with (⟨h2, -⟩ | ⟨⟨x, hx, hbig⟩, -⟩) | ⟨-, h1⟩ | ⟨t', L, et, -⟩
    · have h3 : (spokes 0 ({s(1, 2)} : EdgeSet)).card = 0 := by decide
      omega
    · exact absurd (lt_trans (hs x (mem_spokes.1 hx).1) flt_le_dbl) (not_lt.2 hbig)
    · exact absurd ha (h1 _ ht)
    · exact ⟨_, _, e, hv, et⟩

/-- the hypotheses of C28 and C29 hold on the complete graph with five nodes and weights `u + v + 1`, dual variables
`1, -1, 0, 0, …` -/
example (mem : Graph) (c : Cfg) (hc : c.maxV = 5) (loc : PState) : ∃ g sp1 sp2 sp1' sp2', ∃ pi : Nat → ℚ, pi 0 ≠ 0 ∧ CReady c g Ex.sub 0 {s(1, 2)} {s(1, 3)} ∧
    (g.nodes 0).pos = 0 ∧ 3 ≤ g.numNodes ∧ (∀ e ∈ edgeSet g, weight g e < FLT_MAX) ∧ (∀ e ∈ ({s(1, 2)} : EdgeSet), -(g.numNodes : ℚ) ≤ weight g e) ∧
    constrainedPrim c g.numNodes g Ex.sub 0 loc = .ok sp1 ∧ sp1.oneTree.isValid = true ∧ mstToOneTree c g sp1 0 = .ok (.opened, sp2) ∧
    (∀ u v, s(u, v) ∈ edgeSet g → weight g s(u, v) + (pi u + pi v) < FLT_MAX) ∧
    (∀ u v, s(u, v) ∈ ({s(1, 2)} : EdgeSet) → -(g.numNodes : ℚ) ≤ weight g s(u, v) + (pi u + pi v)) ∧
    constrainedPrim c g.numNodes (applyPi pi g.numEdges g) Ex.sub 0 loc = .ok sp1' ∧ sp1'.oneTree.isValid = true ∧
    mstToOneTree c (applyPi pi g.numEdges g) sp1' 0 = .ok (.opened, sp2') := by
  obtain ⟨g, st, ps, ho, hn, hm, hE, hw, hnp⟩ := Ex.complete' c mem 5 (by omega) (fun u v => u + v + 1)
  have hr := Ex.sub_ready (c := c) (n := 5) (by omega) (by omega) st ps hn hm hE
  let pi : Nat → ℚ := fun i => if i = 0 then 1 else if i = 1 then -1 else 0
  have hpi : ∀ i, -1 ≤ pi i ∧ pi i ≤ 1 := by
    intro i; simp only [pi]; split
    · norm_num
    · split <;> norm_num
  have hwle : ∀ e ∈ edgeSet g, 0 ≤ weight g e ∧ weight g e ≤ 11 := by
    refine all_pairs st hn ?_
    intro u v huv hv; rw [hw u v huv hv]
    have h1 : (u : ℚ) ≤ 5 := by exact_mod_cast (by omega : u ≤ 5)
    have h2 : (v : ℚ) ≤ 5 := by exact_mod_cast (by omega : v ≤ 5)
    have h3 : (0 : ℚ) ≤ u := Nat.cast_nonneg u
    have h4 : (0 : ℚ) ≤ v := Nat.cast_nonneg v
    constructor <;> linarith
  have hpos : (g.nodes 0).pos = 0 := hnp 0 (by omega)
  have hflt : (20:ℚ) < FLT_MAX := by decide +kernel
  have h5q : (g.numNodes : ℚ) = 5 := by rw [hn]; norm_num
  have hs1 : ∀ e ∈ edgeSet g, weight g e < FLT_MAX := fun e he => by have := (hwle e he).2; linarith
  have hs2 : ∀ u v, s(u, v) ∈ edgeSet g → weight g s(u, v) + (pi u + pi v) < FLT_MAX := fun u v he => by
    have := (hwle _ he).2; have := (hpi u).2; have := (hpi v).2; linarith
  obtain ⟨h1, h2, h3, h4, h5, h6, h7, -⟩ := applyPi_ok st ps pi
  obtain ⟨sp1, sp2, a1, a2, a3⟩ := relax5 st hn hE hr hpos hs1 g.numNodes loc
  obtain ⟨sp1', sp2', b1, b2, b3⟩ := relax5 (c := c) h1 (by rw [h5]; exact hn) (by rw [h3]; exact hE) (hr.applyPi pi) (by rw [h7]; exact hpos) (by
    intro e he
    rw [h3] at he
    rw [h4 e he]
    induction e using Sym2.ind with
    | _ u v => rw [piWeight_mk, reweigh_exact exact_arith]; exact hs2 u v he) g.numNodes loc
  refine ⟨g, sp1, sp2, sp1', sp2', pi, by simp [pi], hr, hpos, by omega, hs1, ?_, a1, a2, a3, hs2, ?_, b1, b2, b3⟩
  · intro e he
    have := (hwle e (hr.mand_sub he)).1
    rw [h5q]; linarith
  · intro u v he
    have := (hwle _ (hr.mand_sub he)).1
    have := (hpi u).1; have := (hpi v).1
    rw [h5q]; linarith

/-- C29 needs the lower limit on reweighted mandatory edges: on five nodes with weight 0 on the mandatory edge 1–2 and 100 on all
others, and all dual variables `-60`, the "bound" is 500 although the allowed tour 0,1,2,3,4 costs 400. -/
theorem C29_fails_below_minus_n (mem : Graph) (loc : PState) : ∃ (c : Cfg) (g : Graph) (sp sp1 sp2 : SubProblem) (M F : EdgeSet) (pi : Nat → ℚ) (t : List Nat),
    CReady c g sp 0 M F ∧ (g.nodes 0).pos = 0 ∧ (∀ e ∈ edgeSet g, 0 ≤ weight g e ∧ weight g e ≤ 100) ∧
    constrainedPrim c g.numNodes (applyPi pi g.numEdges g) sp 0 loc = .ok sp1 ∧ sp1.oneTree.isValid = true ∧
    mstToOneTree c (applyPi pi g.numEdges g) sp1 0 = .ok (.opened, sp2) ∧ IsTour g.numNodes t ∧ Allowed (edgeSet g) M F t ∧
    tourCost (weight g) t < sp2.oneTree.cost - 2 * ∑ i ∈ Finset.range g.numNodes, pi i := by
  let c : Cfg := ⟨5, false, 0, 0, 0, 0⟩
  obtain ⟨g, st, ps, -, hn, hm, hE, hw, hnp⟩ := Ex.complete' c mem 5 (le_refl 5) (fun u v => if u = 1 ∧ v = 2 then 0 else 100)
  have hr := Ex.sub_ready (c := c) (n := 5) (by omega) (le_refl 5) st ps hn hm hE
  let pi : Nat → ℚ := fun _ => -60
  have hpos : (g.nodes 0).pos = 0 := hnp 0 (by omega)
  have hwle : ∀ e ∈ edgeSet g, 0 ≤ weight g e ∧ weight g e ≤ 100 := by
    refine all_pairs st hn ?_
    intro u v huv hv; rw [hw u v huv hv]; split <;> norm_num
  obtain ⟨h1, h2, h3, h4, h5, h6, h7, -⟩ := applyPi_ok st ps pi
  have hr' := hr.applyPi pi
  generalize hg' : applyPi pi g.numEdges g = g' at *
  have hn' : g'.numNodes = 5 := by rw [h5]; exact hn
  have hE' : ∀ u < 5, ∀ v < 5, u ≠ v → s(u, v) ∈ edgeSet g' := by rw [h3]; exact hE
  have hwt : ∀ e ∈ edgeSet g', e ≠ s(1, 2) → weight g' e = -20 := by
    refine all_pairs h1 hn' ?_
    intro u v huv hv hne
    rw [h4 _ (hE u (by omega) v hv (by omega)), piWeight_mk, reweigh_exact exact_arith, hw u v huv hv, if_neg (by rintro ⟨rfl, rfl⟩; exact hne rfl)]
    norm_num [pi]
  have hw12 : weight g' s(1, 2) = -120 := by
    rw [h4 _ (hE 1 (by omega) 2 (by omega) (by omega)), piWeight_mk, reweigh_exact exact_arith, hw 1 2 (by omega) (by omega), if_pos ⟨rfl, rfl⟩]
    norm_num [pi]
  have hflt : (0:ℚ) < FLT_MAX := by decide +kernel
  have hsmall : ∀ e ∈ edgeSet g', weight g' e < FLT_MAX := by
    intro e he
    by_cases h : e = s(1, 2)
    · rw [h, hw12]; linarith
    · rw [hwt e he h]; linarith
  have hpos' : (g'.nodes 0).pos = 0 := by rw [h7]; exact hpos
  obtain ⟨sp1, sp2, a1, a2, a3⟩ := relax5 h1 hn' hE' hr' hpos' hsmall g.numNodes loc
  refine ⟨c, g, Ex.sub, sp1, sp2, _, _, pi, [0, 1, 2, 3, 4], hr, hpos, hwle, by rw [hg']; exact a1, a2, by rw [hg']; exact a3, by rw [hn]; exact tour5.1,
    tour5_allowed hE, ?_⟩
  have hcost : tourCost (weight g) [0, 1, 2, 3, 4] = 400 := by
    rw [show tourCost (weight g) [0, 1, 2, 3, 4] = weight g s(0, 1) + (weight g s(1, 2) + (weight g s(2, 3) + (weight g s(3, 4) + (weight g s(4, 0) + 0)))) from rfl]
    rw [Sym2.eq_swap (a := 4), hw 0 1 (by omega) (by omega), hw 1 2 (by omega) (by omega), hw 2 3 (by omega) (by omega), hw 3 4 (by omega) (by omega),
      hw 0 4 (by omega) (by omega)]
    norm_num
  have hsum : ∑ i ∈ Finset.range g.numNodes, pi i = -300 := by
    rw [hn]; simp [pi]; norm_num
  rw [hcost, hsum]
  -- the 1-tree
  rcases relaxation hr' hpos' (by omega) a1 a2 with (⟨-, h'⟩ | ⟨-, h'⟩) | ⟨h', -⟩ | ⟨t, L, et, rep, -, -, ho, -, hc, -, -, -, hmin, -⟩
  · rw [h'] at a3; cases a3
  · rw [h'] at a3; cases a3
  · rw [h'] at a3; cases a3
  rw [et] at a3; cases a3
  have haway : away 0 {s(1, 2)} = ({s(1, 2)} : EdgeSet) := by decide
  rw [haway] at hmin
  have hspan : Span (others g' 0) (usable g' 0 {s(1, 3)}) {s(1, 4), s(2, 4), s(2, 3)} := by
    refine ⟨?_, ?_, ?_⟩
    · intro e he
      simp only [Finset.mem_insert, Finset.mem_singleton] at he
      rcases he with rfl | rfl | rfl
      · exact mem_usable.2 ⟨hE' 1 (by omega) 4 (by omega) (by omega), by decide, by decide⟩
      · exact mem_usable.2 ⟨hE' 2 (by omega) 4 (by omega) (by omega), by decide, by decide⟩
      · exact mem_usable.2 ⟨hE' 2 (by omega) 3 (by omega) (by omega), by decide, by decide⟩
    · have c1 : Conn {s(1, 4), s(2, 4), s(2, 3)} 4 1 := Conn.edge (by decide)
      have c2 : Conn {s(1, 4), s(2, 4), s(2, 3)} 4 2 := Conn.edge (by decide)
      have c3 : Conn {s(1, 4), s(2, 4), s(2, 3)} 4 3 := c2.trans' (Conn.edge (by decide))
      have all : ∀ u ∈ others g' 0, Conn {s(1, 4), s(2, 4), s(2, 3)} 4 u := by
        intro u hu
        obtain ⟨h1, h2⟩ := mem_others.1 hu
        rw [hn'] at h1
        interval_cases u
        · exact absurd rfl h2
        · exact c1
        · exact c2
        · exact c3
        · exact Conn.refl' _ _
      exact fun u hu v hv => (all u hu).symm'.trans' (all v hv)
    · have := card_others (g := g') (cand := 0) (by omega)
      have h3 : ({s(1, 4), s(2, 4), s(2, 3)} : EdgeSet).card = 3 := by decide
      omega
  have hm1 := hmin _ hspan
  have hpn : (g.numNodes : ℚ) = 5 := by rw [hn]; norm_num
  have hf : ∀ e ∈ edgeSet g', forced (weight g') {s(1, 2)} (-(g.numNodes : ℚ)) e = if e = s(1, 2) then -5 else -20 := by
    intro e he
    unfold forced
    by_cases h : e = s(1, 2)
    · rw [if_pos (Finset.mem_singleton.2 h), if_pos h, hpn]
    · rw [if_neg (by simpa using h), if_neg h]; exact hwt e he h
  have hS : total (forced (weight g') {s(1, 2)} (-(g.numNodes : ℚ))) {s(1, 4), s(2, 4), s(2, 3)} = -60 := by
    unfold total
    rw [Finset.sum_insert (by decide), Finset.sum_insert (by decide), Finset.sum_singleton, hf _ (hE' 1 (by omega) 4 (by omega) (by omega)),
      hf _ (hE' 2 (by omega) 4 (by omega) (by omega)), hf _ (hE' 2 (by omega) 3 (by omega) (by omega)), if_neg (by decide), if_neg (by decide), if_neg (by decide)]
    norm_num
  rw [hS] at hm1
  have hcardA : (away 0 (pairs L)).card = 3 := by
    have h1 := (ho.tree.span (fun u v huv => by
      rw [mem_away] at huv
      have h' := hr'.stored.within u v (Finset.mem_sdiff.1 huv.1).1
      exact ⟨Finset.mem_erase.2 ⟨(notMem_pair.1 huv.2).1, h'.1⟩, Finset.mem_erase.2 ⟨(notMem_pair.1 huv.2).2, h'.2⟩⟩) ⟨1, by simp [hn']⟩).card
    rw [hn', Finset.card_erase_of_mem (by simp), Finset.card_range] at h1
    omega
  have hsubE : pairs L ⊆ edgeSet g' := ho.sub.trans Finset.sdiff_subset
  have h12 : s(1, 2) ∉ pairs L := by
    intro hmem
    have hmemA : s(1, 2) ∈ away 0 (pairs L) := mem_away.2 ⟨hmem, by decide⟩
    unfold total at hm1
    rw [← Finset.add_sum_erase _ _ hmemA, hf _ (hsubE hmem), if_pos rfl] at hm1
    have : ∑ e ∈ (away 0 (pairs L)).erase s(1, 2), forced (weight g') {s(1, 2)} (-(g.numNodes : ℚ)) e = ∑ e ∈ (away 0 (pairs L)).erase s(1, 2), (-20 : ℚ) := by
      refine Finset.sum_congr rfl ?_
      intro e he
      obtain ⟨hne, he⟩ := Finset.mem_erase.1 he
      rw [hf e (hsubE (mem_away.1 he).1), if_neg hne]
    rw [this, Finset.sum_const, Finset.card_erase_of_mem hmemA, hcardA] at hm1
    norm_num at hm1
  have htot : ∀ S ⊆ pairs L, total (weight g') S = S.card * (-20) := by
    intro S hS
    unfold total
    rw [Finset.sum_congr rfl (fun e he => hwt e (hsubE (hS he)) (by rintro rfl; exact h12 (hS he))), Finset.sum_const, nsmul_eq_mul]
  have hcost1 : t.cost = -100 := by
    rw [hc.exact exact_arith, total_split _ 0, htot (away 0 (pairs L)) (Finset.filter_subset _ _), hcardA]
    have := htot (spokes 0 (pairs L)) (Finset.filter_subset _ _)
    rw [ho.two] at this
    unfold spokes at this
    rw [this]; norm_num
  show (400:ℚ) < t.cost - 2 * -300
  rw [hcost1]; norm_num

end Verif
