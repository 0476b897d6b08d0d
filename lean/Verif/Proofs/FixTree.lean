import Verif.Proofs.Bound1

/-!
# Exchange arguments behind `variable_fixing`
-/
namespace Verif
open Verif.Spec
set_option autoImplicit false

variable [Rounding]

/-- a lightest 1-tree containing the mandatory edges -/
structure FixTree (n cand : Nat) (w : Sym2 Nat → ℚ) (E M T : EdgeSet) : Prop where
  one : OneTree n cand E T
  within : Within (Finset.range n) E
  loopless : ∀ u, s(u, u) ∉ E
  mand : M ⊆ T
  tmin : ∀ S, Span ((Finset.range n).erase cand) (away cand E) S → away cand M ⊆ S → total w (away cand T) ≤ total w S
  smin : ∀ Q ⊆ spokes cand E, Q.card = 2 → spokes cand M ⊆ Q → total w (spokes cand T) ≤ total w Q
  cand : cand < n
  three : 3 ≤ n

variable {n cand : Nat} {w : Sym2 Nat → ℚ} {E M T : EdgeSet}

omit [Rounding] in
theorem away_within (h : Within (Finset.range n) E) : Within ((Finset.range n).erase cand) (away cand E) := by
  intro u v huv
  rw [mem_away] at huv
  have := h u v huv.1
  have h2 : cand ≠ u ∧ cand ≠ v := by simpa using huv.2
  exact ⟨Finset.mem_erase.2 ⟨h2.1.symm, this.1⟩, Finset.mem_erase.2 ⟨h2.2.symm, this.2⟩⟩

omit [Rounding] in
/-- swap an edge of a spanning set -/
theorem span_swap {V : Finset Nat} {U S : EdgeSet} (hS : Span V U S) {x y a b : Nat} (hxy : s(x, y) ∈ S) (hab : s(a, b) ∉ S) (habU : s(a, b) ∈ U)
    (h1 : Conn (S.erase s(x, y)) a x) (h2 : Conn (S.erase s(x, y)) y b) :
    Span V U (insert s(a, b) (S.erase s(x, y))) ∧
    total w (insert s(a, b) (S.erase s(x, y))) = total w S - w s(x, y) + w s(a, b) := by
  have hne : s(a, b) ∉ S.erase s(x, y) := fun h => hab (Finset.mem_of_mem_erase h)
  have hsub : S.erase s(x, y) ⊆ insert s(a, b) (S.erase s(x, y)) := Finset.subset_insert _ _
  have hxy' : Conn (insert s(a, b) (S.erase s(x, y))) x y :=
    (h1.mono hsub).symm'.trans' ((Conn.edge (Finset.mem_insert_self _ _)).trans' (h2.mono hsub).symm')
  refine ⟨⟨?_, ?_, ?_⟩, ?_⟩
  · exact Finset.insert_subset habU ((Finset.erase_subset _ _).trans hS.sub)
  · intro p hp q hq
    refine Conn.lift ?_ (hS.conn p hp q hq)
    intro p q hpq
    by_cases h : s(p, q) = s(x, y)
    · rw [Sym2.eq_iff] at h
      rcases h with ⟨rfl, rfl⟩ | ⟨rfl, rfl⟩
      · exact hxy'
      · exact hxy'.symm'
    · exact Conn.edge (hsub (Finset.mem_erase.2 ⟨h, hpq⟩))
  · rw [Finset.card_insert_of_notMem hne, Finset.card_erase_of_mem hxy]
    have := Finset.card_pos.2 ⟨_, hxy⟩
    have := hS.card
    omega
  · unfold total
    rw [Finset.sum_insert hne, ← Finset.add_sum_erase _ _ hxy]
    ring

omit [Rounding] in
/-- the parts of a tour inside `E` containing `M` -/
theorem FixTree.parts (h : FixTree n cand w E M T) {t : List Nat} (ht : IsTour n t) (hE : tourEdges t ⊆ E) (hM : M ⊆ tourEdges t) :
    Span ((Finset.range n).erase cand) (away cand E) (away cand (tourEdges t)) ∧ away cand M ⊆ away cand (tourEdges t) ∧
    spokes cand (tourEdges t) ⊆ spokes cand E ∧ (spokes cand (tourEdges t)).card = 2 ∧ spokes cand M ⊆ spokes cand (tourEdges t) := by
  have hs := ht.set h.three
  refine ⟨hs.span h.cand ?_, ?_, ?_, hs.deg cand h.cand, ?_⟩
  · intro e he; rw [mem_away] at he ⊢; exact ⟨hE he.1, he.2⟩
  · intro e he; rw [mem_away] at he ⊢; exact ⟨hM he.1, he.2⟩
  · intro e he; rw [mem_spokes] at he ⊢; exact ⟨hE he.1, he.2⟩
  · intro e he; rw [mem_spokes] at he ⊢; exact ⟨hM he.1, he.2⟩

omit [Rounding] in
theorem FixTree.tour_cost (h : FixTree n cand w E M T) {t : List Nat} (ht : IsTour n t) :
    tourCost w t = total w (away cand (tourEdges t)) + total w (spokes cand (tourEdges t)) := by
  rw [ht.cost h.three, total_split _ cand]; rfl

omit [Rounding] in
theorem FixTree.tree_cost (_ : FixTree n cand w E M T) : total w T = total w (away cand T) + total w (spokes cand T) := by
  rw [total_split _ cand]; rfl

omit [Rounding] in
/-- the 1-tree is a lower bound -/
theorem FixTree.lower (h : FixTree n cand w E M T) {t : List Nat} (ht : IsTour n t) (hE : tourEdges t ⊆ E) (hM : M ⊆ tourEdges t) :
    total w T ≤ tourCost w t := by
  obtain ⟨h1, h2, h3, h4, h5⟩ := h.parts ht hE hM
  rw [h.tour_cost ht, h.tree_cost]
  exact add_le_add (h.tmin _ h1 h2) (h.smin _ h3 h4 h5)

omit [Rounding] in
/-- a tour using an edge outside the 1-tree pays for it, up to the weight of some free edge on any walk in the tree between its ends -/
theorem FixTree.forbid (h : FixTree n cand w E M T) {t : List Nat} (ht : IsTour n t) (hE : tourEdges t ⊆ E) (hM : M ⊆ tourEdges t)
    {u v : Nat} (he : s(u, v) ∈ tourEdges t) (hc : cand ∉ s(u, v)) (hT : s(u, v) ∉ T) {P : EdgeSet} (hP : P ⊆ away cand T) (hconn : Conn P u v) :
    ∃ f ∈ P, f ∉ tourEdges t ∧ total w T + w s(u, v) - w f ≤ tourCost w t := by
  obtain ⟨h1, h2, h3, h4, h5⟩ := h.parts ht hE hM
  set S := away cand (tourEdges t) with hS
  have heS : s(u, v) ∈ S := mem_away.2 ⟨he, hc⟩
  have hwi := away_within (cand := cand) h.within
  have hne : ((Finset.range n).erase cand).Nonempty := by
    rw [← Finset.card_pos, Finset.card_erase_of_mem (Finset.mem_range.2 h.cand), Finset.card_range]; have := h.three; omega
  have hac := (h1.tree hwi hne).acyclic
  have huv := hwi u v (h1.sub heS)
  obtain ⟨a, b, hab, ha, hb, -⟩ := crossing (fun z => Conn (S.erase s(u, v)) u z) _ P rfl u v (Conn.refl' _ _) (hac u v heS) hconn
  have habT := hP hab
  have habS : s(a, b) ∉ S := by
    intro h'
    by_cases hh : s(a, b) = s(u, v)
    · rw [hh] at habT; exact hT (mem_away.1 habT).1
    · exact hb (ha.trans' (Conn.edge (Finset.mem_erase.2 ⟨hh, h'⟩)))
  have habU : s(a, b) ∈ away cand E := by
    rw [mem_away] at habT ⊢; exact ⟨h.one.sub habT.1, habT.2⟩
  have hbV := (hwi a b habU).2
  have hvb : Conn (S.erase s(u, v)) v b := by
    have := h1.conn u huv.1 b hbV
    rw [← Finset.insert_erase heS, conn_insert] at this
    rcases this with h' | ⟨-, h'⟩ | ⟨h', -⟩
    · exact absurd h' hb
    · exact h'
    · exact absurd h' (hac u v heS)
  obtain ⟨q1, q2⟩ := span_swap (w := w) h1 heS habS habU ha.symm' hvb
  have hMnew : away cand M ⊆ insert s(a, b) (S.erase s(u, v)) := by
    intro e heM
    refine Finset.mem_insert_of_mem (Finset.mem_erase.2 ⟨?_, h2 heM⟩)
    rintro rfl
    exact hT (h.mand (mem_away.1 heM).1)
  have m1 := h.tmin _ q1 hMnew
  have m2 := h.smin _ h3 h4 h5
  refine ⟨s(a, b), hab, ?_, ?_⟩
  · intro h'; exact habS (mem_away.2 ⟨h', (mem_away.1 habT).2⟩)
  · rw [h.tour_cost ht, h.tree_cost]; rw [q2] at m1; linarith

omit [Rounding] in
/-- a tour avoiding an edge of the tree pays for the replacement by one of its own edges, whose ends are joined in the tree only through that edge -/
theorem FixTree.require (h : FixTree n cand w E M T) {t : List Nat} (ht : IsTour n t) (hE : tourEdges t ⊆ E) (hM : M ⊆ tourEdges t)
    {a b : Nat} (hf : s(a, b) ∈ away cand T) (hft : s(a, b) ∉ tourEdges t) :
    ∃ x y, s(x, y) ∈ tourEdges t ∧ cand ∉ s(x, y) ∧ s(x, y) ∉ T ∧ total w T + w s(x, y) - w s(a, b) ≤ tourCost w t ∧
      ∀ P ⊆ away cand T, Conn P x y → s(a, b) ∈ P := by
  obtain ⟨h1, h2, h3, h4, h5⟩ := h.parts ht hE hM
  set S := away cand (tourEdges t) with hS
  have hwi := away_within (cand := cand) h.within
  have hac := h.one.tree.acyclic
  have hfU : s(a, b) ∈ away cand E := h.one.tree.sub hf
  have hV := hwi a b hfU
  have hfS : s(a, b) ∉ S := fun h' => hft (mem_away.1 h').1
  obtain ⟨x, y, hxy, hx, hy, k1, k2⟩ := crossing (fun z => Conn ((away cand T).erase s(a, b)) a z) _ S rfl a b (Conn.refl' _ _) (hac a b hf) (h1.conn a hV.1 b hV.2)
  have hxyT : s(x, y) ∉ T := by
    intro h'
    refine hy (hx.trans' (Conn.edge (Finset.mem_erase.2 ⟨?_, mem_away.2 ⟨h', (mem_away.1 hxy).2⟩⟩)))
    intro hh; rw [hh] at hxy; exact hfS hxy
  obtain ⟨q1, q2⟩ := span_swap (w := w) h1 hxy hfS hfU k1 k2
  have hMnew : away cand M ⊆ insert s(a, b) (S.erase s(x, y)) := by
    intro e heM
    refine Finset.mem_insert_of_mem (Finset.mem_erase.2 ⟨?_, h2 heM⟩)
    rintro rfl
    exact hxyT (h.mand (mem_away.1 heM).1)
  have m1 := h.tmin _ q1 hMnew
  have m2 := h.smin _ h3 h4 h5
  refine ⟨x, y, (mem_away.1 hxy).1, (mem_away.1 hxy).2, hxyT, ?_, ?_⟩
  · rw [h.tour_cost ht, h.tree_cost]; rw [q2] at m1; linarith
  · intro P hP hconn
    by_contra hno
    refine hy (hx.trans' (hconn.mono ?_))
    intro e he
    refine Finset.mem_erase.2 ⟨?_, hP he⟩
    rintro rfl; exact hno he

omit [Rounding] in
/-- a tour using an edge at the candidate outside the 1-tree pays for it, up to the heavier of the two edges of the 1-tree there -/
theorem FixTree.spoke (h : FixTree n cand w E M T) {t : List Nat} (ht : IsTour n t) (hE : tourEdges t ⊆ E) (hM : M ⊆ tourEdges t)
    {e p q : Sym2 Nat} (he : e ∈ tourEdges t) (hc : cand ∈ e) (hT : e ∉ T) (hsp : spokes cand T = {p, q}) :
    total w T + w e - max (w p) (w q) ≤ tourCost w t := by
  obtain ⟨h1, h2, h3, h4, h5⟩ := h.parts ht hE hM
  have heS : e ∈ spokes cand (tourEdges t) := mem_spokes.2 ⟨he, hc⟩
  obtain ⟨e2, he2⟩ : ∃ e2, (spokes cand (tourEdges t)).erase e = {e2} := by
    rw [← Finset.card_eq_one, Finset.card_erase_of_mem heS, h4]
  have he2S : e2 ∈ spokes cand (tourEdges t) := Finset.mem_of_mem_erase (he2 ▸ Finset.mem_singleton_self e2)
  have hsum : total w (spokes cand (tourEdges t)) = w e + w e2 := by
    unfold total
    rw [← Finset.add_sum_erase _ _ heS, he2, Finset.sum_singleton]
  have hpq : p ≠ q := by
    rintro rfl
    have := h.one.two; rw [hsp] at this; simp at this
  have hT2 : total w (spokes cand T) = w p + w q := by
    unfold total; rw [hsp, Finset.sum_pair hpq]
  have hmin : min (w p) (w q) ≤ w e2 := by
    by_cases hin : e2 ∈ spokes cand T
    · rw [hsp, Finset.mem_insert, Finset.mem_singleton] at hin
      rcases hin with rfl | rfl
      · exact min_le_left _ _
      · exact min_le_right _ _
    · have hMe : spokes cand M = ∅ := by
        rw [Finset.eq_empty_iff_forall_notMem]
        intro m hm
        have hmT : m ∈ spokes cand T := mem_spokes.2 ⟨h.mand (mem_spokes.1 hm).1, (mem_spokes.1 hm).2⟩
        have hmS := h5 hm
        by_cases hme : m = e
        · subst hme; exact hT (mem_spokes.1 hmT).1
        · have : m ∈ (spokes cand (tourEdges t)).erase e := Finset.mem_erase.2 ⟨hme, hmS⟩
          rw [he2, Finset.mem_singleton] at this
          subst this; exact hin hmT
      have hx : ∀ r, r = p ∨ r = q → w p + w q ≤ w e2 + w r := by
        intro r hr
        have hrT : r ∈ spokes cand T := by rw [hsp]; rcases hr with rfl | rfl <;> simp
        have hne : e2 ≠ r := by rintro rfl; exact hin hrT
        have := h.smin {e2, r} ?_ (Finset.card_pair hne) (by rw [hMe]; exact Finset.empty_subset _)
        · rw [hT2] at this
          unfold total at this
          rwa [Finset.sum_pair hne] at this
        · intro z hz
          rw [Finset.mem_insert, Finset.mem_singleton] at hz
          rcases hz with rfl | rfl
          · exact h3 he2S
          · have := mem_spokes.1 hrT
            exact mem_spokes.2 ⟨h.one.sub this.1, this.2⟩
      rcases le_total (w p) (w q) with hle | hle
      · rw [min_eq_left hle]; have := hx q (Or.inr rfl); linarith
      · rw [min_eq_right hle]; have := hx p (Or.inl rfl); linarith
  have m1 := h.tmin _ h1 h2
  rw [h.tour_cost ht, h.tree_cost, hsum, hT2]
  have := min_add_max (w p) (w q)
  linarith

end Verif
