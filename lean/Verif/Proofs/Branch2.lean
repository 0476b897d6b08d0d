import Verif.Proofs.Branch
import Verif.Proofs.Bound1
import Verif.Spec.Constraints

/-!
# `branch` as a whole, the order of the open list, and the sets of mandatory and forbidden edges of a matrix
-/
namespace Verif
open Verif.Spec
set_option autoImplicit false

variable [Rounding]

/-- the edges with the given constraint -/
def consSet (n : Nat) (cons : Nat → Nat → CType) (x : CType) : EdgeSet :=
  (((Finset.range n) ×ˢ (Finset.range n)).filter fun p => p.1 ≠ p.2 ∧ cons p.1 p.2 = x).image fun p => s(p.1, p.2)

omit [Rounding] in
theorem mem_consSet {n : Nat} {cons : Nat → Nat → CType} (h : SymMatrix n cons) {x : CType} {u v : Nat} :
    s(u, v) ∈ consSet n cons x ↔ u < n ∧ v < n ∧ u ≠ v ∧ cons u v = x := by
  unfold consSet
  simp only [Finset.mem_image, Finset.mem_filter, Finset.mem_product, Finset.mem_range, Prod.exists]
  constructor
  · rintro ⟨a, b, ⟨⟨ha, hb⟩, hne, hc⟩, he⟩
    rw [Sym2.eq_iff] at he
    rcases he with ⟨rfl, rfl⟩ | ⟨rfl, rfl⟩
    · exact ⟨ha, hb, hne, hc⟩
    · exact ⟨hb, ha, fun h => hne h.symm, by rw [h.symm b hb a ha]; exact hc⟩
  · rintro ⟨hu, hv, hne, hc⟩
    exact ⟨u, v, ⟨⟨hu, hv⟩, hne, hc⟩, rfl⟩

omit [Rounding] in
/-- the bookkeeping says what the subproblem requires and forbids -/
theorem Spec.Bookkeeping.describes {n : Nat} {sp : SubProblem} (h : Bookkeeping n sp) :
    Describes n sp (consSet n sp.cons .mandatory) (consSet n sp.cons .forbidden) := by
  have hm := @mem_consSet n sp.cons h.sym .mandatory
  have hf := @mem_consSet n sp.cons h.sym .forbidden
  have pm : ∀ u < n, ∀ v < n, u ≠ v → sp.cons u v = .mandatory → sp.numMandatory > 0 := by
    intro u hu v hv huv h'
    obtain ⟨k, hk, -⟩ := h.recorded u hu v hv huv h'
    omega
  constructor
  · intro u hu v hv huv
    rw [hm]
    exact ⟨fun h' => ⟨pm u hu v hv huv h'.2.2.2, h'.2.2.2⟩, fun h' => ⟨hu, hv, huv, h'.2⟩⟩
  · intro u hu v hv huv
    rw [hf]
    exact ⟨fun h' => ⟨h.counted u hu v hv huv h'.2.2.2, h'.2.2.2⟩, fun h' => ⟨hu, hv, huv, h'.2⟩⟩
  · intro u hu v hv huv
    rw [hm, hf]
    have h1 := pm u hu v hv huv
    have h2 := h.counted u hu v hv huv
    cases hc : sp.cons u v
    · simp
    · have := h1 hc; simp [hu, hv, huv]; omega
    · have := h2 hc; simp [hu, hv, huv]; omega
  · intro e he
    induction e using Sym2.ind with
    | _ u v => have := hm.1 he; exact h.recorded u this.1 v this.2.1 this.2.2.1 this.2.2.2
  · intro k hk
    obtain ⟨h1, h2, h3, h4⟩ := h.entries k hk
    refine ⟨h1, h2, h3, ?_⟩
    rw [Finset.mem_union, hm, hf]
    cases hc : sp.cons (sp.mandatory k).1 (sp.mandatory k).2
    · exact absurd hc h4
    · exact Or.inl ⟨h1, h2, h3, rfl⟩
    · exact Or.inr ⟨h1, h2, h3, rfl⟩
  · intro u v huv
    rw [Finset.mem_union, hm, hf] at huv
    rcases huv with h' | h' <;> exact ⟨h'.1, h'.2.1, h'.2.2.1⟩

omit [Rounding] in
/-- on a complete graph the allowed tours are those allowed by the matrix -/
theorem allowedBy_iff {n : Nat} {cons : Nat → Nat → CType} (h : SymMatrix n cons) {E : EdgeSet} (hE : ∀ u < n, ∀ v < n, u ≠ v → s(u, v) ∈ E) (hn : 3 ≤ n) {t : List Nat} :
    AllowedBy n cons t ↔ IsTour n t ∧ Allowed E (consSet n cons .mandatory) (consSet n cons .forbidden) t := by
  constructor
  · intro ha
    refine ⟨ha.1, ?_, ?_, ?_⟩
    · intro e he
      have hs := ha.1.set hn
      induction e using Sym2.ind with
      | _ u v =>
        have := hs.within u v he
        refine hE u (Finset.mem_range.1 this.1) v (Finset.mem_range.1 this.2) ?_
        rintro rfl; exact hs.loopless u he
    · intro e he
      induction e using Sym2.ind with
      | _ u v =>
        obtain ⟨h1, h2, h3, h4⟩ := (mem_consSet h).1 he
        exact (ha.2 u h1 v h2 h3).1 h4
    · intro e he hf
      induction e using Sym2.ind with
      | _ u v =>
        obtain ⟨h1, h2, h3, h4⟩ := (mem_consSet h).1 hf
        exact (ha.2 u h1 v h2 h3).2 h4 he
  · rintro ⟨ht, -, h2, h3⟩
    refine ⟨ht, fun u hu v hv huv => ⟨fun h' => h2 ((mem_consSet h).2 ⟨hu, hv, huv, h'⟩), fun h' h'' => h3 _ h'' ((mem_consSet h).2 ⟨hu, hv, huv, h'⟩)⟩⟩

/-- one round of `branch` -/
theorem branchChild_main {c : Cfg} {mem : Nat → SubProblem} {cur : SubProblem} {e : Edge} {open' open2 : List SubProblem} {p p2 : Problem} {i : Nat}
    (h : branchChild c mem cur e (open', p) i = .ok (open2, p2)) :
    ∃ child r, makeChild c (mem i) cur e (p.generated + 1) i = .ok child ∧ inferConstraints c child p.fixed = .ok r ∧
      p2 = { p with generated := p.generated + 1, fixed := r.1.2 } ∧ open2 = if r.2 then insertOpen c r.1.1 open' else open' := by
  unfold branchChild at h
  obtain ⟨child, h1, h2⟩ := bind_eq_ok.1 h
  obtain ⟨r, h3, h4⟩ := bind_eq_ok.1 h2
  refine ⟨child, r, h1, h3, ?_⟩
  simp only at h4
  by_cases hr : r.2 = true
  · rw [if_pos hr] at h4; cases h4; exact ⟨rfl, by rw [if_pos hr]⟩
  · rw [if_neg hr] at h4; cases h4; exact ⟨rfl, by rw [if_neg hr]⟩

theorem insertOpen_perm (c : Cfg) (x : SubProblem) (l : List SubProblem) : (insertOpen c x l).Perm (x :: l) := by
  unfold insertOpen
  split
  · exact List.perm_append_comm
  · next j _ =>
    refine (List.perm_middle).trans ?_
    rw [List.take_append_drop]

/-- the order of the open list is kept by an insertion -/
theorem insertOpen_sorted {c : Cfg} (heps : 0 ≤ c.eps) {x : SubProblem} {l : List SubProblem}
    (h : l.Pairwise fun a b => fl (a.value - b.value) ≤ c.eps) : (insertOpen c x l).Pairwise fun a b => fl (a.value - b.value) ≤ c.eps := by
  have hno : ∀ o, compareSub c x o = false → fl (o.value - x.value) ≤ c.eps := by
    intro o ho
    unfold compareSub at ho
    split at ho
    · have := of_decide_eq_false ho
      exact not_lt.1 fun h' => this (Or.inl h')
    · exact not_lt.1 (of_decide_eq_false ho)
  have hyes : ∀ o, compareSub c x o = true → x.value < o.value := by
    intro o ho
    unfold compareSub at ho
    split at ho
    · rcases of_decide_eq_true ho with h' | h'
      · have := pos_of_fl (lt_of_le_of_lt heps h'); linarith
      · exact h'.1
    · have := pos_of_fl (lt_of_le_of_lt heps (of_decide_eq_true ho)); linarith
  unfold insertOpen
  split
  · next hf =>
    rw [List.findIdx?_eq_none_iff] at hf
    rw [List.pairwise_append]
    refine ⟨h, List.pairwise_singleton _ _, ?_⟩
    intro a ha b hb
    rw [List.mem_singleton] at hb; subst hb
    exact hno a (hf a ha)
  · next j hf =>
    rw [List.findIdx?_eq_some_iff_getElem] at hf
    obtain ⟨hj, hp, hq⟩ := hf
    have hsplit : l.take j ++ l.drop j = l := List.take_append_drop j l
    have hpw := h
    rw [← hsplit, List.pairwise_append] at hpw
    obtain ⟨h1, h2, h3⟩ := hpw
    have hxb : ∀ b ∈ l.drop j, fl (x.value - b.value) ≤ c.eps := by
      intro b hb
      rw [List.drop_eq_getElem_cons hj] at hb h2
      have hlt := hyes _ hp
      rw [List.pairwise_cons] at h2
      rcases List.mem_cons.1 hb with rfl | hb
      · exact le_trans (fl_nonpos (by linarith)) heps
      · exact le_trans (fl_mono (by linarith)) (h2.1 b hb)
    rw [List.pairwise_append]
    refine ⟨h1, List.pairwise_cons.2 ⟨hxb, h2⟩, ?_⟩
    intro a ha b hb
    rcases List.mem_cons.1 hb with rfl | hb
    · obtain ⟨k, hk, rfl⟩ := List.mem_iff_getElem.1 ha
      rw [List.length_take] at hk
      rw [List.getElem_take]
      have := hq k (by omega)
      exact hno _ (by simpa using this)
    · exact h3 a ha b hb

end Verif

namespace Verif
open Verif.Spec
set_option autoImplicit false

/-- a subproblem with consistent bookkeeping on a complete graph that fills the arrays is what `constrained_prim` needs -/
theorem cready_of_book {c : Cfg} {g : Graph} {sp : SubProblem} {cand : Nat} (st : Stored g) (ps : Positions g) (hn : g.numNodes = c.maxV)
    (hm : g.numEdges ≤ c.maxE) (hE : ∀ u < c.maxV, ∀ v < c.maxV, u ≠ v → s(u, v) ∈ edgeSet g) (h2 : 2 ≤ c.maxV) (hc : cand < c.maxV)
    (hb : Bookkeeping c.maxV sp) : CReady c g sp cand (consSet c.maxV sp.cons .mandatory) (consSet c.maxV sp.cons .forbidden) where
  stored := st
  positions := ps
  nodes := by omega
  edges := hm
  two := by omega
  cand := by omega
  desc := by rw [hn]; exact hb.describes
  room := hb.room
  real := by
    intro k hk
    have := hb.entries k hk
    exact hE _ this.1 _ this.2.1 this.2.2.1

/-- the constrained edges at a node are the entries of its row -/
theorem spokes_card {n : Nat} {cons : Nat → Nat → CType} (h : SymMatrix n cons) {x : CType} (hx : x ≠ .forbidden) {i : Nat} (hi : i < n) :
    (spokes i (consSet n cons x)).card = rowCount n cons i x := by
  rw [rowCount_eq]
  symm
  refine Finset.card_bij (fun j _ => s(i, j)) ?_ ?_ ?_
  · intro j hj
    rw [Finset.mem_filter, Finset.mem_range] at hj
    refine mem_spokes.2 ⟨(mem_consSet h).2 ⟨hi, hj.1, ?_, hj.2⟩, by simp⟩
    rintro rfl
    rw [h.diag i hi] at hj; exact hx hj.2.symm
  · intro a ha b hb hab
    rw [Sym2.eq_iff] at hab
    omega
  · intro e he
    rw [mem_spokes] at he
    obtain ⟨j, rfl⟩ := he.2
    have := (mem_consSet h).1 he.1
    exact ⟨j, Finset.mem_filter.2 ⟨Finset.mem_range.2 this.2.1, this.2.2.2⟩, rfl⟩

end Verif
