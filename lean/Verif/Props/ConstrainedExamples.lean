import Verif.Props.ConstrainedKruskal
import Verif.Proofs.Example
import Mathlib.Tactic.NormNum
import Mathlib.Tactic.IntervalCases

/-!
# C23–C25: examples, and where C24 fails
-/
namespace Verif
open Verif.Spec
set_option autoImplicit false

theorem acyclic_single {u v : Nat} (h : u ≠ v) : Acyclic {s(u, v)} := by
  have : Acyclic (insert s(u, v) ∅) := acyclic_empty.insert (by
    intro hc
    have : u = v := Conn.closed (C := fun z => u = z) (by intro x y hxy; simp at hxy) hc rfl
    exact h this)
  simpa using this

/-- C24 does not extend to weights below `-num_nodes`: on five nodes with weight `-10` on every edge but the mandatory edge
1–2, the valid tree omits the mandatory edge. -/
theorem C24_fails_below_minus_n (mem : Graph) (loc : PState) : ∃ (c : Cfg) (g : Graph) (sp sp' : SubProblem) (M F : EdgeSet),
    CReady c g sp 0 M F ∧ (∀ e ∈ usable g 0 F, weight g e < FLT_MAX) ∧ Acyclic (away 0 M) ∧
    constrainedPrim c g.numNodes g sp 0 loc = .ok sp' ∧ sp'.oneTree.isValid = true ∧ ¬ away 0 M ⊆ treeEdges sp'.oneTree := by
  let c : Cfg := ⟨5, false, 0, 0, 0, 0⟩
  obtain ⟨g, -, st, ps, -, hn, hm, hE, hw⟩ := Ex.complete c mem 5 (le_refl 5) (fun u v => if u = 1 ∧ v = 2 then 0 else -10)
  have hr := Ex.sub_ready (c := c) (n := 5) (by omega) (le_refl 5) st ps hn hm hE
  have haway : away 0 {s(1, 2)} = ({s(1, 2)} : EdgeSet) := by
    ext e; rw [mem_away, Finset.mem_singleton]
    constructor
    · exact fun h => h.1
    · rintro rfl; exact ⟨rfl, by decide⟩
  have hwle : ∀ e ∈ edgeSet g, -10 ≤ weight g e ∧ weight g e ≤ 0 := by
    have main : ∀ u v, u < v → v < 5 → -10 ≤ weight g s(u, v) ∧ weight g s(u, v) ≤ 0 := by
      intro u v huv hv; rw [hw u v huv hv]; split <;> norm_num
    intro e he
    induction e using Sym2.ind with
    | _ u v =>
      have := st.within u v he
      rw [hn, Finset.mem_range, Finset.mem_range] at this
      rcases Nat.lt_trichotomy u v with h | h | h
      · exact main u v h this.2
      · subst h; exact absurd he (st.noloop u)
      · rw [Sym2.eq_swap]; exact main v u h this.1
  have hsmall : ∀ e ∈ usable g 0 {s(1, 3)}, weight g e < FLT_MAX := by
    intro e he
    have h1 := (hwle e (mem_usable.1 he).1).2
    have h2 : (0:ℚ) < FLT_MAX := by decide +kernel
    linarith
  have hac : Acyclic (away 0 {s(1, 2)}) := by rw [haway]; exact acyclic_single (by decide)
  have hu : ∀ u v, s(u, v) ∈ ({s(1, 4), s(2, 4), s(2, 3)} : EdgeSet) → s(u, v) ∈ usable g 0 {s(1, 3)} := by
    intro u v h
    simp only [Finset.mem_insert, Finset.mem_singleton] at h
    rcases h with h | h | h <;> rw [h]
    · exact mem_usable.2 ⟨hE 1 (by omega) 4 (by omega) (by omega), by decide, by decide⟩
    · exact mem_usable.2 ⟨hE 2 (by omega) 4 (by omega) (by omega), by decide, by decide⟩
    · exact mem_usable.2 ⟨hE 2 (by omega) 3 (by omega) (by omega), by decide, by decide⟩
  have hspan : Span (others g 0) (usable g 0 {s(1, 3)}) {s(1, 4), s(2, 4), s(2, 3)} := by
    refine ⟨?_, ?_, ?_⟩
    · intro e he
      induction e using Sym2.ind with
      | _ u v => exact hu u v he
    · have c1 : Conn {s(1, 4), s(2, 4), s(2, 3)} 4 1 := Conn.edge (by decide)
      have c2 : Conn {s(1, 4), s(2, 4), s(2, 3)} 4 2 := Conn.edge (by decide)
      have c3 : Conn {s(1, 4), s(2, 4), s(2, 3)} 4 3 := c2.trans' (Conn.edge (by decide))
      have all : ∀ u ∈ others g 0, Conn {s(1, 4), s(2, 4), s(2, 3)} 4 u := by
        intro u hu
        obtain ⟨h1, h2⟩ := mem_others.1 hu
        rw [hn] at h1
        interval_cases u
        · exact absurd rfl h2
        · exact c1
        · exact c2
        · exact c3
        · exact Conn.refl' _ _
      exact fun u hu v hv => (all u hu).symm'.trans' (all v hv)
    · have := card_others (g := g) (cand := 0) (by omega)
      have h3 : ({s(1, 4), s(2, 4), s(2, 3)} : EdgeSet).card = 3 := by decide
      omega
  rcases C23_constrained_prim (pn := g.numNodes) hr hsmall loc with ⟨-, h57⟩ | ⟨t, e, -, hcard, -, hv, -⟩
  · omega
  have hval : t.isValid = true := hv.2 (fun u hu v hv => (hspan.conn u hu v hv).mono hspan.sub)
  refine ⟨c, g, Ex.sub, _, _, _, hr, hsmall, hac, e, hval, ?_⟩
  intro hsub
  obtain ⟨-, hsp, hmin⟩ := constrainedPrim_valid hr e hval
  have h1 := hmin _ hspan
  rw [haway] at h1 hsub
  have hmem : s(1, 2) ∈ treeEdges t := hsub (by simp)
  have hcards := hsp.card
  have hothers := card_others (g := g) (cand := 0) (by omega)
  have hpn : (g.numNodes : ℚ) = 5 := by rw [hn]; norm_num
  have hS : total (forced (weight g) {s(1, 2)} (-(g.numNodes : ℚ))) {s(1, 4), s(2, 4), s(2, 3)} = -30 := by
    unfold total
    rw [Finset.sum_insert (by decide), Finset.sum_insert (by decide), Finset.sum_singleton]
    have f : ∀ u v, u < v → v < 5 → ¬ (u = 1 ∧ v = 2) → forced (weight g) {s(1, 2)} (-(g.numNodes : ℚ)) s(u, v) = -10 := by
      intro u v huv hv hne
      unfold forced
      rw [if_neg, hw u v huv hv, if_neg hne]
      rw [Finset.mem_singleton, Sym2.eq_iff]; omega
    rw [f 1 4 (by omega) (by omega) (by omega), f 2 4 (by omega) (by omega) (by omega), f 2 3 (by omega) (by omega) (by omega)]
    norm_num
  rw [hS] at h1
  have hT : -25 ≤ total (forced (weight g) {s(1, 2)} (-(g.numNodes : ℚ))) (treeEdges t) := by
    unfold total
    rw [← Finset.add_sum_erase _ _ hmem]
    have hf : forced (weight g) {s(1, 2)} (-(g.numNodes : ℚ)) s(1, 2) = -5 := by
      unfold forced; rw [if_pos (by simp), hpn]
    have hge : ∀ e ∈ (treeEdges t).erase s(1, 2), (-10 : ℚ) ≤ forced (weight g) {s(1, 2)} (-(g.numNodes : ℚ)) e := by
      intro e he
      obtain ⟨hne, he⟩ := Finset.mem_erase.1 he
      unfold forced
      rw [if_neg (by simpa using hne)]
      exact (hwle e (mem_usable.1 (hsp.sub he)).1).1
    have := Finset.card_nsmul_le_sum _ _ _ hge
    rw [Finset.card_erase_of_mem hmem, show (treeEdges t).card - 1 = 2 by
      have : (treeEdges t).card + 1 = (others g 0).card := hcards
      omega] at this
    rw [hf]
    norm_num at this ⊢
    linarith
  have : total (forced (weight g) {s(1, 2)} (-(g.numNodes : ℚ))) (treeEdges t) ≤ -30 := h1
  linarith

/-- the hypotheses of C23–C25 hold on the complete graph with five nodes and positive weights, with edge 1–2 mandatory and
edge 1–3 forbidden -/
example (mem : Graph) (c : Cfg) (hc : c.maxV = 6) : ∃ g, CReady c g Ex.sub 0 {s(1, 2)} {s(1, 3)} ∧ KruskalReady c 15 g ∧
    (∀ k < Ex.sub.numMandatory, s((Ex.sub.mandatory k).1, (Ex.sub.mandatory k).2) ∈ ({s(1, 2)} : EdgeSet)) ∧
    (∀ e ∈ usable g 0 {s(1, 3)}, weight g e < FLT_MAX) ∧ Acyclic (away 0 {s(1, 2)}) ∧
    (∀ e ∈ usable g 0 {s(1, 3)}, e ∉ ({s(1, 2)} : EdgeSet) → -(g.numNodes : ℚ) < weight g e) := by
  obtain ⟨g, -, st, ps, ho, hn, hm, hE, hw⟩ := Ex.complete c mem 5 (by omega) (fun u v => u + v)
  have hr := Ex.sub_ready (c := c) (n := 5) (by omega) (by omega) st ps hn hm hE
  have hm' : g.numEdges = 10 := by omega
  have hwle : ∀ e ∈ edgeSet g, 0 ≤ weight g e ∧ weight g e ≤ 10 := by
    have main : ∀ u v, u < v → v < 5 → 0 ≤ weight g s(u, v) ∧ weight g s(u, v) ≤ 10 := by
      intro u v huv hv; rw [hw u v huv hv]
      have h1 : (u : ℚ) ≤ 5 := by exact_mod_cast (by omega : u ≤ 5)
      have h2 : (v : ℚ) ≤ 5 := by exact_mod_cast (by omega : v ≤ 5)
      have h3 : (0 : ℚ) ≤ u := Nat.cast_nonneg u
      have h4 : (0 : ℚ) ≤ v := Nat.cast_nonneg v
      constructor <;> linarith
    intro e he
    induction e using Sym2.ind with
    | _ u v =>
      have := st.within u v he
      rw [hn, Finset.mem_range, Finset.mem_range] at this
      rcases Nat.lt_trichotomy u v with h | h | h
      · exact main u v h this.2
      · subst h; exact absurd he (st.noloop u)
      · rw [Sym2.eq_swap]; exact main v u h this.1
  refine ⟨g, hr, ⟨st, ps, by omega, by omega, by omega, by omega, by simp [ho]⟩, ?_, ?_, ?_, ?_⟩
  · intro k _; simp [Ex.sub]
  · intro e he
    have := (hwle e (mem_usable.1 he).1).2
    have h2 : (10:ℚ) < FLT_MAX := by decide +kernel
    linarith
  · refine (acyclic_single (u := 1) (v := 2) (by decide)).subset ?_
    intro e he; exact (mem_away.1 he).1
  · intro e he _
    have := (hwle e (mem_usable.1 he).1).1
    rw [hn]; norm_num; linarith

end Verif
