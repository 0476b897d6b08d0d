import Verif.Proofs.Bound3

/-!
# The loop of `bound`
-/
namespace Verif
open Verif.Spec
set_option autoImplicit false

variable [Rounding] {c : Cfg} {p : Problem} {cur : SubProblem}

/-- every node has a neighbour in a 1-tree -/
theorem Analysed.degree (h3 : 3 ≤ c.maxV) (hc : p.cand < c.maxV) {a : SubProblem} {L : List Edge} (h : Analysed c p cur a L) {i : Nat} (hi : i < c.maxV) :
    1 ≤ (a.oneTree.nodes i).nn ∧ (a.oneTree.nodes i).nn ≤ c.maxV := by
  have hlen : (a.oneTree.nodes i).nn = (nbrs L i).length := h.rep.pos0 i hi
  rw [hlen]
  refine ⟨?_, by have := nbrs_length_le h.simple hi; omega⟩
  obtain ⟨j, hj⟩ : ∃ j, s(i, j) ∈ pairs L := by
    by_cases hic : i = p.cand
    · have h2 := h.one.two
      obtain ⟨e, he⟩ := Finset.card_pos.1 (by rw [h2]; omega : 0 < (spokes p.cand (pairs L)).card)
      rw [mem_spokes] at he
      obtain ⟨j, rfl⟩ := he.2
      exact ⟨j, by rw [hic]; exact he.1⟩
    · obtain ⟨j, hj, hji, hjc⟩ : ∃ j < c.maxV, j ≠ i ∧ j ≠ p.cand := by
        by_contra hcon
        push Not at hcon
        have h0 := hcon 0 (by omega)
        have h1 := hcon 1 (by omega)
        have h2 := hcon 2 (by omega)
        omega
      have := h.one.tree.conn i (by simp [hic, hi]) j (by simp [hjc, hj])
      rcases Relation.ReflTransGen.cases_head this with h' | ⟨k, hk, -⟩
      · exact absurd h'.symm hji
      · exact ⟨k, (mem_away.1 hk).1⟩
  obtain ⟨e, he, hej⟩ := mem_pairs.1 hj
  have : j ∈ nbrs L i := mem_nbrs.2 ⟨e, he, by
    rw [epair, Sym2.eq_iff] at hej
    rcases hej with h' | h'
    · exact Or.inl h'
    · exact Or.inr h'⟩
  exact List.length_pos_of_mem this

/-- the tours that matter: allowed and shorter than the best known one, by more than `d` -/
def Better (d : ℚ) (c : Cfg) (p : Problem) (cur : SubProblem) (t : List Nat) : Prop :=
  AllowedBy c.maxV cur.cons t ∧ tourCost (weight p.graph) t < p.bestValue - d

/-- the numeric part of the invariant, for one tour that matters -/
structure NumInv (z : Scale) (c : Cfg) (p : Problem) (N iter : Nat) (s : BState) (t : List Nat) : Prop where
  lb0 : 0 ≤ s.bestLB
  lb : s.bestLB ≤ tourCost (weight p.graph) t + (5 * (c.maxV : ℚ) + 2) * z.ε
  low : ∀ j < c.maxV, -(z.T c.maxV * stepSum N (iter - 1)) - ((iter - 1 : Nat) : ℚ) * z.drift c.maxV N ≤ s.pi j
  high : ∀ j < c.maxV, s.pi j ≤ c.maxV * z.T c.maxV * stepSum N (iter - 1) + ((iter - 1 : Nat) : ℚ) * z.drift c.maxV N
  vold : ∀ j < c.maxV, -1 ≤ s.vOld j ∧ s.vOld j ≤ c.maxV
  tot : |s.totalPi - ∑ i ∈ Finset.range c.maxV, s.pi i| ≤ c.maxV * z.ε

/-- what the analysis needs of the sizes: the rounding errors are small, the dual variables stay above `-n` on mandatory edges and far from `FLT_MAX` -/
structure Tame (z : Scale) (c : Cfg) (p : Problem) (cur : SubProblem) (N : Nat) : Prop where
  three : 3 ≤ N
  near : Near z.ε (z.need c.eps c.maxV N)
  ints : ∀ m : Nat, m ≤ 2 * (N * N) → fl (m : ℚ) = m
  U0 : 0 ≤ z.U
  W0 : 0 ≤ z.W
  best : p.bestValue ≤ z.U
  weights : ∀ e ∈ edgeSet p.graph, weight p.graph e ≤ z.W ∧ fl (weight p.graph e) = weight p.graph e
  fine : z.drift c.maxV N ≤ 1
  low : consSet c.maxV cur.cons .mandatory = ∅ ∨ z.T c.maxV * N + 2 * N * z.drift c.maxV N + 2 * z.ε ≤ c.maxV
  high : ∀ e ∈ edgeSet p.graph, weight p.graph e + c.maxV * z.T c.maxV * N + 2 * N * z.drift c.maxV N + 2 * z.ε < FLT_MAX

/-- simple facts about the sizes -/
structure Sizes (z : Scale) (eps : ℚ) (n N : Nat) : Prop where
  n3 : (3 : ℚ) ≤ n
  N3 : (3 : ℚ) ≤ N
  e0 : 0 ≤ z.ε
  T0 : 0 ≤ z.T n
  d0 : 0 ≤ z.drift n N
  P0 : 0 ≤ z.P n N
  ne0 : 0 ≤ (n : ℚ) * z.ε
  e_ne : 3 * z.ε ≤ (n : ℚ) * z.ε
  ne1 : 17 * ((n : ℚ) * z.ε) ≤ 1
  step : ((N : ℚ) + 6) * (z.T n + 1) * z.ε ≤ 1
  move : (n : ℚ) * (z.T n + 4) * z.ε ≤ 1
  sum : (n : ℚ) * (z.W + 2 * z.P n N + 1) ≤ z.need eps n N
  need : z.U + eps + 2 * ((n : ℚ) * z.P n N) + 4 ≤ z.need eps n N
  need1 : 4 * ((N : ℚ) * N) * (z.T n + 2) ≤ z.need eps n N
  need2 : z.P n N + (n : ℚ) * (z.T n + 4) + 4 ≤ z.need eps n N
  need3 : z.W + 2 * z.P n N + 2 ≤ z.need eps n N

theorem Tame.sizes (h : Instance c p) (heps : 0 ≤ c.eps) {z : Scale} {N : Nat} (ht : Tame z c p cur N) : Sizes z c.eps c.maxV N := by
  have n3 : (3 : ℚ) ≤ c.maxV := by exact_mod_cast h.three
  have N3 : (3 : ℚ) ≤ N := by exact_mod_cast ht.three
  have e0 := ht.near.nonneg
  have U0 := ht.U0
  have W0 := ht.W0
  have T0 : 0 ≤ z.T c.maxV := fl_nonneg (div_nonneg U0 (by linarith))
  have hf := ht.fine
  have d0 : 0 ≤ z.drift c.maxV N := by unfold Scale.drift; positivity
  have P0 : 0 ≤ z.P c.maxV N := by unfold Scale.P; positivity
  have ne0 : 0 ≤ (c.maxV : ℚ) * z.ε := by positivity
  generalize hT : z.T c.maxV = T at *
  generalize hn : (c.maxV : ℚ) = n at *
  generalize hNN : (N : ℚ) = M at *
  have hd : z.drift c.maxV N = n * (M + 14) * (T + 1) * z.ε := by unfold Scale.drift; rw [hT, hn, hNN]
  rw [hd] at hf
  have hneed : z.need c.eps c.maxV N = z.U + c.eps + 4 * n * (z.W + z.P c.maxV N + T + 2) + 4 * (M * M) * (T + 2) + 4 := by unfold Scale.need; rw [hT, hn, hNN]
  have nW : 0 ≤ n * z.W := by positivity
  have nP : 0 ≤ n * z.P c.maxV N := by positivity
  have nP' : 3 * z.P c.maxV N ≤ n * z.P c.maxV N := mul_le_mul_of_nonneg_right n3 P0
  have nT : 0 ≤ n * T := by positivity
  have MMT : 0 ≤ M * M * T := by positivity
  have MM : 9 ≤ M * M := by nlinarith
  have nW' : 3 * z.W ≤ n * z.W := mul_le_mul_of_nonneg_right n3 W0
  have hex : z.need c.eps c.maxV N = z.U + c.eps + (4 * (n * z.W) + 4 * (n * z.P c.maxV N) + 4 * (n * T) + 8 * n) + (4 * (M * M * T) + 8 * (M * M)) + 4 := by rw [hneed]; ring
  refine ⟨by rw [hn]; exact n3, by rw [hNN]; exact N3, e0, by rw [hT]; exact T0, d0, P0, by rw [hn]; exact ne0, ?_, ?_, ?_, ?_, ?_, ?_, ?_, ?_, ?_⟩ <;> (try simp only [hT, hn, hNN])
  · exact mul_le_mul_of_nonneg_right n3 e0
  · refine le_trans ?_ hf
    have a1 : 17 ≤ (M + 14) * (T + 1) := by nlinarith
    have := mul_le_mul_of_nonneg_right a1 ne0
    linarith
  · refine le_trans ?_ hf
    refine mul_le_mul_of_nonneg_right (mul_le_mul_of_nonneg_right ?_ (by linarith)) e0
    nlinarith
  · refine le_trans ?_ hf
    refine mul_le_mul_of_nonneg_right ?_ e0
    rw [mul_assoc]
    refine mul_le_mul_of_nonneg_left ?_ (by linarith)
    nlinarith
  · rw [hex]
    linarith [show n * (z.W + 2 * z.P c.maxV N + 1) = n * z.W + 2 * (n * z.P c.maxV N) + n by ring]
  · rw [hex]; linarith
  · rw [hex]
    linarith [show 4 * (M * M) * (T + 2) = 4 * (M * M * T) + 8 * (M * M) by ring]
  · rw [hex]
    linarith [show n * (T + 4) = n * T + 4 * n by ring]
  · rw [hex]; linarith

/-- the dual variables stay within `P` -/
theorem NumInv.abs_pi {z : Scale} {N iter : Nat} (hz : Sizes z c.eps c.maxV N) (hN : 3 ≤ N) (hi : iter - 1 ≤ N) {s : BState} {t : List Nat} (hn : NumInv z c p N iter s t) :
    ∀ j < c.maxV, |s.pi j| ≤ z.P c.maxV N := by
  intro j hj
  have h1 := hn.low j hj
  have h2 := hn.high j hj
  have s1 := stepSum_le hN hi
  have s0 := stepSum_nonneg hN hi
  have i1 : ((iter - 1 : Nat) : ℚ) ≤ N := by exact_mod_cast hi
  have a1 := mul_le_mul_of_nonneg_right i1 hz.d0
  have n3 := hz.n3
  have a2 := mul_le_mul_of_nonneg_left s1 (mul_nonneg (by linarith : (0 : ℚ) ≤ c.maxV) hz.T0)
  have a3 := mul_nonneg hz.T0 s0
  have a4 : z.T c.maxV * stepSum N (iter - 1) ≤ c.maxV * z.T c.maxV * stepSum N (iter - 1) := by
    rw [mul_assoc]; exact le_mul_of_one_le_left a3 (by linarith)
  unfold Scale.P
  rw [abs_le]
  constructor <;> linarith

/-- the weights of an iteration -/
theorem Tame.weight_near (h : Instance c p) (heps : 0 ≤ c.eps) {z : Scale} {N : Nat} (ht : Tame z c p cur N) {pi : Nat → ℚ} (hpi : ∀ j < c.maxV, |pi j| ≤ z.P c.maxV N) :
    ∀ e ∈ edgeSet p.graph, |piWeight (weight p.graph) pi e - (weight p.graph e + (pi e.inf + pi e.sup))| ≤ 2 * z.ε ∧ |piWeight (weight p.graph) pi e| ≤ z.W + 2 * z.P c.maxV N + 2 * z.ε := by
  have hz := ht.sizes h heps
  intro e he
  have hwi := h.stored.within
  have hw0 := h.nonneg e he
  have hw1 := (ht.weights e he).1
  have hends : |pi e.inf + pi e.sup| ≤ 2 * z.P c.maxV N := by
    induction e using Sym2.ind with
    | _ u v =>
      have huv := hwi u v he
      rw [h.nodes, Finset.mem_range, Finset.mem_range] at huv
      have a := hpi u huv.1
      have b := hpi v huv.2
      rw [Sym2.inf_mk, Sym2.sup_mk]
      rcases le_total u v with h | h
      · rw [inf_eq_left.2 h, sup_eq_right.2 h]; have := abs_add_le (pi u) (pi v); linarith
      · rw [inf_eq_right.2 h, sup_eq_left.2 h]; have := abs_add_le (pi v) (pi u); linarith
  have n1 := hz.ne1
  have n2 := hz.e_ne
  have e0 := hz.e0
  have n3 := hz.need3
  have hs : |weight p.graph e + (pi e.inf + pi e.sup)| ≤ z.W + 2 * z.P c.maxV N := by
    have := abs_add_le (weight p.graph e) (pi e.inf + pi e.sup)
    rw [abs_of_nonneg hw0] at this
    linarith
  have hr := reweigh_near ht.near (w := weight p.graph e) (s := pi e.inf + pi e.sup) (by linarith [ht.W0]) (by linarith)
  refine ⟨hr, ?_⟩
  have := abs_add_le (piWeight (weight p.graph) pi e - (weight p.graph e + (pi e.inf + pi e.sup))) (weight p.graph e + (pi e.inf + pi e.sup))
  rw [sub_add_cancel] at this
  have hr' : |piWeight (weight p.graph) pi e - (weight p.graph e + (pi e.inf + pi e.sup))| ≤ 2 * z.ε := hr
  linarith

omit [Rounding] in
theorem tour_in_graph (h : Instance c p) {t : List Nat} (ht : IsTour c.maxV t) : tourEdges t ⊆ edgeSet p.graph := by
  intro e he
  have hs := ht.set h.three
  induction e using Sym2.ind with
  | _ u v =>
    have := hs.within u v he
    refine h.complete u (Finset.mem_range.1 this.1) v (Finset.mem_range.1 this.2) ?_
    rintro rfl; exact hs.loopless u he

omit [Rounding] in
theorem tourEdges_card (h3 : 3 ≤ c.maxV) {t : List Nat} (ht : IsTour c.maxV t) : (tourEdges t).card = c.maxV := by
  have hne : t ≠ [] := by rintro rfl; have := ht.length; simp at this; omega
  obtain ⟨a, q, rfl⟩ := List.exists_cons_of_ne_nil hne
  have hl := ht.length
  unfold tourEdges
  rw [List.toFinset_card_of_nodup (steps_nodup ht.nodup (by simp at hl; omega))]
  rw [← hl]; simp [steps]

/-- the length of a tour in the weights of an iteration -/
theorem Tame.tour_near (h : Instance c p) (heps : 0 ≤ c.eps) {z : Scale} {N : Nat} (ht : Tame z c p cur N) {pi : Nat → ℚ} (hpi : ∀ j < c.maxV, |pi j| ≤ z.P c.maxV N) {t : List Nat} (hT : IsTour c.maxV t) :
    |tourCost (piWeight (weight p.graph) pi) t - (tourCost (weight p.graph) t + 2 * ∑ i ∈ Finset.range c.maxV, pi i)| ≤ 2 * (c.maxV * z.ε) := by
  rw [hT.cost h.three, hT.cost h.three, ← total_ends (hT.set h.three) pi]
  unfold total
  rw [← Finset.sum_add_distrib, ← Finset.sum_sub_distrib]
  refine (Finset.abs_sum_le_sum_abs _ _).trans ?_
  have := Finset.sum_le_card_nsmul (tourEdges t) (fun e => |piWeight (weight p.graph) pi e - (weight p.graph e + (pi e.inf + pi e.sup))|) (2 * z.ε)
    (fun e he => (ht.weight_near h heps hpi e (tour_in_graph h hT he)).1)
  rw [tourEdges_card h.three hT, nsmul_eq_mul] at this
  linarith

/-- the sum of the weights of `n` edges as the machine adds them -/
theorem Tame.sum_near (h : Instance c p) (heps : 0 ≤ c.eps) {z : Scale} {N : Nat} (ht : Tame z c p cur N) (l : List ℚ) (hl : l.length = c.maxV) (hB : ∀ x ∈ l, |x| ≤ z.W + 2 * z.P c.maxV N + 2 * z.ε) :
    |flSum l - l.sum| ≤ c.maxV * z.ε := by
  have hz := ht.sizes h heps
  have := (ht.near.sum l hB (by
    refine le_trans ?_ hz.sum
    rw [hl]
    have n1 := hz.ne1
    have n2 := hz.e_ne
    refine mul_le_mul_of_nonneg_left ?_ (by linarith [hz.n3])
    linarith) (by have := ht.W0; have := hz.P0; have := hz.e0; linarith)).1
  rwa [hl] at this

/-- the same for the weights of the graph -/
theorem Tame.addsUp (h : Instance c p) (heps : 0 ≤ c.eps) {z : Scale} {N : Nat} (ht : Tame z c p cur N) {S : EdgeSet} (hS : S ⊆ edgeSet p.graph) (hc : S.card = c.maxV) {x : ℚ} (hx : AddsUp (weight p.graph) S x) :
    |x - total (weight p.graph) S| ≤ c.maxV * z.ε := by
  have hz := ht.sizes h heps
  obtain ⟨l, hl, rfl, rfl⟩ := hx
  have e : total (weight p.graph) l.toFinset = (l.map (weight p.graph)).sum := by
    unfold total; rw [List.sum_toFinset _ hl]
  rw [e]
  refine ht.sum_near h heps _ ?_ ?_
  · rw [List.length_map, ← List.toFinset_card_of_nodup hl, hc]
  · intro y hy
    obtain ⟨a, ha, rfl⟩ := List.mem_map.1 hy
    have hm := hS (by simpa using ha)
    rw [abs_of_nonneg (h.nonneg a hm)]
    have := (ht.weights a hm).1
    have := hz.P0
    have := hz.e0
    linarith

/-- the edges of a 1-tree -/
theorem Analysed.addsUp {a : SubProblem} {L : List Edge} (h : Analysed c p cur a L) : AddsUp (weight p.graph) (pairs L) a.value := by
  refine ⟨L.map epair, SimpleList.nodup h.simple, rfl, ?_⟩
  rw [h.value, List.map_map]
  rfl

theorem Analysed.in_graph {a : SubProblem} {L : List Edge} (h : Analysed c p cur a L) : pairs L ⊆ edgeSet p.graph := h.one.sub.trans Finset.sdiff_subset

theorem Analysed.card {a : SubProblem} {L : List Edge} (h : Analysed c p cur a L) : (pairs L).card = c.maxV := by rw [SimpleList.card h.simple, h.len]

theorem Tame.bounds (h : Instance c p) (heps : 0 ≤ c.eps) (hb : Bookkeeping c.maxV cur) {z : Scale} {N iter : Nat} (ht : Tame z c p cur N) (hi : iter - 1 ≤ N) {s : BState} {t : List Nat}
    (hn : NumInv z c p N iter s t) :
    (∀ e ∈ consSet c.maxV cur.cons .mandatory, -(c.maxV : ℚ) ≤ piWeight (weight p.graph) s.pi e) ∧
    (∀ e ∈ edgeSet p.graph, piWeight (weight p.graph) s.pi e < FLT_MAX) := by
  have hz := ht.sizes h heps
  have hw := ht.weight_near h heps (hn.abs_pi hz ht.three hi)
  have hS := stepSum_le ht.three hi
  have n3 := hz.n3
  have i1 : ((iter - 1 : Nat) : ℚ) ≤ N := by exact_mod_cast hi
  have a1 := mul_le_mul_of_nonneg_right i1 hz.d0
  constructor
  · intro e he
    rcases ht.low with h' | h'
    · rw [h'] at he; simp at he
    have heE : e ∈ edgeSet p.graph := by
      have := (h.cready hb).mand_sub he; exact this
    have h1 := abs_le.1 (hw e heE).1
    have h4 := h.nonneg _ heE
    have a2 := mul_le_mul_of_nonneg_left hS hz.T0
    have key : ∀ j < c.maxV, -(z.T c.maxV * ((N : ℚ) / 2)) - N * z.drift c.maxV N ≤ s.pi j := fun j hj => by
      have := hn.low j hj; linarith
    induction e using Sym2.ind with
    | _ u v =>
      obtain ⟨hu, hv, huv, -⟩ := (mem_consSet hb.sym).1 he
      have k1 : -(z.T c.maxV * ((N : ℚ) / 2)) - N * z.drift c.maxV N ≤ s.pi s(u, v).inf := key _ (by rw [Sym2.inf_mk]; exact lt_of_le_of_lt inf_le_left hu)
      have k2 : -(z.T c.maxV * ((N : ℚ) / 2)) - N * z.drift c.maxV N ≤ s.pi s(u, v).sup := key _ (by rw [Sym2.sup_mk]; exact sup_lt_iff.2 ⟨hu, hv⟩)
      linarith
  · intro e he
    have hh := ht.high e he
    have h1 := abs_le.1 (hw e he).1
    have a2 := mul_le_mul_of_nonneg_left hS (mul_nonneg (by linarith : (0 : ℚ) ≤ c.maxV) hz.T0)
    have key : ∀ j < c.maxV, s.pi j ≤ c.maxV * z.T c.maxV * ((N : ℚ) / 2) + N * z.drift c.maxV N := fun j hj => by
      have := hn.high j hj; linarith
    have hwi := h.stored.within
    induction e using Sym2.ind with
    | _ u v =>
      have huv := hwi u v he
      rw [h.nodes, Finset.mem_range, Finset.mem_range] at huv
      have k1 : s.pi s(u, v).inf ≤ _ := key _ (by rw [Sym2.inf_mk]; exact lt_of_le_of_lt inf_le_left huv.1)
      have k2 : s.pi s(u, v).sup ≤ _ := key _ (by rw [Sym2.sup_mk]; exact sup_lt_iff.2 ⟨huv.1, huv.2⟩)
      linarith

omit [Rounding] in
theorem tourCost_nonneg (h : Instance c p) {t : List Nat} (ht : IsTour c.maxV t) : 0 ≤ tourCost (weight p.graph) t := by
  rw [ht.cost h.three]
  exact Finset.sum_nonneg fun e he => h.nonneg e (tour_in_graph h ht he)

/-- the lower bound of an iteration -/
theorem Kept.lb (h : Instance c p) (heps : 0 ≤ c.eps) (hb : Bookkeeping c.maxV cur) {z : Scale} {N iter : Nat} (ht : Tame z c p cur N) (hi : iter - 1 ≤ N) {s : BState} {a : SubProblem} {L : List Edge}
    {t : List Nat} (hk : Kept c p cur s.pi a L) (hn : NumInv z c p N iter s t) (hbt : Better (z.slack c.maxV) c p cur t) :
    fl (a.oneTree.cost - fl (2 * s.totalPi)) ≤ tourCost (weight p.graph) t + (5 * (c.maxV : ℚ) + 2) * z.ε := by
  have hz := ht.sizes h heps
  have hpi := hn.abs_pi hz ht.three hi
  have h1 := hk.bound (ht.bounds h heps hb hi hn).1 t hbt.1
  have h2 := abs_le.1 (ht.tour_near h heps hpi hbt.1.1)
  have h3 := abs_le.1 (ht.sum_near h heps (L.map fun e => piWeight (weight p.graph) s.pi (epair e)) (by rw [List.length_map, hk.len]) (by
    intro x hx
    obtain ⟨e, he, rfl⟩ := List.mem_map.1 hx
    exact (ht.weight_near h heps hpi _ (hk.in_graph (mem_pairs.2 ⟨e, he, rfl⟩))).2))
  rw [← hk.cost, ← total_pairs hk.simple] at h3
  have h4 := abs_le.1 hn.tot
  have hSum : |∑ i ∈ Finset.range c.maxV, s.pi i| ≤ c.maxV * z.P c.maxV N := by
    refine (Finset.abs_sum_le_sum_abs _ _).trans ?_
    have := Finset.sum_le_card_nsmul (Finset.range c.maxV) (fun i => |s.pi i|) _ (fun i hi => hpi i (Finset.mem_range.1 hi))
    rwa [Finset.card_range, nsmul_eq_mul] at this
  have h5 := abs_le.1 hSum
  have hnn := hz.need
  have ne1 := hz.ne1
  have ne0 := hz.ne0
  have e0 := hz.e0
  have ene := hz.e_ne
  have U0 := ht.U0
  have n3 := hz.n3
  have h6 := abs_le.1 (ht.near.err (2 * s.totalPi) (by rw [abs_le]; constructor <;> linarith))
  have h7 := tourCost_nonneg h hbt.1.1
  have h8 := hbt.2
  have h9 := ht.best
  have hsl : 0 ≤ z.slack c.maxV := by unfold Scale.slack; positivity
  have h10 := ht.near.le (x := a.oneTree.cost - fl (2 * s.totalPi)) (y := tourCost (weight p.graph) t + (5 * (c.maxV * z.ε) + z.ε)) (by linarith) (by
    rw [abs_of_nonneg (by linarith)]
    linarith [mul_nonneg (by linarith : (0:ℚ) ≤ c.maxV) hz.P0])
  linarith

/-- the update of the dual variables keeps the numeric invariant -/
theorem NumInv.step (h : Instance c p) (heps : 0 ≤ c.eps) {z : Scale} {N iter : Nat} (ht : Tame z c p cur N) (h1 : 1 ≤ iter) (h2 : iter ≤ N) {s : BState} {a : SubProblem} {L : List Edge}
    {t : List Nat} (hk : Analysed c p cur a L) (hn : NumInv z c p N iter s t) (hbt : Better (z.slack c.maxV) c p cur t)
    (hlb : fl (a.oneTree.cost - fl (2 * s.totalPi)) ≤ tourCost (weight p.graph) t + (5 * (c.maxV : ℚ) + 2) * z.ε)
    (hf : s.first = true → 0 ≤ fl (a.oneTree.cost - fl (2 * s.totalPi))) (ht0 : s.first = false → s.t0 = fl (s.bestLB / (2 * (c.maxV : ℚ))))
    {p1 : Problem} (hp1 : p1.graph = p.graph) (sc : Nat → ℚ) :
    NumInv z c p N (iter + 1) (dualUpdate c N iter s a p1 sc) t := by
  have hz := ht.sizes h heps
  have n3 := hz.n3
  have n0 : (0 : ℚ) < c.maxV := by linarith
  have hN := ht.three
  have e0 := hz.e0
  set lb := fl (a.oneTree.cost - fl (2 * s.totalPi)) with hlbd
  set better := decide (lb > s.bestLB) || s.first with hbd
  set bestLB := if better then lb else s.bestLB with hbl
  set t0 := if better then fl (bestLB / (2 * (c.maxV : ℚ))) else s.t0 with ht0d
  have q0 : 0 ≤ bestLB := by
    rw [hbl]; split
    · next hb =>
      rw [hbd, Bool.or_eq_true] at hb
      rcases hb with hb | hb
      · have := of_decide_eq_true hb; have := hn.lb0; linarith
      · exact hf hb
    · exact hn.lb0
  have q1 : bestLB ≤ tourCost (weight p.graph) t + (5 * (c.maxV : ℚ) + 2) * z.ε := by
    rw [hbl]; split
    · exact hlb
    · exact hn.lb
  have qt : t0 = fl (bestLB / (2 * (c.maxV : ℚ))) := by
    rw [ht0d]; split
    · rfl
    · next hb =>
      have hff : s.first = false := by
        rw [hbd, Bool.or_eq_true, not_or] at hb; simpa using hb.2
      rw [ht0 hff, hbl, if_neg hb]
  have t00 : 0 ≤ t0 := by rw [qt]; exact fl_nonneg (by positivity)
  have t0T : t0 ≤ z.T c.maxV := by
    rw [qt]
    refine fl_mono (div_le_div_of_nonneg_right ?_ (by linarith))
    have h8 := hbt.2
    have h9 := ht.best
    unfold Scale.slack at h8
    linarith
  have hsig := stepLen_near ht.near ht.ints hN h1 h2 t00 t0T hz.step hz.need1
  obtain ⟨s0, s1⟩ := idealStep_bounds hN h1 h2 t00
  set st := stepLen N iter t0 with hst
  set ideal := idealStep N iter t0 with hid
  set T := z.T c.maxV with hT
  have T0 := hz.T0
  rw [← hT] at T0
  set rel := 1 - ((iter : ℚ) - 1) / ((N : ℚ) - 1) with hreld
  have hrel : 0 ≤ rel ∧ rel ≤ 1 := by
    have hi1 : (1 : ℚ) ≤ iter := by exact_mod_cast h1
    have hi2 : (iter : ℚ) ≤ N := by exact_mod_cast h2
    have : (3 : ℚ) ≤ N := by exact_mod_cast hN
    have a1 : ((iter : ℚ) - 1) / ((N : ℚ) - 1) ≤ 1 := by rw [div_le_one (by linarith)]; linarith
    have a0 : 0 ≤ ((iter : ℚ) - 1) / ((N : ℚ) - 1) := div_nonneg (by linarith) (by linarith)
    constructor <;> linarith
  have sT : ideal ≤ T * rel := s1.trans (mul_le_mul_of_nonneg_right t0T hrel.1)
  have sT1 : T * rel ≤ T := mul_le_of_le_one_right T0 hrel.2
  set σ := ((N : ℚ) + 6) * (T + 1) * z.ε with hσ
  have hsg := abs_le.1 hsig
  have σ0 : 0 ≤ σ := by rw [hσ]; have := hz.N3; positivity
  have σ1 : σ ≤ 1 := hz.step
  have hsum : stepSum N iter = stepSum N (iter - 1) + rel := by
    have := stepSum_succ (m := iter - 1) hN
    rw [show iter - 1 + 1 = iter by omega] at this
    rw [this]; push_cast [Nat.cast_sub h1]; rfl
  set v : Nat → ℚ := fun i => if i < p1.graph.numNodes then (((a.oneTree.nodes i).nn : ℚ) - 2) else s.v i with hv
  have vb : ∀ j < c.maxV, -1 ≤ v j ∧ v j ≤ c.maxV := by
    intro j hj
    have hd := hk.degree h.three h.cand hj
    have d1 : (1 : ℚ) ≤ ((a.oneTree.nodes j).nn : ℚ) := by exact_mod_cast hd.1
    have d2 : ((a.oneTree.nodes j).nn : ℚ) ≤ c.maxV := by exact_mod_cast hd.2
    simp only [hv]
    rw [if_pos (by rw [hp1, h.nodes]; exact hj)]
    constructor <;> linarith
  obtain ⟨d1, d2, d3⟩ := dualLoop_ok v st s.pi s.vOld p1.graph.numNodes
  have hpi : (dualUpdate c N iter s a p1 sc).pi = ((List.range p1.graph.numNodes).foldl (dualStep v st) (s.pi, s.vOld, 0)).1 := rfl
  have hvo : (dualUpdate c N iter s a p1 sc).vOld = ((List.range p1.graph.numNodes).foldl (dualStep v st) (s.pi, s.vOld, 0)).2.1 := rfl
  have hto : (dualUpdate c N iter s a p1 sc).totalPi = ((List.range p1.graph.numNodes).foldl (dualStep v st) (s.pi, s.vOld, 0)).2.2 := rfl
  rw [hp1, h.nodes] at d1 d2 d3 hpi hvo hto
  have hP := hn.abs_pi hz hN (by omega)
  have hdr : z.drift c.maxV N = c.maxV * σ + (8 * (c.maxV * (T * z.ε)) + 8 * (c.maxV * z.ε)) := by
    unfold Scale.drift; rw [hσ, ← hT]; ring
  have nTe : 0 ≤ c.maxV * (T * z.ε) := by positivity
  have ene := hz.e_ne
  have ne0 := hz.ne0
  -- one variable
  have inc : ∀ j < c.maxV, -(T * rel) - z.drift c.maxV N ≤ move st (s.pi j) (v j) (s.vOld j) - s.pi j ∧ move st (s.pi j) (v j) (s.vOld j) - s.pi j ≤ c.maxV * T * rel + z.drift c.maxV N := by
    intro j hj
    obtain ⟨a1, a2⟩ := vb j hj
    obtain ⟨b1, b2⟩ := hn.vold j hj
    have hm := abs_le.1 (move_near ht.near (t := st) (x := s.pi j) (v := v j) (vo := s.vOld j) (T := T) (P := z.P c.maxV N) (n := c.maxV)
      (by rw [abs_le]; constructor <;> linarith) T0 (hP j hj) (by linarith) (by rw [abs_le]; constructor <;> linarith) (by rw [abs_le]; constructor <;> linarith) hz.move hz.need2)
    have hme : 2 * (c.maxV : ℚ) * (T + 2) * z.ε + 4 * z.ε ≤ 8 * (c.maxV * (T * z.ε)) + 8 * (c.maxV * z.ε) := by
      linarith [show 2 * (c.maxV : ℚ) * (T + 2) * z.ε = 2 * (c.maxV * (T * z.ε)) + 4 * (c.maxV * z.ε) by ring]
    set x := 3 / 5 * v j + 2 / 5 * s.vOld j with hx
    have x1 : -1 ≤ x := by linarith
    have x2 : x ≤ c.maxV := by linarith
    have hxe : 3 / 5 * st * v j + 2 / 5 * st * s.vOld j = st * x := by rw [hx]; ring
    rw [hxe] at hm
    -- `st` is the ideal step up to `σ`
    have y1 : -ideal ≤ ideal * x := by have := mul_le_mul_of_nonneg_left x1 s0; linarith
    have y2 : ideal * x ≤ c.maxV * (T * rel) := by
      have := mul_le_mul_of_nonneg_left x2 s0
      have := mul_le_mul_of_nonneg_left sT n0.le
      linarith
    have y3 : |(st - ideal) * x| ≤ c.maxV * σ := by
      rw [abs_mul]
      have : |x| ≤ c.maxV := by rw [abs_le]; constructor <;> linarith
      have := mul_le_mul hsig this (abs_nonneg _) σ0
      linarith
    have y4 := abs_le.1 y3
    have y5 : st * x = ideal * x + (st - ideal) * x := by ring
    rw [y5] at hm
    constructor
    · linarith
    · linarith
  have hd0 := hz.d0
  have hTr : 0 ≤ T * rel := mul_nonneg T0 hrel.1
  have hnTr : 0 ≤ c.maxV * T * rel := by rw [mul_assoc]; exact mul_nonneg n0.le hTr
  have hit : ((iter + 1 - 1 : Nat) : ℚ) * z.drift c.maxV N = ((iter - 1 : Nat) : ℚ) * z.drift c.maxV N + z.drift c.maxV N := by
    rw [Nat.add_sub_cancel]
    have : (iter : ℚ) = ((iter - 1 : Nat) : ℚ) + 1 := by push_cast [Nat.cast_sub h1]; ring
    rw [this]; ring
  have low' : ∀ j < c.maxV, -(T * stepSum N (iter + 1 - 1)) - ((iter + 1 - 1 : Nat) : ℚ) * z.drift c.maxV N ≤ (dualUpdate c N iter s a p1 sc).pi j := by
    intro j hj
    rw [hpi, d1, hit, Nat.add_sub_cancel, hsum]
    have hl := hn.low j hj
    have := inc j hj
    split <;> linarith
  have high' : ∀ j < c.maxV, (dualUpdate c N iter s a p1 sc).pi j ≤ c.maxV * T * stepSum N (iter + 1 - 1) + ((iter + 1 - 1 : Nat) : ℚ) * z.drift c.maxV N := by
    intro j hj
    rw [hpi, d1, hit, Nat.add_sub_cancel, hsum]
    have hl := hn.high j hj
    have := inc j hj
    split <;> linarith
  have vold' : ∀ j < c.maxV, -1 ≤ (dualUpdate c N iter s a p1 sc).vOld j ∧ (dualUpdate c N iter s a p1 sc).vOld j ≤ c.maxV := by
    intro j hj
    rw [hvo, d2, if_pos hj]
    exact vb j hj
  have first : ∀ x, NumInv z c p N (iter + 1) { dualUpdate c N iter s a p1 sc with totalPi := x } t ↔ |x - ∑ i ∈ Finset.range c.maxV, (dualUpdate c N iter s a p1 sc).pi i| ≤ c.maxV * z.ε :=
    fun x => ⟨fun h => h.tot, fun h => ⟨q0, q1, low', high', vold', h⟩⟩
  refine (first (dualUpdate c N iter s a p1 sc).totalPi).2 ?_
  have hP' := ((first (∑ i ∈ Finset.range c.maxV, (dualUpdate c N iter s a p1 sc).pi i)).2 (by rw [sub_self, abs_zero]; exact ne0)).abs_pi hz hN (by omega)
  have hsumN := ht.sum_near h heps ((List.range c.maxV).map (dualUpdate c N iter s a p1 sc).pi) (by simp) (by
    intro x hx
    obtain ⟨j, hj, rfl⟩ := List.mem_map.1 hx
    have := hP' j (List.mem_range.1 hj)
    have hp0 := hz.P0
    have hw0 := ht.W0
    simp only at this
    linarith)
  rw [hto, d3, ← hpi]
  rw [show ∑ i ∈ Finset.range c.maxV, (dualUpdate c N iter s a p1 sc).pi i = ((List.range c.maxV).map (dualUpdate c N iter s a p1 sc).pi).sum by
    rw [Finset.sum_eq_multiset_sum]; rfl]
  exact hsumN

structure BInv (c : Cfg) (p : Problem) (cur : SubProblem) (N iter : Nat) (s : BState) : Prop where
  prob : s.prob = { p with explored := p.explored + 1, reform := s.prob.reform }
  start : iter = 1 → s.first = true ∧ s.gen = [] ∧ (∀ i, s.pi i = 0) ∧ s.totalPi = 0
  later : iter ≠ 1 → s.first = false ∧ s.prob.reform = p.graph ∧ s.t0 = fl (s.bestLB / (2 * (c.maxV : ℚ))) ∧
    ∃ a rest L loc sp1 sp2, s.gen = a :: rest ∧ Kept c p cur (fun _ => 0) a L ∧
      constrainedPrim c p.graph.numNodes p.graph cur p.cand loc = .ok sp1 ∧ sp1.oneTree.isValid = true ∧
      mstToOneTree c p.graph sp1 p.cand = .ok (.opened, sp2) ∧ a.oneTree = sp2.oneTree
  gens : ∀ a ∈ s.gen, ∃ L, Analysed c p cur a L
  score : ∀ j, 0 ≤ s.score j ∧ s.score j ≤ ((iter - 1 - (N - 10) : Nat) : ℚ) / 8
  num : ∀ z, Tame z c p cur N → ∀ t, Better (z.slack c.maxV) c p cur t → NumInv z c p N iter s t

theorem fl_eighth (m : Nat) (h : m ≤ 1000) : fl ((m : ℚ) / 8) = (m : ℚ) / 8 := by
  have := Rounding.exact (m : ℤ) (-3) (by rw [abs_of_nonneg (by positivity)]; norm_num; omega) (by norm_num)
  have e : ((m : ℤ) : ℚ) * 2 ^ (-3 : ℤ) = (m : ℚ) / 8 := by norm_num; ring
  rwa [e] at this

/-- at most ten counts stay far below two -/
theorem bump_le {x : ℚ} {k : Nat} (hk : k ≤ 10) (h0 : 0 ≤ x) (h1 : x ≤ (k : ℚ) / 8) : 0 ≤ bump x ∧ bump x ≤ ((k + 1 : Nat) : ℚ) / 8 := by
  unfold bump
  have a0 := fl_nonneg (x := x * 10) (by linarith)
  have a1 : fl (x * 10) ≤ ((10 * k : Nat) : ℚ) / 8 := by
    rw [← fl_eighth _ (by omega)]
    refine fl_mono ?_
    push_cast; linarith
  have b0 := fl_nonneg (x := fl (x * 10) + 1) (by linarith)
  have b1 : fl (fl (x * 10) + 1) ≤ ((10 * k + 8 : Nat) : ℚ) / 8 := by
    rw [← fl_eighth _ (by omega)]
    refine fl_mono ?_
    push_cast at a1 ⊢; linarith
  refine ⟨fl_nonneg (by linarith), ?_⟩
  rw [← fl_eighth _ (by omega)]
  refine fl_mono ?_
  push_cast at b1 ⊢
  linarith

/-- at zero dual variables the bound is unconditional -/
theorem Kept.zero (h : Instance c p) (hb : Bookkeeping c.maxV cur) {pi : Nat → ℚ} (h0 : ∀ i, pi i = 0) {a : SubProblem} {L : List Edge} (hk : Kept c p cur pi a L) :
    a.oneTree.cost = a.value ∧ 0 ≤ a.value ∧ (∀ t, AllowedBy c.maxV cur.cons t → total (weight p.graph) (pairs L) ≤ tourCost (weight p.graph) t) := by
  have hw : ∀ e, piWeight (weight p.graph) pi e = weight p.graph e := by
    intro e; unfold piWeight reweigh; rw [h0, h0, add_zero, fl_zero, if_neg (by simp)]
  have e1 : a.oneTree.cost = a.value := by
    rw [hk.cost, hk.value]; simp only [hw]
  refine ⟨e1, ?_, ?_⟩
  · rw [hk.value]
    refine flSum_nonneg fun x hx => ?_
    obtain ⟨e, he, rfl⟩ := List.mem_map.1 hx
    exact h.nonneg _ (Finset.mem_sdiff.1 (hk.one.sub (mem_pairs.2 ⟨e, he, rfl⟩))).1
  · intro t ht
    have := hk.bound (by
      intro e he
      rw [hw]
      have h2 := h.nonneg e ((h.cready hb).mand_sub he)
      have : (0 : ℚ) ≤ c.maxV := by positivity
      linarith) t ht
    rw [ht.1.cost h.three] at this ⊢
    unfold total at this ⊢
    simp only [hw] at this
    exact this

theorem Analysed.nonneg (h : Instance c p) {a : SubProblem} {L : List Edge} (hk : Analysed c p cur a L) : 0 ≤ a.value := by
  rw [hk.value]
  refine flSum_nonneg fun x hx => ?_
  obtain ⟨e, he, rfl⟩ := List.mem_map.1 hx
  exact h.nonneg _ (hk.in_graph (mem_pairs.2 ⟨e, he, rfl⟩))

/-- the test for closing a subproblem, up to the error of one operation -/
theorem Tame.closed (h : Instance c p) (heps : 0 ≤ c.eps) {z : Scale} {N : Nat} (ht : Tame z c p cur N) {x : ℚ} (hx : fl x ≤ c.eps) : x ≤ c.eps + z.ε := by
  have hz := ht.sizes h heps
  refine ht.near.of_le hx heps ?_
  have h1 := hz.need
  have h2 := ht.U0
  have h3 := mul_nonneg (by linarith [hz.n3] : (0 : ℚ) ≤ c.maxV) hz.P0
  have := hz.ne1
  have := hz.e_ne
  have := hz.e0
  linarith

/-- how the loop of `bound` can end early -/
def Closes (c : Cfg) (p : Problem) (cur : SubProblem) (N : Nat) (p' : Problem) (ty : BBType) : Prop :=
  ty ≠ .opened ∧ (∀ z, Tame z c p cur N → ∀ t, AllowedBy c.maxV cur.cons t → p'.bestValue - c.eps - z.slack c.maxV ≤ tourCost (weight p.graph) t) ∧
  ∃ g, p' = { p with explored := p.explored + 1, reform := g } ∨
    ∃ a t, Solution c.maxV (weight p.graph) a t ∧ c.eps < fl (p.bestValue - a.value) ∧
      p' = { p with explored := p.explored + 1, reform := g, bestValue := a.value, best := a }

theorem boundIter_inv (h : Instance c p) (hb : Bookkeeping c.maxV cur) (heps : 0 ≤ c.eps) {N iter : Nat} (hN : 3 ≤ N) (h1 : 1 ≤ iter) (h2 : iter ≤ N)
    {s : BState} {loc : PState} {r : BState ⊕ (Problem × BBType)} (hi : BInv c p cur N iter s) (e : boundIter c cur loc N iter s = .ok r) :
    (∃ s', r = .inl s' ∧ BInv c p cur N (iter + 1) s') ∨ ∃ p' ty, r = .inr (p', ty) ∧ Closes c p cur N p' ty := by
  have hg : s.prob.graph = p.graph := by rw [hi.prob]
  have hc : s.prob.cand = p.cand := by rw [hi.prob]
  have hbv : s.prob.bestValue = p.bestValue := by rw [hi.prob]
  have hf : (s.first = true ∧ ∀ i, s.pi i = 0) ∨ (s.first = false ∧ s.prob.reform = p.graph) := by
    by_cases h' : iter = 1
    · exact Or.inl ⟨(hi.start h').1, (hi.start h').2.2.1⟩
    · exact Or.inr ⟨(hi.later h').1, (hi.later h').2.1⟩
  have hB : ∀ z, Tame z c p cur N → ∀ t, Better (z.slack c.maxV) c p cur t → (∀ e ∈ consSet c.maxV cur.cons .mandatory, -(c.maxV : ℚ) ≤ piWeight (weight p.graph) s.pi e) ∧
      (∀ e ∈ edgeSet p.graph, piWeight (weight p.graph) s.pi e < FLT_MAX) :=
    fun z htame t ht => htame.bounds h heps hb (by omega) (hi.num z htame t ht)
  have hslack : ∀ z, Tame z c p cur N → (c.maxV : ℚ) * z.ε + z.ε ≤ z.slack c.maxV ∧ 5 * (c.maxV * z.ε) + z.ε ≤ z.slack c.maxV ∧ 0 ≤ z.slack c.maxV := by
    intro z htame
    have hz := htame.sizes h heps
    have := hz.ne0
    have := hz.e0
    have e : z.slack c.maxV = 5 * (c.maxV * z.ε) + 6 * z.ε := by unfold Scale.slack; ring
    rw [e]
    refine ⟨?_, ?_, ?_⟩ <;> linarith
  obtain ⟨p1, ⟨g, hp1⟩, h'⟩ := boundIter_ok h hb hg hc hbv hf e
  rw [hi.prob] at hp1
  rcases h' with ⟨rfl, hno⟩ | ⟨a, L, hk, hit, rfl, hty⟩ | ⟨a, t, hsol, rfl, hty, hlt, -, hall⟩ | ⟨a, L, sc, hk, rfl, hsc, -, hrel⟩
  · refine Or.inr ⟨_, _, rfl, by simp, ?_, g, Or.inl hp1⟩
    intro z htame t ht
    rw [hp1]
    by_contra hcon
    push Not at hcon
    simp only at hcon
    exact hno (hB z htame t ⟨ht, by linarith⟩).2 t ht
  · refine Or.inr ⟨_, _, rfl, by simp, ?_, g, Or.inl hp1⟩
    intro z htame t ht
    obtain ⟨-, -, hz⟩ := hk.zero h hb (hi.start hit).2.2.1
    rw [hp1]
    rcases hk.kind with ⟨h', -⟩ | ⟨-, h'⟩
    · rw [h'] at hty; cases hty
    · have q1 := htame.closed h heps h'
      have q2 := hz t ht
      have q3 := abs_le.1 (htame.addsUp h heps hk.in_graph hk.card hk.addsUp)
      have q4 := (hslack z htame).1
      simp only; linarith
  · refine Or.inr ⟨_, _, rfl, ?_, ?_, g, Or.inr ⟨a, t, hsol, hlt, by rw [hp1]⟩⟩
    · rw [hty]; split <;> simp
    · intro z htame t' ht'
      simp only
      by_cases hbt : tourCost (weight p.graph) t' < p.bestValue - z.slack c.maxV
      · have hn := hi.num z htame t' ⟨ht', hbt⟩
        have hz := htame.sizes h heps
        have hpi := hn.abs_pi hz hN (by omega)
        have q1 := hall (hB z htame t' ⟨ht', hbt⟩).1 t' ht'
        have q2 := abs_le.1 (htame.tour_near h heps hpi hsol.tour)
        have q3 := abs_le.1 (htame.tour_near h heps hpi ht'.1)
        have q4 := abs_le.1 (htame.addsUp h heps (tour_in_graph h hsol.tour) (tourEdges_card h.three hsol.tour) hsol.value.sum)
        rw [← hsol.tour.cost h.three] at q4
        have q5 := (hslack z htame).2.1
        have := hz.e0
        linarith
      · have := pos_of_fl (lt_of_le_of_lt heps hlt)
        linarith
  · refine Or.inl ⟨_, rfl, ?_⟩
    have hp1g : p1.graph = p.graph := by rw [hp1]
    have hzero : s.first = true → ∀ i, s.pi i = 0 := by
      rcases hf with h' | h'
      · exact fun _ => h'.2
      · intro h''; rw [h'.1] at h''; cases h''
    have htot0 : s.first = true → s.totalPi = 0 := by
      intro h'
      by_cases hit : iter = 1
      · exact (hi.start hit).2.2.2
      · rw [(hi.later hit).1] at h'; cases h'
    have ht0 : s.first = false → s.t0 = fl (s.bestLB / (2 * (c.maxV : ℚ))) := by
      intro h'
      by_cases hit : iter = 1
      · rw [(hi.start hit).1] at h'; cases h'
      · exact (hi.later hit).2.2.1
    have hnum : ∀ z, Tame z c p cur N → ∀ t, Better (z.slack c.maxV) c p cur t → NumInv z c p N (iter + 1) (dualUpdate c N iter s a p1 sc) t := by
      intro z htame t ht
      have hn := hi.num z htame t ht
      refine NumInv.step h heps htame h1 h2 hk.toAnalysed hn ht (hk.lb h heps hb htame (by omega) hn ht) ?_ ht0 hp1g sc
      intro h'
      obtain ⟨z1, z2, -⟩ := hk.zero h hb (hzero h')
      rw [z1, htot0 h', mul_zero, fl_zero, sub_zero]
      exact fl_nonneg z2
    refine ⟨?_, by omega, ?_, ?_, ?_, hnum⟩
    · show ({ p1 with reform := p1.graph } : Problem) = _
      rw [hp1]; rfl
    · intro _
      refine ⟨rfl, by show p1.graph = _; exact hp1g, ?_, ?_⟩
      · show (if _ then _ else s.t0) = fl ((if _ then _ else _) / _)
        split
        · rfl
        · next hb' =>
          refine ht0 ?_
          rw [Bool.or_eq_true, not_or] at hb'
          simpa using hb'.2
      · show ∃ a' rest L loc sp1 sp2, s.gen ++ [a] = a' :: rest ∧ _
        by_cases hit : iter = 1
        · obtain ⟨sp1, sp2, q1, q2, q3, q4⟩ := hrel (hi.start hit).1
          have hpi0 : s.pi = fun _ => 0 := funext (hi.start hit).2.2.1
          rw [(hi.start hit).2.1]
          rw [hpi0] at hk
          exact ⟨a, [], L, loc, sp1, sp2, rfl, hk, q1, q2, q3, q4⟩
        · obtain ⟨-, -, -, a', rest, L', loc', sp1, sp2, q0, q⟩ := hi.later hit
          rw [q0]
          exact ⟨a', rest ++ [a], L', loc', sp1, sp2, rfl, q⟩
    · intro x hx
      have hx' : x ∈ s.gen ++ [a] := hx
      rcases List.mem_append.1 hx' with h' | h'
      · exact hi.gens x h'
      · rw [List.mem_singleton] at h'; subst h'; exact ⟨L, hk.toAnalysed⟩
    · intro j
      show 0 ≤ sc j ∧ sc j ≤ _
      obtain ⟨k1, k2⟩ := hi.score j
      rcases hsc j with h' | ⟨h', h''⟩
      · rw [h']
        refine ⟨k1, k2.trans (div_le_div_of_nonneg_right ?_ (by norm_num))⟩
        exact_mod_cast (by omega : iter - 1 - (N - 10) ≤ iter + 1 - 1 - (N - 10))
      · rw [h'']
        rw [show iter + 1 - 1 - (N - 10) = (iter - 1 - (N - 10)) + 1 by omega]
        exact bump_le (by omega) k1 k2

theorem boundLoop_inv (h : Instance c p) (hb : Bookkeeping c.maxV cur) (heps : 0 ≤ c.eps) {N : Nat} (hN : 3 ≤ N) (loc : Nat → PState) :
    ∀ (left iter : Nat) (s : BState) (r : BState ⊕ (Problem × BBType)), 1 ≤ iter → iter + left = N + 1 → BInv c p cur N iter s →
    boundLoop c cur loc N left iter s = .ok r →
    (∃ s', r = .inl s' ∧ BInv c p cur N (N + 1) s') ∨ ∃ p' ty, r = .inr (p', ty) ∧ Closes c p cur N p' ty := by
  intro left
  induction left with
  | zero =>
    intro iter s r h1 h2 hi e
    cases e
    exact Or.inl ⟨s, rfl, by rw [← h2]; exact hi⟩
  | succ left ih =>
    intro iter s r h1 h2 hi e
    rw [boundLoop] at e
    obtain ⟨x, e1, e2⟩ := bind_eq_ok.1 e
    rcases boundIter_inv h hb heps hN h1 (by omega) hi e1 with ⟨s', rfl, hs'⟩ | ⟨p', ty, rfl, hcl⟩
    · exact ih (iter + 1) s' r (by omega) (by omega) hs' e2
    · cases e2
      exact Or.inr ⟨p', ty, rfl, hcl⟩

end Verif
