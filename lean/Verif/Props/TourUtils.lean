import Verif.Proofs.TourUtils
import Verif.Proofs.Constrained

/-!
# C69, C70: lengths and matrices of tours in `graph_utils.py`
-/
namespace Verif
open Verif.Spec
set_option autoImplicit false

theorem steps_legs (t : List Nat) : steps t = (legs t).map fun p => s(p.1, p.2) := by
  unfold steps legs
  rw [List.zip, List.map_zipWith]

theorem mem_tourEdges_legs {t : List Nat} {a b : Nat} : s(a, b) ∈ tourEdges t ↔ (a, b) ∈ legs t ∨ (b, a) ∈ legs t := by
  rw [tourEdges, List.mem_toFinset, steps_legs, List.mem_map]
  constructor
  · rintro ⟨⟨i, j⟩, hp, he⟩
    rcases Sym2.eq_iff.1 he with ⟨rfl, rfl⟩ | ⟨rfl, rfl⟩
    · exact Or.inl hp
    · exact Or.inr hp
  · rintro (h | h)
    · exact ⟨_, h, rfl⟩
    · exact ⟨_, h, Sym2.eq_swap⟩

theorem tourCost_legs {w : Sym2 Nat → ℚ} {wv : Nat → Nat → ℚ} (h : ∀ i j, wv i j = w s(i, j)) (t : List Nat) : legCost wv t = tourCost w t := by
  rw [tourCost, steps_legs, legCost, List.map_map]
  congr 1
  exact List.map_congr_left fun p _ => h _ _

/-- **C69** (matrix of a tour). For a tour of two or more cities `tour_nodes_to_W` returns the adjacency matrix of its edges. -/
theorem C69_matrix {n : Nat} (hn : 2 ≤ n) {t : List Nat} (ht : IsTour n t) :
    ∃ W, tourToW t = .ok W ∧ ∀ a b, W a b = if s(a, b) ∈ tourEdges t then 1 else 0 := by
  refine ⟨_, tourToW_ok (by rw [ht.length]; exact hn) (fun i hi => by rw [ht.length]; exact ht.mem.1 hi), fun a b => ?_⟩
  simp only [mem_tourEdges_legs]

/-- **C69** (length of a tour). `tour_nodes_to_tour_len` is the length of the tour, for two or more cities and any distance matrix. -/
theorem C69_length {n : Nat} (hn : 2 ≤ n) {t : List Nat} (ht : IsTour n t) {w : Sym2 Nat → ℚ} {wv : Nat → Nat → ℚ} (h : ∀ i j, wv i j = w s(i, j)) :
    tourLen n t wv = .ok (tourCost w t) := by
  rw [tourLen_ok (by rw [ht.length]; exact hn) (fun i hi => ht.mem.1 hi), tourCost_legs h]

/-- **C69** (the two lengths agree). For three or more cities, `W_to_tour_len` of the matrix of a tour is the length of the tour as well. -/
theorem C69_agree {n : Nat} (hn : 3 ≤ n) {t : List Nat} (ht : IsTour n t) {w : Sym2 Nat → ℚ} {wv W : Nat → Nat → ℚ} (h : ∀ i j, wv i j = w s(i, j)) (hW : tourToW t = .ok W) :
    wTourLen n W wv = tourCost w t := by
  obtain ⟨W', hW', he⟩ := C69_matrix (by omega) ht
  rw [hW] at hW'
  cases hW'
  rw [wTourLen_eq, ← tourCost_legs h]
  have : ∀ p : Nat × Nat, (if W p.1 p.2 = 1 then wv p.1 p.2 else 0) = if (p.1, p.2) ∈ legs t ∨ (p.2, p.1) ∈ legs t then wv p.1 p.2 else 0 := by
    intro p
    rw [he]
    simp only [mem_tourEdges_legs]
    by_cases hp : (p.1, p.2) ∈ legs t ∨ (p.2, p.1) ∈ legs t <;> simp [hp]
  simp only [this]
  rw [sum_adjacency hn ht wv (fun i j => by rw [h, h, Sym2.eq_swap])]
  ring

/-- **C69** (two cities: the lengths differ). With two cities the matrix has one edge only, and `W_to_tour_len` is half of the length of the tour, which uses it twice. -/
theorem C69_fails_two {t : List Nat} (ht : IsTour 2 t) {w : Sym2 Nat → ℚ} {wv W : Nat → Nat → ℚ} (h : ∀ i j, wv i j = w s(i, j)) (hW : tourToW t = .ok W) :
    wTourLen 2 W wv = w s(0, 1) ∧ tourLen 2 t wv = .ok (2 * w s(0, 1)) := by
  have h2 : t = [0, 1] ∨ t = [1, 0] := by
    have hlen := ht.length
    have hnd := ht.nodup
    match t, hlen with
    | [a, b], _ =>
      have ha := ht.mem.1 (show a ∈ [a, b] by simp)
      have hb := ht.mem.1 (show b ∈ [a, b] by simp)
      have hne : a ≠ b := by simpa using hnd
      rcases (by omega : a = 0 ∧ b = 1 ∨ a = 1 ∧ b = 0) with ⟨rfl, rfl⟩ | ⟨rfl, rfl⟩ <;> simp
  obtain ⟨W', hW', he⟩ := C69_matrix le_rfl ht
  rw [hW] at hW'
  cases hW'
  have h10 : w s(1, 0) = w s(0, 1) := by rw [Sym2.eq_swap]
  have hedges : ∀ a < 2, ∀ b < 2, (s(a, b) ∈ tourEdges t ↔ a ≠ b) := by
    rcases h2 with rfl | rfl <;> decide
  refine ⟨?_, ?_⟩
  · have e00 := he 0 0
    have e01 := he 0 1
    have e10 := he 1 0
    have e11 := he 1 1
    rw [if_neg (by rw [hedges 0 (by omega) 0 (by omega)]; simp)] at e00
    rw [if_pos ((hedges 0 (by omega) 1 (by omega)).2 (by simp))] at e01
    rw [if_pos ((hedges 1 (by omega) 0 (by omega)).2 (by simp))] at e10
    rw [if_neg (by rw [hedges 1 (by omega) 1 (by omega)]; simp)] at e11
    simp [wTourLen, List.range_succ, e00, e01, e10, e11, h, h10]
  · rw [C69_length le_rfl ht h]
    rcases h2 with rfl | rfl
    · simp [tourCost, steps, h10, two_mul]
    · simp [tourCost, steps, h10, two_mul]

/-- **C69** (at most one city). Both functions fail for a tour with at most one city. -/
theorem C69_fails_one {t : List Nat} (h : t.length ≤ 1) (n : Nat) (wv : Nat → Nat → ℚ) : tourToW t = .error .uninit ∧ tourLen n t wv = .error .uninit := by
  have hc : consecutive t = [] := by rw [← List.length_eq_zero_iff, consecutive_length]; omega
  refine ⟨?_, ?_⟩
  · rw [tourToW, hc, lastNode_short h]; rfl
  · rw [tourLen, hc, lastNode_short h]; rfl

/-- **C69** (validity). `is_valid_tour` holds exactly for the tours of all the cities. -/
theorem C69_valid (t : List Nat) (n : Nat) : isValidTour t n = true ↔ IsTour n t := isValidTour_iff t n

/-! ### C70: the mean over a batch -/

/-- the walk that `mean_tour_len_nodes` measures: the tour, closed by a step to city 0 instead of the first city -/
def closedAtZero (wv : Nat → Nat → ℚ) (t : List Nat) : ℚ := legCost wv t - wv (t.getLastD 0) (t.headD 0) + wv (t.getLastD 0) 0

theorem meanStep_ok {n : Nat} (hn : 2 ≤ n) (s : ℚ × Option Nat) {b : List Nat × (Nat → Nat → ℚ)} (hb : IsTour n b.1) :
    ∃ j, meanStep n s b = .ok (s.1 + closedAtZero b.2 b.1, j) := by
  obtain ⟨t, wv⟩ := b
  have hlen : t.length = n := hb.length
  have h2 : 2 ≤ t.length := by omega
  have hlt : ∀ i ∈ t, i < n := fun i hi => hb.mem.1 hi
  have hl := legs_mem_lt hlt
  have hc : ∀ p ∈ consecutive t, p.1 < n ∧ p.2 < n := fun p hp => hl p (by rw [legs_consecutive h2]; simp [hp])
  have hj := lastNode_ok h2
  refine ⟨some (t[t.length - 1]), ?_⟩
  have hlast : t.getLastD 0 = t[t.length - 1] := by
    rw [List.getLastD_eq_getLast?, List.getLast?_eq_getElem?, List.getElem?_eq_getElem (by omega), Option.getD_some]
  unfold meanStep
  rw [forList_sum _ _ hc]
  simp only [ok_bind]
  have hgl : (consecutive t).getLast? = some ((consecutive t).getLast (by rw [← List.length_pos_iff, consecutive_length]; omega)) := List.getLast?_eq_getLast_of_ne_nil _
  have hj2 : ((consecutive t).getLast (by rw [← List.length_pos_iff, consecutive_length]; omega)).2 = t[t.length - 1] := by
    unfold lastNode at hj
    rw [hgl] at hj
    exact Except.ok.inj hj
  rw [hgl]
  simp only [hj2]
  have hlt1 : t[t.length - 1] < n := hlt _ (List.getElem_mem _)
  rw [readAt, if_pos ⟨hlt1, by omega⟩]
  simp only [ok_bind, pure_eq_ok]
  congr 2
  simp only [closedAtZero, hlast, legCost, legs_consecutive h2, List.map_append, List.sum_append, List.map_cons, List.map_nil, List.sum_cons, List.sum_nil]
  ring

theorem meanFold_ok {n : Nat} (hn : 2 ≤ n) : ∀ (batch : List (List Nat × (Nat → Nat → ℚ))) (s : ℚ × Option Nat), (∀ b ∈ batch, IsTour n b.1) →
    ∃ j, forList (meanStep n) batch s = .ok (s.1 + (batch.map fun b => closedAtZero b.2 b.1).sum, j)
  | [], s, _ => ⟨s.2, by simp [forList]⟩
  | b :: batch, s, h => by
    obtain ⟨j, e⟩ := meanStep_ok hn s (h b (by simp))
    obtain ⟨j', e'⟩ := meanFold_ok hn batch (s.1 + closedAtZero b.2 b.1, j) fun b' hb' => h b' (by simp [hb'])
    refine ⟨j', ?_⟩
    rw [forList, e, ok_bind, e']
    simp [add_assoc]

/-- **C70** (exact result). For every non-empty batch of tours, `mean_tour_len_nodes` is the mean of the lengths of the tours closed at city 0. -/
theorem C70_exact {n : Nat} (hn : 2 ≤ n) {batch : List (List Nat × (Nat → Nat → ℚ))} (hne : batch ≠ []) (h : ∀ b ∈ batch, IsTour n b.1) :
    meanTourLenNodes n batch = .ok ((batch.map fun b => legCost b.2 b.1 - b.2 (b.1.getLastD 0) (b.1.headD 0) + b.2 (b.1.getLastD 0) 0).sum / batch.length) := by
  obtain ⟨j, e⟩ := meanFold_ok hn batch (0, none) h
  unfold meanTourLenNodes
  rw [e]
  simp only [ok_bind]
  rw [if_neg (by rw [List.length_eq_zero_iff]; exact hne)]
  simp only [zero_add, pure_eq_ok]
  rfl

/-- **C70** (partial: tours that start in city 0, as beam search without random starts makes them). The result is the mean of the lengths of the tours.
Missing: tours that start elsewhere, for which it is false (`C70_fails`). -/
theorem C70_mean_partial {n : Nat} (hn : 2 ≤ n) {batch : List (List Nat × (Nat → Nat → ℚ))} (hne : batch ≠ []) (h : ∀ b ∈ batch, IsTour n b.1) (hstart : ∀ b ∈ batch, b.1.head? = some 0) :
    meanTourLenNodes n batch = .ok ((batch.map fun b => legCost b.2 b.1).sum / batch.length) := by
  rw [C70_exact hn hne h]
  congr 3
  refine List.map_congr_left fun b hb => ?_
  have : b.1.headD 0 = 0 := by rw [List.headD_eq_head?_getD, hstart b hb, Option.getD_some]
  rw [this]; ring

/-- **C70** fails for every tour of three or more cities that does not start in city 0: there are distances for which the result is not its length. -/
theorem C70_fails {n : Nat} (hn : 3 ≤ n) {t : List Nat} (ht : IsTour n t) (hstart : t.head? ≠ some 0) :
    ∃ w : Sym2 Nat → ℚ, (∀ e, 0 ≤ w e) ∧ tourCost w t = 1 ∧ meanTourLenNodes n [(t, fun i j => w s(i, j))] = .ok 0 := by
  have hlen := ht.length
  have hnd := ht.nodup
  have h2 : 2 ≤ t.length := by omega
  have hl1 : t.length - 1 < t.length := by omega
  have h0 : t.headD 0 = t[0] := by
    cases t with
    | nil => simp at hlen; omega
    | cons a t => rfl
  have hne0 : t[0] ≠ 0 := by
    intro e
    apply hstart
    rw [List.head?_eq_getElem?, List.getElem?_eq_getElem (by omega), e]
  have hlast : t.getLastD 0 = t[t.length - 1] := by
    rw [List.getLastD_eq_getLast?, List.getLast?_eq_getElem?, List.getElem?_eq_getElem (by omega), Option.getD_some]
  have hcons : ∀ p ∈ consecutive t, s(p.1, p.2) ≠ s(t[t.length - 1], t[0]) := by
    intro p hp he
    obtain ⟨m, hm, rfl⟩ := List.getElem_of_mem hp
    rw [consecutive_getElem] at he
    rw [consecutive_length] at hm
    rcases Sym2.eq_iff.1 he with ⟨e1, e2⟩ | ⟨e1, e2⟩
    · have := (hnd.getElem_inj_iff).1 e2; omega
    · have a := (hnd.getElem_inj_iff).1 e1
      have b := (hnd.getElem_inj_iff).1 e2
      omega
  refine ⟨fun e => if e = s(t[t.length - 1], t[0]) then 1 else 0, fun e => by dsimp only; split <;> norm_num, ?_, ?_⟩
  · rw [← tourCost_legs (wv := fun i j => if s(i, j) = s(t[t.length - 1], t[0]) then (1 : ℚ) else 0) (fun i j => rfl), legCost, legs_consecutive h2]
    rw [List.map_append, List.sum_append, List.sum_eq_zero]
    · rw [h0]
      simp only [List.map_cons, List.map_nil, List.sum_cons, List.sum_nil, if_true, zero_add, add_zero]
    · intro x hx
      obtain ⟨p, hp, rfl⟩ := List.mem_map.1 hx
      rw [if_neg (hcons p hp)]
  · rw [C70_exact (by omega) (by simp) (by simpa using ht)]
    congr 1
    have hz : s(t[t.length - 1], 0) ≠ s(t[t.length - 1], t[0]) := by
      intro e
      rcases Sym2.eq_iff.1 e with ⟨_, e2⟩ | ⟨e1, _⟩
      · exact hne0 e2.symm
      · have := (hnd.getElem_inj_iff).1 e1; omega
    have hsum : ((consecutive t).map fun p => if s(p.1, p.2) = s(t[t.length - 1], t[0]) then (1 : ℚ) else 0).sum = 0 := by
      apply List.sum_eq_zero
      intro x hx
      obtain ⟨p, hp, rfl⟩ := List.mem_map.1 hx
      rw [if_neg (hcons p hp)]
    simp only [List.map_cons, List.map_nil, List.sum_cons, List.sum_nil, hlast, h0, if_neg hz, legCost, legs_consecutive h2, List.map_append, List.sum_append]
    rw [hsum]
    simp only [if_true, zero_add, add_zero, sub_self, zero_div]

/-! ### The hypotheses are met -/

example : IsTour 5 [3, 0, 4, 1, 2] := by unfold IsTour; decide

/-- the tour 0, 2, 1, 3 on a square of side 1 with diagonals 2 (taxi distance) -/
example : ∃ W, tourToW [0, 2, 1, 3] = .ok W ∧ wTourLen 4 W (fun i j => if i = j then 0 else if (i + j) % 2 = 0 then 2 else 1) = 6 := by
  refine ⟨_, tourToW_ok (by decide) (by decide), by decide +kernel⟩

/-- a batch with two tours -/
example : meanTourLenNodes 3 [([0, 2, 1], fun i j => (i + j : Nat)), ([0, 1, 2], fun i j => (i * j + i + j : Nat))] = .ok 7 := by decide +kernel

end Verif
