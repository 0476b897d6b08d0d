import Verif.Proofs.Mtz
import Mathlib.Data.List.Permutation
import Mathlib.Data.Finset.Max
import Mathlib.Algebra.Order.Ring.Rat
import Mathlib.Algebra.Order.Field.Rat

/-!
# C66, C67: the CPLEX program describes the travelling salesman problem; what it prints
-/
namespace Verif
open Verif.Spec
set_option autoImplicit false

variable {K : Type} [Field K] [LinearOrder K] [IsStrictOrderedRing K]

/-- **C66** (solutions are tours). For two or more cities, the variables `x[i][j]`, `i ≠ j`, of every feasible solution are the legs of a tour of all the cities; the value of the objective is the length of
the tour plus the costs `Cost[i][i]` of the variables `x[i][i]` that are set, which no constraint restricts. -/
theorem C66_solutions {n : Nat} (hn : 2 ≤ n) (cost : Nat → Nat → K) {v : MtzVars K} (h : MtzFeasible n v) :
    ∃ t, IsTour1 n t ∧ (∀ i ∈ List.range' 1 n, ∀ j ∈ List.range' 1 n, j ≠ i → (v.x i j = true ↔ (i, j) ∈ legs t)) ∧
      mtzObjective n cost v = legCost cost t + ((List.range' 1 n).map fun i => if v.x i i then cost i i else 0).sum := by
  obtain ⟨t, ht, hx⟩ := mtz_sound (by omega) h
  refine ⟨t, ht, hx, ?_⟩
  rw [mtz_objective hn ht cost hx]
  congr 2
  refine List.map_congr_left fun i _ => ?_
  by_cases hi : v.x i i <;> simp [num01, hi]

/-- **C66** (tours are solutions). For two or more cities, every tour is a feasible solution, whose objective is the length of the tour. -/
theorem C66_tours {n : Nat} (hn : 2 ≤ n) (cost : Nat → Nat → K) {t : List Nat} (ht : IsTour1 n t) :
    ∃ v : MtzVars K, MtzFeasible n v ∧ (∀ i j, v.x i j = true ↔ (i, j) ∈ legs t) ∧ mtzObjective n cost v = legCost cost t := by
  obtain ⟨k, hk, ht'⟩ := IsTour1.rotate_to_one (by omega) ht
  have hiff : ∀ i j, (tourVars K (t.rotate k)).x i j = true ↔ (i, j) ∈ legs t := by
    intro i j
    simp [tourVars, legs_rotate, List.mem_rotate]
  have hnd : t.Nodup := ht.nodup_iff.2 (nodup_cities n)
  have hlen : t.length = n := by rw [ht.length_eq]; simp
  refine ⟨tourVars K (t.rotate k), mtz_complete1 hn ht' hk, hiff, ?_⟩
  rw [mtz_objective hn ht cost (fun i _ j _ _ => hiff i j)]
  have : ((cities n).map fun i => num01 ((tourVars K (t.rotate k)).x i i) * cost i i).sum = 0 := by
    apply List.sum_eq_zero
    intro z hz
    obtain ⟨i, hi, rfl⟩ := List.mem_map.1 hz
    have : (tourVars K (t.rotate k)).x i i ≠ true := by
      intro h
      obtain ⟨m, hm, e1, e2⟩ := mem_legs_iff.1 ((hiff i i).1 h)
      rw [← e2] at e1
      have := (hnd.getElem_inj_iff).1 e1
      rcases Nat.lt_or_ge (m + 1) t.length with h | h
      · rw [Nat.mod_eq_of_lt h] at this; omega
      · have h0 : m + 1 = t.length := by omega
        rw [h0, Nat.mod_self] at this; omega
    simp [num01, this]
  rw [this, add_zero]

/-- **C66** (the optimum). When no `Cost[i][i]` is negative, the optimal value of the program is the length of a shortest tour. -/
theorem C66_optimum {n : Nat} (hn : 2 ≤ n) (cost : Nat → Nat → K) (hdiag : ∀ i ∈ List.range' 1 n, 0 ≤ cost i i) (z : K) :
    (∃ v : MtzVars K, MtzFeasible n v ∧ mtzObjective n cost v = z ∧ ∀ v', MtzFeasible n v' → z ≤ mtzObjective n cost v') ↔
      (∃ t, IsTour1 n t ∧ legCost cost t = z ∧ ∀ t', IsTour1 n t' → z ≤ legCost cost t') := by
  have hge : ∀ v : MtzVars K, MtzFeasible n v → ∃ t, IsTour1 n t ∧ legCost cost t ≤ mtzObjective n cost v := by
    intro v hv
    obtain ⟨t, ht, _, ho⟩ := C66_solutions hn cost hv
    refine ⟨t, ht, ?_⟩
    rw [ho]
    have : 0 ≤ ((List.range' 1 n).map fun i => if v.x i i then cost i i else 0).sum := by
      apply List.sum_nonneg
      intro y hy
      obtain ⟨i, hi, rfl⟩ := List.mem_map.1 hy
      split
      · exact hdiag i hi
      · exact le_rfl
    linarith
  constructor
  · rintro ⟨v, hv, rfl, hmin⟩
    obtain ⟨t, ht, hle⟩ := hge v hv
    have hall : ∀ t', IsTour1 n t' → mtzObjective n cost v ≤ legCost cost t' := by
      intro t' ht'
      obtain ⟨v', hv', _, ho⟩ := C66_tours hn cost ht'
      rw [← ho]; exact hmin v' hv'
    exact ⟨t, ht, le_antisymm hle (hall t ht), hall⟩
  · rintro ⟨t, ht, rfl, hmin⟩
    obtain ⟨v, hv, _, ho⟩ := C66_tours hn cost ht
    refine ⟨v, hv, ho, fun v' hv' => ?_⟩
    obtain ⟨t', ht', hle⟩ := hge v' hv'
    exact (hmin t' ht').trans hle

/-- **C66** (one city). For a single city the program has no solution. -/
theorem C66_single (v : MtzVars K) : ¬ MtzFeasible 1 v := by
  intro h
  have := h.one 1 (by simp [cities])
  simp [cities] at this

/-! ### What is printed -/

/-- an optimal solution of the program -/
def Spec.MtzOptimal (n : Nat) (cost : Nat → Nat → K) (v : MtzVars K) : Prop := MtzFeasible n v ∧ ∀ v', MtzFeasible n v' → mtzObjective n cost v ≤ mtzObjective n cost v'

/-- the solution with one variable `x[k][k]` changed -/
theorem diag_feasible {n : Nat} {v : MtzVars K} (h : MtzFeasible n v) (k : Nat) (b : Bool) :
    MtzFeasible n { v with x := fun i j => if i = k ∧ j = k then b else v.x i j } := by
  have off : ∀ i j : Nat, j ≠ i → (if i = k ∧ j = k then b else v.x i j) = v.x i j := by
    intro i j hne
    rw [if_neg]
    rintro ⟨rfl, rfl⟩
    exact hne rfl
  refine ⟨h.nonneg, ?_, ?_, ?_, h.start⟩
  · intro i hi
    rw [← h.one i hi]
    congr 1
    refine List.map_congr_left fun j hj => ?_
    simp only [List.mem_filter, decide_eq_true_eq] at hj
    simp only [off i j hj.2]
  · intro j hj
    rw [← h.two j hj]
    congr 1
    refine List.map_congr_left fun i hi => ?_
    simp only [List.mem_filter, decide_eq_true_eq] at hi
    simp only [off i j (Ne.symm hi.2)]
  · intro i hi hi2 j hj hj2
    simp only [off i j hj2.2]
    exact h.three i hi hi2 j hj hj2

theorem printed_mem {n : Nat} {v : MtzVars K} {i j : Nat} : (i, j) ∈ mtzPrinted n v ↔ i ∈ cities n ∧ j ∈ cities n ∧ v.x i j = true := by
  simp only [mtzPrinted, List.mem_flatMap, List.mem_map, List.mem_filter, Prod.mk.injEq]
  constructor
  · rintro ⟨a, ha, b, ⟨hb, hx⟩, rfl, rfl⟩
    exact ⟨ha, hb, hx⟩
  · rintro ⟨hi, hj, hx⟩
    exact ⟨i, hi, j, ⟨hj, hx⟩, rfl, rfl⟩

theorem printed_nodup (n : Nat) (v : MtzVars K) : (mtzPrinted n v).Nodup := by
  rw [mtzPrinted, List.nodup_flatMap]
  refine ⟨fun i _ => ?_, ?_⟩
  · exact ((nodup_cities n).filter _).map fun a b h => congrArg Prod.snd h
  · refine (nodup_cities n).imp ?_
    intro a b hab p hp hq
    obtain ⟨x, _, rfl⟩ := List.mem_map.1 hp
    obtain ⟨y, _, he⟩ := List.mem_map.1 hq
    exact hab (congrArg Prod.fst he).symm

theorem legs_nodup {t : List Nat} (h : t.Nodup) : (legs t).Nodup := by
  obtain ⟨s, hs⟩ := legs_eq_map h
  rw [hs]
  exact h.map fun a b e => congrArg Prod.fst e

theorem tour_no_loop {n : Nat} (hn : 2 ≤ n) {t : List Nat} (ht : IsTour1 n t) {i j : Nat} (h : (i, j) ∈ legs t) : i ∈ cities n ∧ j ∈ cities n ∧ j ≠ i := by
  have hnd : t.Nodup := ht.nodup_iff.2 (nodup_cities n)
  have hlen : t.length = n := by rw [ht.length_eq]; simp
  obtain ⟨m, hm, rfl, rfl⟩ := mem_legs_iff.1 h
  refine ⟨ht.mem_iff.1 (List.getElem_mem _), ht.mem_iff.1 (List.getElem_mem _), ?_⟩
  intro e
  have := (hnd.getElem_inj_iff).1 e
  rcases Nat.lt_or_ge (m + 1) t.length with h | h
  · rw [Nat.mod_eq_of_lt h] at this; omega
  · have h0 : m + 1 = t.length := by omega
    rw [h0, Nat.mod_self] at this; omega

theorem sum_pos_of_mem {l : List Nat} {f : Nat → K} (h0 : ∀ i ∈ l, 0 ≤ f i) {k : Nat} (hk : k ∈ l) (hpos : 0 < f k) : 0 < (l.map f).sum := by
  have h1 : f k ≤ (l.map f).sum := List.single_le_sum (by intro y hy; obtain ⟨i, hi, rfl⟩ := List.mem_map.1 hy; exact h0 i hi) _ (List.mem_map_of_mem hk)
  linarith

/-- **C67** (partial: all `Cost[i][i]` positive). The lines printed for an optimal solution are the legs of a shortest tour, each once.
Missing: the same for `Cost[i][i] = 0`, which is false (`C67_fails`) and is what the converter writes. -/
theorem C67_printed_partial {n : Nat} (hn : 2 ≤ n) (cost : Nat → Nat → K) (hdiag : ∀ i ∈ List.range' 1 n, 0 < cost i i) {v : MtzVars K} (h : MtzOptimal n cost v) :
    ∃ t, IsTour1 n t ∧ (mtzPrinted n v).Perm (legs t) ∧ ∀ t', IsTour1 n t' → legCost cost t ≤ legCost cost t' := by
  obtain ⟨t, ht, hx, ho⟩ := C66_solutions hn cost h.1
  have hnd : t.Nodup := ht.nodup_iff.2 (nodup_cities n)
  obtain ⟨v', hv', hx', ho'⟩ := C66_tours (K := K) hn cost ht
  have hle := h.2 v' hv'
  have hloop : ∀ i ∈ cities n, v.x i i ≠ true := by
    intro k hk hxk
    have : 0 < ((List.range' 1 n).map fun i => if v.x i i then cost i i else 0).sum := by
      refine sum_pos_of_mem ?_ hk ?_
      · intro i hi
        split
        · exact (hdiag i hi).le
        · exact le_rfl
      · simp only [hxk, if_true]
        exact hdiag k hk
    linarith
  refine ⟨t, ht, ?_, ?_⟩
  · rw [List.perm_ext_iff_of_nodup (printed_nodup n v) (legs_nodup hnd)]
    rintro ⟨i, j⟩
    rw [printed_mem]
    constructor
    · rintro ⟨hi, hj, hxij⟩
      have hne : j ≠ i := by rintro rfl; exact hloop j hj hxij
      exact (hx i hi j hj hne).1 hxij
    · intro hl
      obtain ⟨hi, hj, hne⟩ := tour_no_loop hn ht hl
      exact ⟨hi, hj, (hx i hi j hj hne).2 hl⟩
  · intro t' ht'
    obtain ⟨v2, hv2, _, ho2⟩ := C66_tours (K := K) hn cost ht'
    have h2 := h.2 v2 hv2
    have h3 : 0 ≤ ((List.range' 1 n).map fun i => if v.x i i then cost i i else 0).sum := by
      apply List.sum_nonneg
      intro y hy
      obtain ⟨i, hi, rfl⟩ := List.mem_map.1 hy
      split
      · exact (hdiag i hi).le
      · exact le_rfl
    linarith

/-- **C67** fails for every instance with a zero on the diagonal (all files of the converter are such): next to every optimal solution there is another one for which a line `k ---> k` is printed. -/
theorem C67_fails {n : Nat} (cost : Nat → Nat → K) {k : Nat} (hk : k ∈ List.range' 1 n) (hzero : cost k k = 0) {v : MtzVars K} (h : MtzOptimal n cost v) :
    ∃ v', MtzOptimal n cost v' ∧ (k, k) ∈ mtzPrinted n v' := by
  refine ⟨{ v with x := fun i j => if i = k ∧ j = k then true else v.x i j }, ⟨diag_feasible h.1 k true, ?_⟩, ?_⟩
  · intro v' hv'
    have : mtzObjective n cost { v with x := fun i j => if i = k ∧ j = k then true else v.x i j } = mtzObjective n cost v := by
      unfold mtzObjective
      congr 1
      refine List.map_congr_left fun i _ => ?_
      congr 1
      refine List.map_congr_left fun j _ => ?_
      by_cases hij : i = k ∧ j = k
      · obtain ⟨rfl, rfl⟩ := hij
        simp [hzero]
      · simp [hij]
    rw [this]
    exact h.2 v' hv'
  · rw [printed_mem]
    exact ⟨hk, hk, by simp⟩

/-! ### The hypotheses are met -/

/-- a feasible solution for four cities: 1, 3, 2, 4 -/
example : MtzFeasible (K := ℚ) 4 (tourVars ℚ [1, 3, 2, 4]) := mtz_complete1 (by omega) (show List.Perm _ _ by decide) (by decide)

/-- every instance with two or more cities has an optimal solution when no `Cost[i][i]` is negative: `C67_printed_partial` and `C67_fails` apply to all of them -/
theorem C66_optimum_exists {n : Nat} (hn : 2 ≤ n) (cost : Nat → Nat → K) (hdiag : ∀ i ∈ List.range' 1 n, 0 ≤ cost i i) : ∃ v, MtzOptimal n cost v := by
  obtain ⟨t, ht, hmin⟩ := Finset.exists_min_image (List.range' 1 n).permutations.toFinset (legCost cost)
    ⟨List.range' 1 n, List.mem_toFinset.2 (List.mem_permutations.2 (List.Perm.refl _))⟩
  have ht' : IsTour1 n t := List.mem_permutations.1 (List.mem_toFinset.1 ht)
  obtain ⟨v, hv, ho, hv2⟩ := (C66_optimum hn cost hdiag (legCost cost t)).2 ⟨t, ht', rfl, fun t' h' => hmin t' (List.mem_toFinset.2 (List.mem_permutations.2 h'))⟩
  exact ⟨v, hv, fun v' hv' => by rw [ho]; exact hv2 v' hv'⟩

/-- an asymmetric instance with four cities and positive diagonal -/
example : ∃ v : MtzVars ℚ, MtzOptimal 4 (fun i j => if i = j then 1 else 10 * (i : ℚ) * j + i) v :=
  C66_optimum_exists (by omega) _ (by intro i _; simp)

/-- the same with zeros on the diagonal: some optimal solution prints `2 ---> 2` -/
example : ∃ v : MtzVars ℚ, MtzOptimal 4 (fun i j => if i = j then 0 else 10 * (i : ℚ) * j + i) v ∧ (2, 2) ∈ mtzPrinted 4 v := by
  obtain ⟨v, hv⟩ := C66_optimum_exists (K := ℚ) (n := 4) (by omega) (fun i j => if i = j then 0 else 10 * (i : ℚ) * j + i) (by intro i _; simp)
  exact C67_fails _ (by decide) (by simp) hv

end Verif
