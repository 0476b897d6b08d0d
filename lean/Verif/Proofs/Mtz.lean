import Verif.Model.Mtz
import Verif.Spec.DirectedTour
import Mathlib.Data.Finset.Card
import Mathlib.Algebra.BigOperators.Group.Finset.Basic
import Mathlib.Logic.Function.Iterate
import Mathlib.Tactic.Linarith
import Mathlib.Tactic.Push
import Mathlib.Data.Nat.ModEq
import Mathlib.Algebra.BigOperators.Ring.List
import Mathlib.Algebra.Order.BigOperators.Group.List

/-!
# Solutions of the Miller-Tucker-Zemlin program are tours
-/
namespace Verif
open Verif.Spec
set_option autoImplicit false

variable {K : Type} [Field K] [LinearOrder K] [IsStrictOrderedRing K]

theorem mem_cities {n i : Nat} : i ∈ cities n ↔ 1 ≤ i ∧ i ≤ n := by
  simp [cities, List.mem_range'_1]; omega

theorem nodup_cities (n : Nat) : (cities n).Nodup := List.nodup_range'

theorem sum_num01 (l : List Nat) (p : Nat → Bool) : (l.map fun j => (num01 (p j) : K)).sum = (l.countP p : K) := by
  induction l with
  | nil => simp
  | cons a l ih =>
    rw [List.map_cons, List.sum_cons, ih, List.countP_cons]
    by_cases h : p a <;> simp [num01, h, add_comm]

/-- a sum of boolean variables is 1 iff exactly one of them is set -/
theorem sum_one_iff {l : List Nat} (hl : l.Nodup) (p : Nat → Bool) :
    (l.map fun j => (num01 (p j) : K)).sum = 1 ↔ ∃ j ∈ l, p j = true ∧ ∀ k ∈ l, p k = true → k = j := by
  rw [sum_num01, show (1 : K) = ((1 : Nat) : K) by simp, Nat.cast_inj]
  induction l with
  | nil => simp
  | cons a l ih =>
    obtain ⟨ha, hl⟩ := List.nodup_cons.1 hl
    rw [List.countP_cons]
    by_cases h : p a = true
    · simp only [h, if_true]
      constructor
      · intro h0
        have h0 : l.countP p = 0 := by omega
        rw [List.countP_eq_zero] at h0
        refine ⟨a, by simp, h, fun k hk hp => ?_⟩
        rcases List.mem_cons.1 hk with rfl | hk
        · rfl
        · exact absurd hp (h0 k hk)
      · rintro ⟨j, hj, hpj, huniq⟩
        have : l.countP p = 0 := by
          rw [List.countP_eq_zero]
          intro k hk hp
          have h1 := huniq k (by simp [hk]) hp
          have h2 := huniq a (by simp) h
          exact ha (by rw [h2, ← h1]; exact hk)
        omega
    · simp only [h]
      rw [show l.countP p + (if false = true then 1 else 0) = l.countP p by simp, ih hl]
      constructor
      · rintro ⟨j, hj, hpj, hu⟩
        refine ⟨j, by simp [hj], hpj, fun k hk hp => ?_⟩
        rcases List.mem_cons.1 hk with rfl | hk
        · exact absurd hp h
        · exact hu k hk hp
      · rintro ⟨j, hj, hpj, hu⟩
        rcases List.mem_cons.1 hj with rfl | hj
        · exact absurd hpj h
        · exact ⟨j, hj, hpj, fun k hk hp => hu k (by simp [hk]) hp⟩

/-- the next city in a feasible solution -/
theorem MtzFeasible.next {n : Nat} {v : MtzVars K} (h : MtzFeasible n v) {i : Nat} (hi : i ∈ cities n) :
    ∃ j ∈ cities n, j ≠ i ∧ v.x i j = true ∧ ∀ k ∈ cities n, k ≠ i → v.x i k = true → k = j := by
  have h1 := (sum_one_iff ((nodup_cities n).filter _) _).1 (h.one i hi)
  obtain ⟨j, hj, hx, hu⟩ := h1
  simp only [List.mem_filter, decide_eq_true_eq] at hj
  exact ⟨j, hj.1, hj.2, hx, fun k hk hne hk' => hu k (by simp [List.mem_filter, hk, hne]) hk'⟩

theorem MtzFeasible.prev {n : Nat} {v : MtzVars K} (h : MtzFeasible n v) {j i i' : Nat} (hj : j ∈ cities n) (hi : i ∈ cities n) (hi' : i' ∈ cities n)
    (hne : i ≠ j) (hne' : i' ≠ j) (hx : v.x i j = true) (hx' : v.x i' j = true) : i = i' := by
  obtain ⟨k, hk, _, hu⟩ := (sum_one_iff ((nodup_cities n).filter _) _).1 (h.two j hj)
  rw [hu i (by simp [List.mem_filter, hi, hne]) hx, hu i' (by simp [List.mem_filter, hi', hne']) hx']

/-- an injective map of a finite set to itself that has no cycle avoiding `a` is one cycle -/
theorem one_cycle {n : Nat} (hn : 1 ≤ n) (s : Nat → Nat) (hs : ∀ i ∈ cities n, s i ∈ cities n)
    (hinj : ∀ i ∈ cities n, ∀ j ∈ cities n, s i = s j → i = j)
    (hacyc : ∀ k ∈ cities n, ∃ m, s^[m] k = 1) :
    ((List.range n).map fun m => s^[m] 1).Perm (cities n) ∧ s^[n] 1 = 1 := by
  have hmem : ∀ k ∈ cities n, ∀ m, s^[m] k ∈ cities n := by
    intro k hk m
    induction m with
    | zero => exact hk
    | succ m ih => rw [Function.iterate_succ_apply']; exact hs _ ih
  have hinjm : ∀ m, ∀ i ∈ cities n, ∀ j ∈ cities n, s^[m] i = s^[m] j → i = j := by
    intro m
    induction m with
    | zero => exact fun i _ j _ h => h
    | succ m ih =>
      intro i hi j hj h
      rw [Function.iterate_succ_apply', Function.iterate_succ_apply'] at h
      exact ih i hi j hj (hinj _ (hmem i hi m) _ (hmem j hj m) h)
  have h1 : (1 : Nat) ∈ cities n := mem_cities.2 ⟨le_rfl, hn⟩
  have back : ∀ p, 0 < p → s^[p] 1 = 1 → ∀ q, s^[p * q] 1 = 1 := by
    intro p _ hp q
    induction q with
    | zero => simp
    | succ q ih => rw [Nat.mul_succ, Function.iterate_add_apply, hp, ih]
  -- a return after `p` steps makes the orbit small
  have ret : ∀ p, 0 < p → s^[p] 1 = 1 → n ≤ p := by
    intro p hp0 hp
    have hsub : (cities n).toFinset ⊆ (Finset.range p).image fun m => s^[m] 1 := by
      intro k hk
      rw [List.mem_toFinset] at hk
      obtain ⟨m, hm⟩ := hacyc k hk
      -- k = s^[p*m - m] 1
      have hge : m ≤ p * m := Nat.le_mul_of_pos_left m hp0
      have e : s^[m] k = s^[m] (s^[p * m - m] 1) := by
        rw [← Function.iterate_add_apply, show m + (p * m - m) = p * m by omega, back p hp0 hp m, hm]
      have e2 := hinjm m k hk _ (hmem 1 h1 _) e
      rw [Finset.mem_image]
      refine ⟨(p * m - m) % p, Finset.mem_range.2 (Nat.mod_lt _ hp0), ?_⟩
      rw [e2]
      conv_rhs => rw [← Nat.mod_add_div (p * m - m) p, Function.iterate_add_apply, back p hp0 hp]
    have hc := Finset.card_le_card hsub
    rw [List.toFinset_card_of_nodup (nodup_cities n), cities, List.length_range'] at hc
    exact hc.trans (Finset.card_image_le.trans (by simp))
  have hnd : ((List.range n).map fun m => s^[m] 1).Nodup := by
    rw [List.nodup_map_iff_inj_on List.nodup_range]
    have key : ∀ a b, a < b → b < n → s^[a] 1 ≠ s^[b] 1 := by
      intro a b hab hb h
      have e : s^[a] 1 = s^[a] (s^[b - a] 1) := by rw [← Function.iterate_add_apply, show a + (b - a) = b by omega, h]
      have := hinjm a 1 h1 _ (hmem 1 h1 _) e
      have := ret (b - a) (by omega) this.symm
      omega
    intro a ha b hb h
    rw [List.mem_range] at ha hb
    rcases Nat.lt_trichotomy a b with hlt | heq | hlt
    · exact absurd h (key a b hlt hb)
    · exact heq
    · exact absurd h.symm (key b a hlt ha)
  have hperm : ((List.range n).map fun m => s^[m] 1).Perm (cities n) := by
    refine (List.subperm_of_subset hnd ?_).perm_of_length_le (by simp [cities])
    intro k hk
    obtain ⟨m, _, rfl⟩ := List.mem_map.1 hk
    exact hmem 1 h1 m
  refine ⟨hperm, ?_⟩
  have hin : s^[n] 1 ∈ (List.range n).map fun m => s^[m] 1 := hperm.mem_iff.2 (hmem 1 h1 n)
  obtain ⟨m, hm, he⟩ := List.mem_map.1 hin
  rw [List.mem_range] at hm
  have e : s^[m] 1 = s^[m] (s^[n - m] 1) := by rw [← Function.iterate_add_apply, show m + (n - m) = n by omega, ← he]
  have e1 := hinjm m 1 h1 _ (hmem 1 h1 _) e
  have := ret (n - m) (by omega) e1.symm
  rw [show n - m = n by omega] at e1
  exact e1.symm

theorem legs_iterate {n : Nat} (s : Nat → Nat) (hret : s^[n] 1 = 1) :
    legs ((List.range n).map fun m => s^[m] 1) = (List.range n).map fun m => (s^[m] 1, s^[m + 1] 1) := by
  apply List.ext_getElem
  · simp [legs]
  · intro i h1 h2
    have hi : i < n := by simpa using h2
    simp only [legs, List.getElem_zip, List.getElem_map, List.getElem_range, List.getElem_rotate, List.length_map, List.length_range]
    congr 1
    by_cases h : i + 1 < n
    · rw [Nat.mod_eq_of_lt h]
    · have : i + 1 = n := by omega
      rw [this, Nat.mod_self, hret]; rfl

/-- the off-diagonal part of a feasible solution is a tour -/
theorem mtz_sound {n : Nat} (hn : 1 ≤ n) {v : MtzVars K} (h : MtzFeasible n v) :
    ∃ t, IsTour1 n t ∧ ∀ i ∈ cities n, ∀ j ∈ cities n, j ≠ i → (v.x i j = true ↔ (i, j) ∈ legs t) := by
  have hx : ∀ i, ∃ j, i ∈ cities n → j ∈ cities n ∧ j ≠ i ∧ v.x i j = true ∧ ∀ k ∈ cities n, k ≠ i → v.x i k = true → k = j := by
    intro i
    by_cases hi : i ∈ cities n
    · obtain ⟨j, a, b, c, d⟩ := h.next hi
      exact ⟨j, fun _ => ⟨a, b, c, d⟩⟩
    · exact ⟨0, fun hc => absurd hc hi⟩
  choose s hs using hx
  have hmem : ∀ i ∈ cities n, s i ∈ cities n := fun i hi => (hs i hi).1
  have hiter : ∀ k ∈ cities n, ∀ m, s^[m] k ∈ cities n := by
    intro k hk m
    induction m with
    | zero => exact hk
    | succ m ih => rw [Function.iterate_succ_apply']; exact hmem _ ih
  have hinj : ∀ i ∈ cities n, ∀ j ∈ cities n, s i = s j → i = j := by
    intro i hi j hj e
    refine h.prev (hmem i hi) hi hj (hs i hi).2.1.symm ?_ (hs i hi).2.2.1 ?_
    · rw [e]; exact (hs j hj).2.1.symm
    · rw [e]; exact (hs j hj).2.2.1
  have hacyc : ∀ k ∈ cities n, ∃ m, s^[m] k = 1 := by
    intro k hk
    by_contra hno
    push Not at hno
    have hgrow : ∀ a d : Nat, v.u (s^[a] k) + (d : K) ≤ v.u (s^[a + d] k) := by
      intro a d
      induction d with
      | zero => simp
      | succ d ih =>
        have hi := hiter k hk (a + d)
        have hj := hiter k hk (a + (d + 1))
        have hsucc : s^[a + (d + 1)] k = s (s^[a + d] k) := by rw [← Nat.add_assoc, Function.iterate_succ_apply']
        have h2 : ∀ m, 2 ≤ s^[m] k := fun m => by
          have := mem_cities.1 (hiter k hk m)
          have := hno m
          omega
        have h3 := h.three _ hi (h2 _) _ hj ⟨h2 _, by rw [hsucc]; exact (hs _ hi).2.1⟩
        have hx : v.x (s^[a + d] k) (s^[a + (d + 1)] k) = true := by rw [hsucc]; exact (hs _ hi).2.2.1
        rw [hx] at h3
        simp only [num01, if_true, mul_one] at h3
        push_cast
        linarith
    obtain ⟨a, ha, b, hb, hne, he⟩ := Finset.exists_ne_map_eq_of_card_lt_of_maps_to (s := Finset.range (n + 1)) (t := (cities n).toFinset)
      (f := fun m => s^[m] k) (by rw [List.toFinset_card_of_nodup (nodup_cities n)]; simp [cities])
      (fun m _ => by simpa using hiter k hk m)
    have key : ∀ a b, a < b → s^[a] k ≠ s^[b] k := by
      intro a b hab e
      have := hgrow a (b - a)
      rw [show a + (b - a) = b by omega, ← e] at this
      have hpos : (0 : K) < ((b - a : Nat) : K) := by exact_mod_cast (by omega : 0 < b - a)
      linarith
    rcases Nat.lt_or_gt_of_ne hne with hlt | hlt
    · exact key a b hlt he
    · exact key b a hlt he.symm
  obtain ⟨hperm, hret⟩ := one_cycle hn s hmem hinj hacyc
  refine ⟨_, hperm, ?_⟩
  rw [legs_iterate s hret]
  intro i hi j hj hne
  constructor
  · intro hxij
    have hj' := (hs i hi).2.2.2 j hj hne hxij
    obtain ⟨m, hm, rfl⟩ := List.mem_map.1 (hperm.mem_iff.2 hi)
    exact List.mem_map.2 ⟨m, hm, by rw [Function.iterate_succ_apply', hj']⟩
  · intro hl
    obtain ⟨m, hm, he⟩ := List.mem_map.1 hl
    have e1 : s^[m] 1 = i := congrArg Prod.fst he
    have e2 : s^[m + 1] 1 = j := congrArg Prod.snd he
    rw [Function.iterate_succ_apply', e1] at e2
    rw [← e2]
    exact (hs i hi).2.2.1

/-! ### Every tour is a solution -/

theorem legs_rotate (t : List Nat) (k : Nat) : legs (t.rotate k) = (legs t).rotate k := by
  unfold legs
  rw [List.rotate_rotate, Nat.add_comm k 1, ← List.rotate_rotate]
  exact (List.zipWith_rotate_distrib Prod.mk t (t.rotate 1) k (by simp)).symm

theorem mem_legs_iff {t : List Nat} {i j : Nat} : (i, j) ∈ legs t ↔ ∃ m, ∃ h : m < t.length, t[m] = i ∧ t[(m + 1) % t.length]'(Nat.mod_lt _ (by omega)) = j := by
  rw [List.mem_iff_getElem]
  constructor
  · rintro ⟨m, hm, he⟩
    have hm' : m < t.length := by simpa [legs] using hm
    refine ⟨m, hm', ?_⟩
    simp only [legs, List.getElem_zip, List.getElem_rotate] at he
    exact ⟨congrArg Prod.fst he, congrArg Prod.snd he⟩
  · rintro ⟨m, hm, e1, e2⟩
    refine ⟨m, by simpa [legs] using hm, ?_⟩
    simp only [legs, List.getElem_zip, List.getElem_rotate, e1, e2]

/-- the solution that belongs to a tour starting in city 1 -/
def tourVars (K : Type) [Field K] (t : List Nat) : MtzVars K where
  x := fun i j => decide ((i, j) ∈ legs t)
  u := fun i => (t.idxOf i : K)

theorem mtz_complete1 {n : Nat} (hn : 2 ≤ n) {t : List Nat} (ht : IsTour1 n t) (hhead : t[0]? = some 1) : MtzFeasible n (tourVars K t) := by
  have hlen : t.length = n := by rw [ht.length_eq]; simp
  have hnd : t.Nodup := ht.nodup_iff.2 (nodup_cities n)
  have hmem : ∀ i, i ∈ t ↔ i ∈ cities n := fun i => ht.mem_iff
  have hidx : ∀ m (hm : m < t.length), t.idxOf t[m] = m := fun m hm => hnd.idxOf_getElem m hm
  have hget0 : ∀ h : 0 < t.length, t[0] = 1 := by
    intro h
    rw [List.getElem?_eq_getElem h] at hhead
    exact Option.some.inj hhead
  refine ⟨fun i _ => by simp [tourVars], ?_, ?_, ?_, ?_⟩
  · intro i hi
    rw [sum_one_iff ((nodup_cities n).filter _)]
    obtain ⟨m, hm, rfl⟩ := List.getElem_of_mem ((hmem i).2 hi)
    have hlt : (m + 1) % t.length < t.length := Nat.mod_lt _ (by omega)
    refine ⟨t[(m + 1) % t.length], ?_, ?_, ?_⟩
    · simp only [List.mem_filter, decide_eq_true_eq]
      refine ⟨(hmem _).1 (List.getElem_mem _), ?_⟩
      intro e
      have := (hnd.getElem_inj_iff).1 e
      rcases Nat.lt_or_ge (m + 1) t.length with h | h
      · rw [Nat.mod_eq_of_lt h] at this; omega
      · have : m + 1 = t.length := by omega
        simp [this] at *; omega
    · simp only [tourVars, decide_eq_true_eq, mem_legs_iff]
      exact ⟨m, hm, rfl, rfl⟩
    · intro k _ hk
      simp only [tourVars, decide_eq_true_eq, mem_legs_iff] at hk
      obtain ⟨m', hm', e1, e2⟩ := hk
      have := (hnd.getElem_inj_iff).1 e1
      subst this
      exact e2.symm
  · intro j hj
    rw [sum_one_iff ((nodup_cities n).filter _)]
    obtain ⟨q, hq, rfl⟩ := List.getElem_of_mem ((hmem j).2 hj)
    obtain ⟨m, hm, hmq⟩ : ∃ m, m < t.length ∧ (m + 1) % t.length = q := by
      rcases Nat.eq_zero_or_pos q with h | h
      · exact ⟨t.length - 1, by omega, by rw [h, Nat.sub_add_cancel (by omega), Nat.mod_self]⟩
      · exact ⟨q - 1, by omega, by rw [Nat.sub_add_cancel h, Nat.mod_eq_of_lt hq]⟩
    have hmne : m ≠ q := by
      rcases Nat.lt_or_ge (m + 1) t.length with h | h
      · rw [Nat.mod_eq_of_lt h] at hmq; omega
      · have : m + 1 = t.length := by omega
        rw [this, Nat.mod_self] at hmq; omega
    refine ⟨t[m], ?_, ?_, ?_⟩
    · simp only [List.mem_filter, decide_eq_true_eq]
      exact ⟨(hmem _).1 (List.getElem_mem _), fun e => hmne ((hnd.getElem_inj_iff).1 e)⟩
    · simp only [tourVars, decide_eq_true_eq, mem_legs_iff]
      exact ⟨m, hm, rfl, by simp only [hmq]⟩
    · intro k _ hk
      simp only [tourVars, decide_eq_true_eq, mem_legs_iff] at hk
      obtain ⟨m', hm', e1, e2⟩ := hk
      have e3 := (hnd.getElem_inj_iff).1 e2
      have : m' = m := by
        have : (m' + 1) % t.length = (m + 1) % t.length := by rw [e3, hmq]
        rcases Nat.lt_or_ge (m' + 1) t.length with h | h <;> rcases Nat.lt_or_ge (m + 1) t.length with h' | h'
        · rw [Nat.mod_eq_of_lt h, Nat.mod_eq_of_lt h'] at this; omega
        · have h'' : m + 1 = t.length := by omega
          rw [Nat.mod_eq_of_lt h, h'', Nat.mod_self] at this; omega
        · have h'' : m' + 1 = t.length := by omega
          rw [Nat.mod_eq_of_lt h', h'', Nat.mod_self] at this; omega
        · omega
      subst this
      exact e1.symm
  · intro i hi hi2 j hj hj2
    obtain ⟨a, ha, rfl⟩ := List.getElem_of_mem ((hmem i).2 hi)
    obtain ⟨b, hb, rfl⟩ := List.getElem_of_mem ((hmem j).2 hj)
    have ha0 : a ≠ 0 := by rintro rfl; rw [hget0 ha] at hi2; omega
    have hb0 : b ≠ 0 := by rintro rfl; rw [hget0 hb] at hj2; omega
    simp only [tourVars, hidx]
    have hle : ∀ m, m ≤ n - 1 → (m : K) ≤ (n : K) - 1 := by
      intro m hm
      have : ((m + 1 : Nat) : K) ≤ (n : K) := by exact_mod_cast (by omega : m + 1 ≤ n)
      push_cast at this; linarith
    by_cases hx : (t[a], t[b]) ∈ legs t
    · obtain ⟨m, hm, e1, e2⟩ := mem_legs_iff.1 hx
      have e1 := (hnd.getElem_inj_iff).1 e1
      have e2 := (hnd.getElem_inj_iff).1 e2
      subst e1
      have : m + 1 < t.length := by
        by_contra hc
        have : m + 1 = t.length := by omega
        rw [this, Nat.mod_self] at e2; omega
      rw [Nat.mod_eq_of_lt this] at e2
      subst e2
      simp [num01, hx]
    · simp only [hx, decide_false, num01, Bool.false_eq_true, if_false, mul_zero, add_zero]
      have hbp : (1 : K) ≤ (b : K) := by exact_mod_cast (by omega : 1 ≤ b)
      have := hle a (by omega)
      have hb' : (0 : K) ≤ (b : K) := by linarith
      linarith
  · have h0 : 0 < t.length := by omega
    have := hidx 0 h0
    rw [hget0 h0] at this
    simp [tourVars, this]

theorem IsTour1.rotate_to_one {n : Nat} (hn : 1 ≤ n) {t : List Nat} (ht : IsTour1 n t) : ∃ k, (t.rotate k)[0]? = some 1 ∧ IsTour1 n (t.rotate k) := by
  have h1 : (1 : Nat) ∈ t := ht.mem_iff.2 (mem_cities.2 ⟨le_rfl, hn⟩)
  obtain ⟨k, hk, he⟩ := List.getElem_of_mem h1
  refine ⟨k, ?_, (List.rotate_perm t k).trans ht⟩
  rw [List.getElem?_eq_getElem (by rw [List.length_rotate]; omega), List.getElem_rotate]
  simp [Nat.mod_eq_of_lt hk, he]

/-- the city after each city of a tour -/
theorem legs_eq_map {t : List Nat} (hnd : t.Nodup) : ∃ s : Nat → Nat, legs t = t.map fun i => (i, s i) := by
  refine ⟨fun i => t.getD ((t.idxOf i + 1) % t.length) 0, ?_⟩
  apply List.ext_getElem
  · simp [legs]
  · intro m h1 h2
    have hm : m < t.length := by simpa using h2
    have hlt : (m + 1) % t.length < t.length := Nat.mod_lt _ (by omega)
    simp only [legs, List.getElem_zip, List.getElem_map, List.getElem_rotate, hnd.idxOf_getElem m hm, List.getD_eq_getElem?_getD,
      List.getElem?_eq_getElem hlt, Option.getD_some]

theorem sum_pair {l : List Nat} (hl : l.Nodup) (g : Nat → K) {i j : Nat} (hi : i ∈ l) (hj : j ∈ l) (hne : j ≠ i) (hz : ∀ k ∈ l, k ≠ i → k ≠ j → g k = 0) :
    (l.map g).sum = g i + g j := by
  rw [← List.sum_toFinset _ hl, ← Finset.add_sum_erase _ _ (List.mem_toFinset.2 hi),
    ← Finset.add_sum_erase _ _ (show j ∈ l.toFinset.erase i by simp [hj, hne]), Finset.sum_eq_zero, add_zero]
  intro k hk
  simp only [Finset.mem_erase, List.mem_toFinset] at hk
  exact hz k hk.2.2 hk.2.1 hk.1

/-- the objective is the length of the tour plus the cost of the diagonal variables that are set -/
theorem mtz_objective {n : Nat} {t : List Nat} (hn : 2 ≤ n) (ht : IsTour1 n t) (cost : Nat → Nat → K) {v : MtzVars K}
    (hx : ∀ i ∈ cities n, ∀ j ∈ cities n, j ≠ i → (v.x i j = true ↔ (i, j) ∈ legs t)) :
    mtzObjective n cost v = legCost cost t + ((cities n).map fun i => num01 (v.x i i) * cost i i).sum := by
  have hnd : t.Nodup := ht.nodup_iff.2 (nodup_cities n)
  have hlen : t.length = n := by rw [ht.length_eq]; simp
  obtain ⟨s, hs⟩ := legs_eq_map hnd
  have hmemlegs : ∀ i ∈ t, (i, s i) ∈ legs t := fun i hi => by rw [hs]; exact List.mem_map.2 ⟨i, hi, rfl⟩
  have hleg : ∀ i j, (i, j) ∈ legs t → j = s i ∧ j ∈ t ∧ j ≠ i := by
    intro i j h
    have h' := h
    rw [hs] at h'
    obtain ⟨k, _, he⟩ := List.mem_map.1 h'
    have e1 : k = i := congrArg Prod.fst he
    have e2 : s k = j := congrArg Prod.snd he
    obtain ⟨m, hm, a1, a2⟩ := mem_legs_iff.1 h
    refine ⟨by rw [← e2, e1], by rw [← a2]; exact List.getElem_mem _, ?_⟩
    intro e
    rw [← a1, ← a2] at e
    have := (hnd.getElem_inj_iff).1 e
    rcases Nat.lt_or_ge (m + 1) t.length with h | h
    · rw [Nat.mod_eq_of_lt h] at this; omega
    · have h0 : m + 1 = t.length := by omega
      rw [h0, Nat.mod_self] at this; omega
  have hrow : ∀ i ∈ cities n, ((cities n).map fun j => num01 (v.x i j) * cost i j).sum = num01 (v.x i i) * cost i i + cost i (s i) := by
    intro i hi
    have hit : i ∈ t := ht.mem_iff.2 hi
    obtain ⟨_, h2, h3⟩ := hleg i (s i) (hmemlegs i hit)
    have hsi : s i ∈ cities n := ht.mem_iff.1 h2
    rw [sum_pair (nodup_cities n) _ hi hsi h3]
    · rw [(hx i hi (s i) hsi h3).2 (hmemlegs i hit)]
      simp [num01]
    · intro k hk hki hks
      have : v.x i k ≠ true := fun h => hks (hleg i k ((hx i hi k hk hki).1 h)).1
      simp [num01, this]
  unfold mtzObjective
  rw [List.map_congr_left hrow, List.sum_map_add, add_comm]
  congr 1
  rw [legCost, hs, List.map_map]
  exact (List.Perm.map _ ht.symm).sum_eq

end Verif
