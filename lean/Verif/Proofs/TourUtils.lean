import Verif.Model.TourUtils
import Verif.Proofs.Mtz
import Verif.Proofs.Tour
import Mathlib.Data.List.Sort

/-!
# Lemmas about the tour helpers
-/
namespace Verif
open Verif.Spec
set_option autoImplicit false

theorem consecutive_length (t : List Nat) : (consecutive t).length = t.length - 1 := by simp [consecutive]

theorem consecutive_getElem {t : List Nat} {m : Nat} (h : m < (consecutive t).length) :
    (consecutive t)[m] = (t[m]'(by rw [consecutive_length] at h; omega), t[m + 1]'(by rw [consecutive_length] at h; omega)) := by
  have h' : m < t.length - 1 := by rw [consecutive_length] at h; omega
  have h1 : m < t.length := by omega
  have h2 : m + 1 < t.length := by omega
  simp only [consecutive, List.getElem_map, List.getElem_range, List.getD_eq_getElem?_getD, List.getElem?_eq_getElem h1, List.getElem?_eq_getElem h2, Option.getD_some]

theorem legs_consecutive {t : List Nat} (h : 2 ≤ t.length) : legs t = consecutive t ++ [(t[t.length - 1], t.headD 0)] := by
  apply List.ext_getElem
  · simp [legs, consecutive_length]; omega
  · intro m h1 h2
    have hm : m < t.length := by simpa [legs] using h1
    simp only [legs, List.getElem_zip, List.getElem_rotate]
    by_cases hl : m < t.length - 1
    · rw [List.getElem_append_left (by rw [consecutive_length]; exact hl), consecutive_getElem]
      simp only [Nat.mod_eq_of_lt (show m + 1 < t.length by omega)]
    · have hm' : m = t.length - 1 := by omega
      subst hm'
      rw [List.getElem_append_right (by rw [consecutive_length])]
      simp only [consecutive_length, Nat.sub_self, List.getElem_cons_zero, Nat.sub_add_cancel (show 1 ≤ t.length by omega), Nat.mod_self]
      congr 1
      cases t with
      | nil => simp at h
      | cons a t => rfl

theorem lastNode_ok {t : List Nat} (h : 2 ≤ t.length) : lastNode t = .ok (t[t.length - 1]) := by
  unfold lastNode
  have hl : (consecutive t).length - 1 < (consecutive t).length := by rw [consecutive_length]; omega
  rw [List.getLast?_eq_getElem?, List.getElem?_eq_getElem hl, consecutive_getElem]
  simp only [consecutive_length]
  congr 2
  omega

theorem lastNode_short {t : List Nat} (h : t.length ≤ 1) : lastNode t = .error .uninit := by
  have : consecutive t = [] := by rw [← List.length_eq_zero_iff, consecutive_length]; omega
  rw [lastNode, this]; rfl

theorem legs_mem_lt {t : List Nat} {n : Nat} (ht : ∀ i ∈ t, i < n) : ∀ p ∈ legs t, p.1 < n ∧ p.2 < n := by
  rintro ⟨i, j⟩ hp
  obtain ⟨m, hm, rfl, rfl⟩ := mem_legs_iff.1 hp
  exact ⟨ht _ (List.getElem_mem _), ht _ (List.getElem_mem _)⟩

theorem forList_mark {n : Nat} : ∀ (P : List (Nat × Nat)) (W : Nat → Nat → ℚ), (∀ p ∈ P, p.1 < n ∧ p.2 < n) →
    forList (markEdge n) P W = .ok fun a b => if (a, b) ∈ P ∨ (b, a) ∈ P then 1 else W a b := by
  intro P
  induction P with
  | nil => intro W _; simp [forList]
  | cons p P ih =>
    intro W h
    obtain ⟨u, v⟩ := p
    have hp := h (u, v) (by simp)
    rw [forList, markEdge, if_pos hp]
    simp only [ok_bind]
    rw [ih _ (fun q hq => h q (by simp [hq]))]
    congr 1
    funext a b
    simp only [List.mem_cons, Prod.mk.injEq, upd2_apply]
    by_cases h1 : (a, b) ∈ P ∨ (b, a) ∈ P
    · rcases h1 with h1 | h1 <;> simp [h1]
    · push Not at h1
      simp only [h1.1, h1.2, or_false]
      by_cases h2 : a = u ∧ b = v
      · simp [h2]
      · by_cases h3 : a = v ∧ b = u
        · simp [h3]
        · have h4 : ¬ (b = u ∧ a = v) := fun ⟨x, y⟩ => h3 ⟨y, x⟩
          simp [h2, h3, h4]

theorem forList_sum {n : Nat} {wv : Nat → Nat → ℚ} : ∀ (P : List (Nat × Nat)) (s : ℚ), (∀ p ∈ P, p.1 < n ∧ p.2 < n) →
    forList (fun s p => do let x ← readAt n wv p; pure (s + x)) P s = .ok (s + (P.map fun p => wv p.1 p.2).sum) := by
  intro P
  induction P with
  | nil => intro s _; simp [forList]
  | cons p P ih =>
    intro s h
    have e : (do let x ← readAt n wv p; pure (s + x) : Res ℚ) = .ok (s + wv p.1 p.2) := by rw [readAt, if_pos (h p (by simp))]; rfl
    rw [forList, e, ok_bind, ih _ (fun q hq => h q (by simp [hq]))]
    simp [add_assoc]

theorem tourToW_ok {t : List Nat} (h : 2 ≤ t.length) (hlt : ∀ i ∈ t, i < t.length) :
    tourToW t = .ok fun a b => if (a, b) ∈ legs t ∨ (b, a) ∈ legs t then 1 else 0 := by
  have hl := legs_mem_lt hlt
  have := forList_mark (n := t.length) (legs t) (fun _ _ => 0) hl
  rw [← this]
  conv_rhs => rw [legs_consecutive h, forList_append]
  unfold tourToW
  rw [lastNode_ok h]
  cases forList (markEdge t.length) (consecutive t) fun _ _ => 0 with
  | error e => rfl
  | ok W =>
    simp only [ok_bind, forList]
    cases markEdge t.length W (t[t.length - 1], t.headD 0) <;> rfl

theorem tourLen_ok {n : Nat} {t : List Nat} (h : 2 ≤ t.length) (hlt : ∀ i ∈ t, i < n) (wv : Nat → Nat → ℚ) : tourLen n t wv = .ok (legCost wv t) := by
  have hl := legs_mem_lt hlt
  have := forList_sum (n := n) (wv := wv) (legs t) 0 hl
  rw [zero_add] at this
  rw [legCost, ← this]
  conv_rhs => rw [legs_consecutive h, forList_append]
  unfold tourLen
  rw [lastNode_ok h]
  cases forList (fun s p => do let x ← readAt n wv p; pure (s + x)) (consecutive t) 0 with
  | error e => rfl
  | ok s =>
    simp only [ok_bind, forList]
    cases readAt n wv (t[t.length - 1], t.headD 0) <;> rfl

theorem foldl_if_sum (l : List Nat) (P : Nat → Prop) [DecidablePred P] (f : Nat → ℚ) : ∀ s : ℚ, l.foldl (fun s j => if P j then s + f j else s) s = s + (l.map fun j => if P j then f j else 0).sum := by
  induction l with
  | nil => simp
  | cons a l ih =>
    intro s
    rw [List.foldl_cons, ih]
    by_cases h : P a <;> simp [h, add_assoc]

theorem foldl_add_sum (l : List Nat) (f : Nat → ℚ) : ∀ s : ℚ, l.foldl (fun s j => s + f j) s = s + (l.map f).sum := by
  induction l with
  | nil => simp
  | cons a l ih => intro s; rw [List.foldl_cons, ih]; simp [add_assoc]

theorem range_toFinset (n : Nat) : (List.range n).toFinset = Finset.range n := by ext; simp

theorem wTourLen_eq (n : Nat) (W wv : Nat → Nat → ℚ) :
    wTourLen n W wv = (∑ p ∈ Finset.range n ×ˢ Finset.range n, if W p.1 p.2 = 1 then wv p.1 p.2 else 0) / 2 := by
  unfold wTourLen
  congr 1
  have : ∀ s i, (List.range n).foldl (fun s j => if W i j = 1 then s + wv i j else s) s = s + ((List.range n).map fun j => if W i j = 1 then wv i j else 0).sum :=
    fun s i => foldl_if_sum _ _ _ s
  simp only [this]
  rw [foldl_add_sum, zero_add, Finset.sum_product]
  rw [← List.sum_toFinset _ List.nodup_range, range_toFinset]
  refine Finset.sum_congr rfl fun i _ => ?_
  rw [← List.sum_toFinset _ List.nodup_range, range_toFinset]

theorem legs_no_back {n : Nat} (hn : 3 ≤ n) {t : List Nat} (ht : IsTour n t) {i j : Nat} (h : (i, j) ∈ legs t) : (j, i) ∉ legs t := by
  intro h'
  have hnd := ht.nodup
  have hlen := ht.length
  obtain ⟨m, hm, e1, e2⟩ := mem_legs_iff.1 h
  obtain ⟨k, hk, e3, e4⟩ := mem_legs_iff.1 h'
  rw [← e2] at e3
  rw [← e1] at e4
  have a1 := (hnd.getElem_inj_iff).1 e3
  have a2 := (hnd.getElem_inj_iff).1 e4
  rcases Nat.lt_or_ge (m + 1) t.length with h1 | h1
  · rw [Nat.mod_eq_of_lt h1] at a1
    rcases Nat.lt_or_ge (k + 1) t.length with h2 | h2
    · rw [Nat.mod_eq_of_lt h2] at a2; omega
    · rw [show k + 1 = t.length by omega, Nat.mod_self] at a2; omega
  · rw [show m + 1 = t.length by omega, Nat.mod_self] at a1
    rcases Nat.lt_or_ge (k + 1) t.length with h2 | h2
    · rw [Nat.mod_eq_of_lt h2] at a2; omega
    · omega

theorem legs_nodup' {t : List Nat} (h : t.Nodup) : (legs t).Nodup := by
  obtain ⟨s, hs⟩ := legs_eq_map h
  rw [hs]
  exact h.map fun a b e => congrArg Prod.fst e

/-- the sum over the entries of the adjacency matrix of a tour is twice its length -/
theorem sum_adjacency {n : Nat} (hn : 3 ≤ n) {t : List Nat} (ht : IsTour n t) (wv : Nat → Nat → ℚ) (hsymm : ∀ i j, wv i j = wv j i) :
    (∑ p ∈ Finset.range n ×ˢ Finset.range n, if (p.1, p.2) ∈ legs t ∨ (p.2, p.1) ∈ legs t then wv p.1 p.2 else 0) = 2 * legCost wv t := by
  have hlt := legs_mem_lt (t := t) (n := n) fun i hi => ht.mem.1 hi
  have hsum : legCost wv t = ∑ p ∈ (legs t).toFinset, wv p.1 p.2 := by
    rw [legCost, List.sum_toFinset _ (legs_nodup' ht.nodup)]
  rw [← Finset.sum_filter]
  have hset : (Finset.range n ×ˢ Finset.range n).filter (fun p => (p.1, p.2) ∈ legs t ∨ (p.2, p.1) ∈ legs t) = (legs t).toFinset ∪ (legs t).toFinset.image Prod.swap := by
    ext ⟨i, j⟩
    simp only [Finset.mem_filter, Finset.mem_product, Finset.mem_range, Finset.mem_union, List.mem_toFinset, Finset.mem_image, Prod.exists, Prod.swap_prod_mk, Prod.mk.injEq]
    constructor
    · rintro ⟨_, h | h⟩
      · exact Or.inl h
      · exact Or.inr ⟨j, i, h, rfl, rfl⟩
    · rintro (h | ⟨a, b, h, rfl, rfl⟩)
      · exact ⟨hlt _ h, Or.inl h⟩
      · exact ⟨⟨(hlt _ h).2, (hlt _ h).1⟩, Or.inr h⟩
  have hdisj : Disjoint (legs t).toFinset ((legs t).toFinset.image Prod.swap) := by
    rw [Finset.disjoint_left]
    rintro ⟨i, j⟩ h1 h2
    simp only [List.mem_toFinset, Finset.mem_image, Prod.exists, Prod.swap_prod_mk, Prod.mk.injEq] at h1 h2
    obtain ⟨a, b, h, rfl, rfl⟩ := h2
    exact legs_no_back hn ht h h1
  rw [hset, Finset.sum_union hdisj, Finset.sum_image (fun a _ b _ h => Prod.swap_injective h), hsum, two_mul]
  congr 1
  exact Finset.sum_congr rfl fun p _ => by rw [Prod.fst_swap, Prod.snd_swap, hsymm]

theorem isValidTour_iff (t : List Nat) (n : Nat) : isValidTour t n = true ↔ IsTour n t := by
  unfold isValidTour IsTour
  rw [beq_iff_eq]
  constructor
  · intro h
    exact (List.perm_insertionSort (· ≤ ·) t).symm.trans (by rw [h])
  · intro h
    have h1 : (t.insertionSort (· ≤ ·)).Perm (List.range n) := (List.perm_insertionSort (· ≤ ·) t).trans h
    refine List.Perm.eq_of_pairwise ?_ (List.pairwise_insertionSort (· ≤ ·) t) ?_ h1
    · intro a b _ _ hab hba; omega
    · have := List.pairwise_lt_range (n := n)
      exact this.imp fun h => by simpa using h.le

end Verif
