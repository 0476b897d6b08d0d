import Verif.Model.FibHeap
import Verif.Proofs.FibCirc
import Mathlib.Data.Finset.Card
import Mathlib.Data.List.Basic

namespace Verif.Fib
open Verif
set_option autoImplicit false

/-- The node memory is a heap-ordered forest on `N` with root circle `roots` and child circles `kids x`. -/
structure Core (H : Heap) (N : Finset Nat) (roots : List Nat) (kids : Nat → List Nat) : Prop where
  rN : ∀ x ∈ roots, x ∈ N
  rnd : roots.Nodup
  kN : ∀ x ∈ N, ∀ y ∈ kids x, y ∈ N
  knd : ∀ x ∈ N, (kids x).Nodup
  rpar : ∀ x ∈ roots, H.parent x = none
  kpar : ∀ x ∈ N, ∀ y ∈ kids x, H.parent y = some x
  up : ∀ y ∈ N, y ∈ roots ∨ ∃ x ∈ N, y ∈ kids x
  circR : Circ H.right H.left roots
  circK : ∀ x ∈ N, Circ H.right H.left (kids x)
  hc : ∀ x ∈ N, H.headC x = (kids x).head?
  tc : ∀ x ∈ N, H.tailC x = (kids x).getLast?
  nc : ∀ x ∈ N, H.numC x = (kids x).length
  ht : ∃ ht : Nat → Nat, ∀ x ∈ N, ∀ y ∈ kids x, ht y < ht x
  ord : ∀ x ∈ N, ∀ y ∈ kids x, H.value x ≤ H.value y
  kinj : ∀ x ∈ N, ∀ y ∈ N, H.key x = H.key y → x = y
  nt : H.numTrees = roots.length

variable {H : Heap} {N : Finset Nat} {roots : List Nat} {kids : Nat → List Nat}

theorem Core.kid_not_root (C : Core H N roots kids) {x y : Nat} (hx : x ∈ N) (hy : y ∈ kids x) : y ∉ roots := by
  intro h; have := C.rpar y h; rw [C.kpar x hx y hy] at this; simp at this

theorem Core.kid_unique (C : Core H N roots kids) {x x' y : Nat} (hx : x ∈ N) (hx' : x' ∈ N)
    (hy : y ∈ kids x) (hy' : y ∈ kids x') : x = x' := by
  have h1 := C.kpar x hx y hy; rw [C.kpar x' hx' y hy'] at h1; simpa using h1.symm

theorem Core.parent_none (C : Core H N roots kids) {y : Nat} (hy : y ∈ N) (h : H.parent y = none) : y ∈ roots := by
  rcases C.up y hy with h1 | ⟨x, hx, hyx⟩
  · exact h1
  · rw [C.kpar x hx y hyx] at h; simp at h

theorem Core.parent_some (C : Core H N roots kids) {y p : Nat} (hy : y ∈ N) (h : H.parent y = some p) :
    p ∈ N ∧ y ∈ kids p := by
  rcases C.up y hy with h1 | ⟨x, hx, hyx⟩
  · rw [C.rpar y h1] at h; simp at h
  · rw [C.kpar x hx y hyx] at h; simp at h; subst h; exact ⟨hx, hyx⟩

theorem Core.kid_ne (C : Core H N roots kids) {x y : Nat} (hx : x ∈ N) (hy : y ∈ kids x) : y ≠ x := by
  obtain ⟨ht, h⟩ := C.ht
  rintro rfl
  exact absurd (h y hx y hy) (lt_irrefl _)

/-- `link_trees` makes root `c` the last child of root `f`. -/
theorem linkTrees_core {A B : List Nat} {c f : Nat} (C : Core H N (A ++ c :: B) kids) (hf : f ∈ A ++ B)
    (hv : H.value f ≤ H.value c) :
    ∃ H', linkTrees H c f = .ok H' ∧ Core H' N (A ++ B) (upd kids f (kids f ++ [c])) ∧
      H'.value = H.value ∧ H'.key = H.key ∧ H'.numNodes = H.numNodes ∧ H'.minRoot = H.minRoot ∧
      H'.numC = upd H.numC f (H.numC f + 1) ∧ H'.marked = upd H.marked c false := by
  have hfr : f ∈ A ++ c :: B := by simp at hf ⊢; tauto
  have hcr : c ∈ A ++ c :: B := by simp
  have hfN := C.rN f hfr
  have hcN := C.rN c hcr
  have nd := C.rnd
  have hcn : c ∉ A ++ B := by
    have := (List.perm_middle (a := c) (l₁ := A) (l₂ := B)).nodup_iff.1 nd
    exact (List.nodup_cons.1 this).1
  have ndAB : (A ++ B).Nodup := by
    have := (List.perm_middle (a := c) (l₁ := A) (l₂ := B)).nodup_iff.1 nd
    exact (List.nodup_cons.1 this).2
  have hfc : f ≠ c := by rintro rfl; exact hcn hf
  obtain ⟨cr, hR, hL⟩ := circ_remove nd C.circR (by intro h; rw [h] at hf; simp at hf)
  have sub : ∀ z ∈ A ++ B, z ∈ A ++ c :: B := by intro z hz; simp at hz ⊢; tauto
  have nk : ∀ x ∈ N, ∀ z ∈ kids x, z ∉ A ++ B := fun x hx z hz h => C.kid_not_root hx hz (sub z h)
  -- the structural part common to both branches
  have key : ∀ H' : Heap, H'.value = H.value → H'.key = H.key →
      H'.parent = upd H.parent c (some f) → H'.numC = upd H.numC f (H.numC f + 1) →
      H'.numTrees = H.numTrees - 1 →
      H'.headC = upd H.headC f ((kids f ++ [c]).head?) → H'.tailC = upd H.tailC f (some c) →
      Circ H'.right H'.left (A ++ B) → (∀ x ∈ N, x ≠ f → Circ H'.right H'.left (kids x)) →
      Circ H'.right H'.left (kids f ++ [c]) → Core H' N (A ++ B) (upd kids f (kids f ++ [c])) := by
    intro H' e1 e2 e3 e4 e5 e6 e7 c1 c2 c3
    have kk : ∀ x ∈ N, ∀ y, y ∈ upd kids f (kids f ++ [c]) x → y ∈ kids x ∨ (x = f ∧ y = c) := by
      intro x _ y hy
      rw [upd_apply] at hy
      split at hy
      · rename_i h; subst h; simp at hy; tauto
      · exact Or.inl hy
    constructor
    · exact fun x hx => C.rN x (sub x hx)
    · exact ndAB
    · intro x hx y hy
      rcases kk x hx y hy with h | ⟨rfl, rfl⟩
      · exact C.kN x hx y h
      · exact hcN
    · intro x hx
      rw [upd_apply]; split
      · rename_i h; subst h
        rw [List.nodup_append]
        refine ⟨C.knd x hx, by simp, ?_⟩
        intro a ha b hb; simp at hb; subst hb; rintro rfl
        exact C.kid_not_root hx ha hcr
      · exact C.knd x hx
    · intro x hx
      rw [e3, upd_ne _ _ (by rintro rfl; exact hcn hx)]; exact C.rpar x (sub x hx)
    · intro x hx y hy
      rw [e3]
      rcases kk x hx y hy with h | ⟨rfl, rfl⟩
      · rw [upd_ne _ _ (by rintro rfl; exact C.kid_not_root hx h hcr)]; exact C.kpar x hx y h
      · simp
    · intro y hy
      by_cases hyc : y = c
      · right; exact ⟨f, hfN, by simp [hyc]⟩
      · rcases C.up y hy with h | ⟨x, hx, h⟩
        · left; simp at h ⊢; tauto
        · right; refine ⟨x, hx, ?_⟩
          rw [upd_apply]; split
          · rename_i he; subst he; simp [h]
          · exact h
    · exact c1
    · intro x hx
      rw [upd_apply]; split
      · rename_i h; subst h; exact c3
      · rename_i h; exact c2 x hx h
    · intro x hx
      rw [e6]; simp only [upd_apply]; split
      · rfl
      · exact C.hc x hx
    · intro x hx
      rw [e7]; simp only [upd_apply]; split
      · simp
      · exact C.tc x hx
    · intro x hx
      rw [e4]; simp only [upd_apply]; split
      · rename_i h; subst h; simp [C.nc x hx]
      · exact C.nc x hx
    · obtain ⟨ht, hht⟩ := C.ht
      refine ⟨upd ht f (max (ht f) (ht c + 1)), ?_⟩
      intro x hx y hy
      rcases kk x hx y hy with h | ⟨rfl, rfl⟩
      · have hyf : y ≠ f := by rintro rfl; exact C.kid_not_root hx h hfr
        rw [upd_ne _ _ hyf, upd_apply]
        have := hht x hx y h
        split
        · rename_i he; subst he; omega
        · exact this
      · rw [upd_ne _ _ (Ne.symm hfc)]; simp
    · intro x hx y hy
      rw [e1]
      rcases kk x hx y hy with h | ⟨rfl, rfl⟩
      · exact C.ord x hx y h
      · exact hv
    · intro x hx y hy; rw [e2]; exact C.kinj x hx y hy
    · rw [e5, C.nt]; simp
  -- circles after unlinking c
  have cK1 : ∀ x ∈ N, Circ (upd H.right (H.left c) (H.right c)) (upd H.left (H.right c) (H.left c)) (kids x) := by
    intro x hx
    rw [circ_frameR (fun h => nk x hx _ h hL), circ_frameL (fun h => nk x hx _ h hR)]
    exact C.circK x hx
  unfold linkTrees unlink
  simp only [upd_self]
  have hcK : ∀ x ∈ N, c ∉ kids x := fun x hx h => C.kid_not_root hx h hcr
  by_cases h1 : H.numC f + 1 = 1
  · have hk : kids f = [] := by
      have := C.nc f hfN; rw [← List.length_eq_zero_iff]; omega
    simp only [h1, ↓reduceIte, pure_eq_ok]
    refine ⟨_, rfl, key _ rfl rfl rfl (by simp [h1]) rfl (by simp [hk]) rfl ?_ ?_ ?_, rfl, rfl, rfl, rfl, by simp [h1], rfl⟩
    · simp only
      rw [circ_frameR hcn, circ_frameL hcn]; exact cr
    · intro x hx _
      simp only
      rw [circ_frameR (hcK x hx), circ_frameL (hcK x hx)]; exact cK1 x hx
    · simp [hk]
  · simp only [h1, ↓reduceIte]
    have hk : kids f ≠ [] := by
      intro h; have := C.nc f hfN; rw [h] at this; simp at this; omega
    obtain ⟨h, hh⟩ : ∃ h, (kids f).head? = some h := by
      cases hkf : kids f with
      | nil => exact absurd hkf hk
      | cons a l => exact ⟨a, rfl⟩
    obtain ⟨t, htl⟩ : ∃ t, (kids f).getLast? = some t := ⟨_, List.getLast?_eq_getLast_of_ne_nil hk⟩
    have hhm : h ∈ kids f := List.mem_of_head? hh
    have htm : t ∈ kids f := List.mem_of_getLast? htl
    rw [C.tc f hfN, C.hc f hfN, hh, htl]
    simp only [deref_some, ok_bind, pure_eq_ok]
    refine ⟨_, rfl, key _ rfl rfl rfl rfl rfl ?_ rfl ?_ ?_ ?_, rfl, rfl, rfl, rfl, rfl, rfl⟩
    · funext z; simp only [upd_apply]; split
      · rename_i hz; subst hz; rw [C.hc z hfN, List.head?_append, hh]; rfl
      · rfl
    · simp only
      rw [circ_frameR hcn, circ_frameL hcn, circ_frameR (nk f hfN t htm), circ_frameL (nk f hfN h hhm)]; exact cr
    · intro x hx hxf
      simp only
      rw [circ_frameR (hcK x hx), circ_frameL (hcK x hx),
        circ_frameR (fun hm => hxf (C.kid_unique hx hfN hm htm)),
        circ_frameL (fun hm => hxf (C.kid_unique hx hfN hm hhm))]
      exact cK1 x hx
    · exact circ_append (C.knd f hfN) (hcK f hfN) (Or.inl (cK1 f hfN)) hh htl

/-- `cut` moves a child to the end of the root list. -/
theorem cut_core {A B : List Nat} {y p : Nat} (C : Core H N roots kids) (hp : p ∈ N) (hk : kids p = A ++ y :: B)
    (hne : roots ≠ []) (hhd : H.head = roots.head?) (htl : H.tail = roots.getLast?) :
    ∃ H', cut H y p = .ok H' ∧ Core H' N (roots ++ [y]) (upd kids p (A ++ B)) ∧
      H'.head = H.head ∧ H'.tail = some y ∧
      H'.value = H.value ∧ H'.key = H.key ∧ H'.numNodes = H.numNodes ∧ H'.minRoot = H.minRoot ∧
      H'.numC = upd H.numC p (H.numC p - 1) ∧ H'.marked = upd H.marked y false := by
  have hy : y ∈ kids p := by rw [hk]; simp
  have hyN := C.kN p hp y hy
  have hyr := C.kid_not_root hp hy
  obtain ⟨h, hh⟩ : ∃ h, roots.head? = some h := by
    cases hr : roots with
    | nil => exact absurd hr hne
    | cons a l => exact ⟨a, rfl⟩
  obtain ⟨t, ht⟩ : ∃ t, roots.getLast? = some t := ⟨_, List.getLast?_eq_getLast_of_ne_nil hne⟩
  have hhm : h ∈ roots := List.mem_of_head? hh
  have htm : t ∈ roots := List.mem_of_getLast? ht
  have ndk : (A ++ y :: B).Nodup := hk ▸ C.knd p hp
  have ndk' := (List.perm_middle (a := y) (l₁ := A) (l₂ := B)).nodup_iff.1 ndk
  have hyAB : y ∉ A ++ B := (List.nodup_cons.1 ndk').1
  have ndAB : (A ++ B).Nodup := (List.nodup_cons.1 ndk').2
  have sub : ∀ z ∈ A ++ B, z ∈ kids p := by intro z hz; rw [hk]; simp at hz ⊢; tauto
  have key : ∀ H' : Heap, H'.value = H.value → H'.key = H.key →
      H'.parent = upd H.parent y none → H'.numC = upd H.numC p (H.numC p - 1) →
      H'.numTrees = H.numTrees + 1 →
      H'.headC = upd H.headC p ((A ++ B).head?) → H'.tailC = upd H.tailC p ((A ++ B).getLast?) →
      Circ H'.right H'.left (roots ++ [y]) → (∀ x ∈ N, x ≠ p → Circ H'.right H'.left (kids x)) →
      Circ H'.right H'.left (A ++ B) → Core H' N (roots ++ [y]) (upd kids p (A ++ B)) := by
    intro H' e1 e2 e3 e4 e5 e6 e7 c1 c2 c3
    have kk : ∀ x ∈ N, ∀ z, z ∈ upd kids p (A ++ B) x → z ∈ kids x ∧ z ≠ y := by
      intro x hx z hz
      rw [upd_apply] at hz
      split at hz
      · rename_i h; subst h; exact ⟨sub z hz, by rintro rfl; exact hyAB hz⟩
      · rename_i h; refine ⟨hz, ?_⟩
        rintro rfl; exact h (C.kid_unique hx hp hz hy)
    constructor
    · intro x hx; simp at hx
      rcases hx with hx | rfl
      · exact C.rN x hx
      · exact hyN
    · rw [List.nodup_append]
      refine ⟨C.rnd, by simp, ?_⟩
      intro a ha b hb; simp at hb; subst hb; rintro rfl; exact hyr ha
    · intro x hx z hz; exact C.kN x hx z (kk x hx z hz).1
    · intro x hx
      rw [upd_apply]; split
      · exact ndAB
      · exact C.knd x hx
    · intro x hx; simp at hx
      rw [e3, upd_apply]; split
      · rfl
      · rename_i h; exact C.rpar x (by tauto)
    · intro x hx z hz
      rw [e3, upd_ne _ _ (kk x hx z hz).2]; exact C.kpar x hx z (kk x hx z hz).1
    · intro z hz
      by_cases hzy : z = y
      · left; simp [hzy]
      · rcases C.up z hz with h | ⟨x, hx, h⟩
        · left; simp [h]
        · right; refine ⟨x, hx, ?_⟩
          rw [upd_apply]; split
          · rename_i he; subst he; rw [hk] at h; simp at h ⊢; tauto
          · exact h
    · exact c1
    · intro x hx
      rw [upd_apply]; split
      · exact c3
      · rename_i h; exact c2 x hx h
    · intro x hx
      rw [e6]; simp only [upd_apply]; split
      · rfl
      · exact C.hc x hx
    · intro x hx
      rw [e7]; simp only [upd_apply]; split
      · rfl
      · exact C.tc x hx
    · intro x hx
      rw [e4]; simp only [upd_apply]; split
      · rename_i h; subst h; rw [C.nc x hx, hk]; simp
      · exact C.nc x hx
    · obtain ⟨ht, hht⟩ := C.ht
      exact ⟨ht, fun x hx z hz => hht x hx z (kk x hx z hz).1⟩
    · intro x hx z hz; rw [e1]; exact C.ord x hx z (kk x hx z hz).1
    · intro x hx z hz; rw [e2]; exact C.kinj x hx z hz
    · rw [e5, C.nt]; simp
  have hpn : H.numC p = A.length + B.length + 1 := by rw [C.nc p hp, hk]; simp; omega
  unfold cut appendRoot unlink
  simp only [upd_self]
  by_cases h0 : H.numC p - 1 = 0
  · have hA : A = [] := List.length_eq_zero_iff.1 (by omega)
    have hB : B = [] := List.length_eq_zero_iff.1 (by omega)
    subst hA hB
    simp only [h0, ↓reduceIte, pure_eq_ok, ok_bind, hhd, htl, hh, ht, deref_some]
    refine ⟨_, rfl, key _ rfl rfl rfl (by simp [h0]) rfl rfl rfl ?_ ?_ ?_, rfl, rfl, rfl, rfl, rfl, rfl, by simp [h0], rfl⟩
    · exact circ_append C.rnd hyr (Or.inl C.circR) hh ht
    · intro x hx hxp
      have hny : y ∉ kids x := fun hm => hxp (C.kid_unique hx hp hm hy)
      simp only
      rw [circ_frameR hny, circ_frameL hny, circ_frameR (fun hm => C.kid_not_root hx hm htm),
        circ_frameL (fun hm => C.kid_not_root hx hm hhm)]
      exact C.circK x hx
    · simp
  · simp only [h0, ↓reduceIte]
    have hABne : A ++ B ≠ [] := by
      intro h; have := congrArg List.length h; simp at this
      rw [this.1, this.2] at hpn; simp at hpn; omega
    have cK := hk ▸ C.circK p hp
    obtain ⟨cr, hR, hL⟩ := circ_remove ndk cK hABne
    have nR : H.right y ∉ roots := C.kid_not_root hp (sub _ hR)
    have nL : H.left y ∉ roots := C.kid_not_root hp (sub _ hL)
    have c1 : Circ (upd H.right (H.left y) (H.right y)) (upd H.left (H.right y) (H.left y)) roots := by
      rw [circ_frameR nL, circ_frameL nR]; exact C.circR
    have c2 : ∀ x ∈ N, x ≠ p → Circ (upd H.right (H.left y) (H.right y)) (upd H.left (H.right y) (H.left y)) (kids x) := by
      intro x hx hxp
      rw [circ_frameR (fun hm => hxp (C.kid_unique hx hp hm (sub _ hL))),
        circ_frameL (fun hm => hxp (C.kid_unique hx hp hm (sub _ hR)))]
      exact C.circK x hx
    -- the three final circles
    have d1 := circ_append C.rnd hyr (Or.inl c1) hh ht
    have d2 : ∀ x ∈ N, x ≠ p → Circ (upd (upd (upd H.right (H.left y) (H.right y)) t y) y h)
        (upd (upd (upd H.left (H.right y) (H.left y)) h y) y t) (kids x) := by
      intro x hx hxp
      have hny : y ∉ kids x := fun hm => hxp (C.kid_unique hx hp hm hy)
      rw [circ_frameR hny, circ_frameL hny, circ_frameR (fun hm => C.kid_not_root hx hm htm),
        circ_frameL (fun hm => C.kid_not_root hx hm hhm)]
      exact c2 x hx hxp
    have d3 : Circ (upd (upd (upd H.right (H.left y) (H.right y)) t y) y h)
        (upd (upd (upd H.left (H.right y) (H.left y)) h y) y t) (A ++ B) := by
      rw [circ_frameR hyAB, circ_frameL hyAB, circ_frameR (fun hm => C.kid_not_root hp (sub _ hm) htm),
        circ_frameL (fun hm => C.kid_not_root hp (sub _ hm) hhm)]
      exact cr
    obtain ⟨kh, hkh⟩ : ∃ a, (A ++ y :: B).head? = some a := by cases A <;> simp
    obtain ⟨kt, hkt⟩ : ∃ a, (A ++ y :: B).getLast? = some a := ⟨_, List.getLast?_eq_getLast_of_ne_nil (by simp)⟩
    have hkhm : kh ∈ kids p := by rw [hk]; exact List.mem_of_head? hkh
    have hktm : kt ∈ kids p := by rw [hk]; exact List.mem_of_getLast? hkt
    have ehk : (H.key kh = H.key y) ↔ kh = y :=
      ⟨C.kinj kh (C.kN p hp kh hkhm) y hyN, fun h => by rw [h]⟩
    have etk : (H.key kt = H.key y) ↔ kt = y :=
      ⟨C.kinj kt (C.kN p hp kt hktm) y hyN, fun h => by rw [h]⟩
    -- new head and tail
    have eh : (if kh = y then some (H.right y) else some kh) = (A ++ B).head? := by
      cases A with
      | nil =>
        simp at hkh; subst hkh
        cases B with
        | nil => simp at hABne
        | cons b B => simp [circ_head_next cK]
      | cons a A =>
        simp at hkh; subst hkh
        have : a ≠ y := by rintro rfl; exact hyAB (by simp)
        simp [this]
    have et : (if kt = y then some (H.left y) else some kt) = (A ++ B).getLast? := by
      rcases List.eq_nil_or_concat B with rfl | ⟨B, b, rfl⟩
      · have e1 : kt = y := by simpa using hkt.symm
        rcases List.eq_nil_or_concat A with rfl | ⟨A, a, rfl⟩
        · simp at hABne
        · have := circ_last_prev (A := A) (x := a) (y := y) (by simpa using cK)
          simp [e1, this]
      · have e1 : kt = b := by
          rw [List.concat_eq_append, ← List.cons_append, ← List.append_assoc, List.getLast?_append] at hkt
          simpa using hkt.symm
        have : b ≠ y := by rintro rfl; exact hyAB (by simp)
        subst e1
        rw [List.concat_eq_append, ← List.append_assoc, List.getLast?_append]
        simp [this]
    simp only [C.hc p hp, C.tc p hp, hk, hkh, hkt, deref_some, ok_bind]
    by_cases e1 : kh = y <;> by_cases e2 : kt = y
    · have e1' := ehk.2 e1
      have e2' := etk.2 e2
      rw [if_pos e1] at eh; rw [if_pos e2] at et
      simp only [e1', C.tc p hp, hk, hkt, deref_some, ok_bind, e2', ↓reduceIte, pure_eq_ok, hhd, htl, hh, ht]
      refine ⟨_, rfl, key _ rfl rfl rfl rfl rfl (by simp only [← eh]) (by simp only [← et]) d1 d2 d3, rfl, rfl, rfl, rfl, rfl, rfl, rfl, rfl⟩
    · have e1' := ehk.2 e1
      have e2' : ¬ H.key kt = H.key y := fun h => e2 (etk.1 h)
      rw [if_pos e1] at eh; rw [if_neg e2] at et
      simp only [e1', C.tc p hp, hk, hkt, deref_some, ok_bind, e2', ↓reduceIte, pure_eq_ok, hhd, htl, hh, ht]
      refine ⟨_, rfl, key _ rfl rfl rfl rfl rfl (by simp only [← eh]) ?_ d1 d2 d3, rfl, rfl, rfl, rfl, rfl, rfl, rfl, rfl⟩
      funext z; simp only [upd_apply]; split
      · rename_i hz; subst hz; rw [C.tc z hp, hk, hkt, et]
      · rfl
    · have e1' : ¬ H.key kh = H.key y := fun h => e1 (ehk.1 h)
      have e2' := etk.2 e2
      rw [if_neg e1] at eh; rw [if_pos e2] at et
      simp only [e1', C.tc p hp, hk, hkt, deref_some, ok_bind, e2', ↓reduceIte, pure_eq_ok, hhd, htl, hh, ht]
      refine ⟨_, rfl, key _ rfl rfl rfl rfl rfl ?_ (by simp only [← et]) d1 d2 d3, rfl, rfl, rfl, rfl, rfl, rfl, rfl, rfl⟩
      funext z; simp only [upd_apply]; split
      · rename_i hz; subst hz; rw [C.hc z hp, hk, hkh, eh]
      · rfl
    · have e1' : ¬ H.key kh = H.key y := fun h => e1 (ehk.1 h)
      have e2' : ¬ H.key kt = H.key y := fun h => e2 (etk.1 h)
      rw [if_neg e1] at eh; rw [if_neg e2] at et
      simp only [e1', C.tc p hp, hk, hkt, deref_some, ok_bind, e2', ↓reduceIte, pure_eq_ok, hhd, htl, hh, ht]
      refine ⟨_, rfl, key _ rfl rfl rfl rfl rfl ?_ ?_ d1 d2 d3, rfl, rfl, rfl, rfl, rfl, rfl, rfl, rfl⟩
      · funext z; simp only [upd_apply]; split
        · rename_i hz; subst hz; rw [C.hc z hp, hk, hkh, eh]
        · rfl
      · funext z; simp only [upd_apply]; split
        · rename_i hz; subst hz; rw [C.tc z hp, hk, hkt, et]
        · rfl

end Verif.Fib
