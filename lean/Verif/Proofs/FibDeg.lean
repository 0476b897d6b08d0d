import Verif.Proofs.FibCore
import Mathlib.Data.Nat.Fib.Basic
import Mathlib.Data.Finset.Lattice.Fold
import Mathlib.Logic.Relation
import Mathlib.Algebra.BigOperators.Group.Finset.Basic
import Mathlib.Algebra.Order.BigOperators.Group.Finset

namespace Verif.Fib
open Verif
set_option autoImplicit false

/-- degree invariant with one node `e` excepted by one -/
def DegE (H : Heap) (N : Finset Nat) (kids : Nat → List Nat) (e : Nat) : Prop :=
  ∀ x ∈ N, ∀ (i y : Nat), (kids x)[i]? = some y →
    i ≤ H.numC y + (if H.marked y then 1 else 0) + (if y = e then 1 else 0)

/-- degree invariant: the `i`-th child has at least `i` children, or `i - 1` and a mark -/
def Deg (H : Heap) (N : Finset Nat) (kids : Nat → List Nat) : Prop :=
  ∀ x ∈ N, ∀ (i y : Nat), (kids x)[i]? = some y → i ≤ H.numC y + (if H.marked y then 1 else 0)

variable {H : Heap} {N : Finset Nat} {roots : List Nat} {kids : Nat → List Nat}

theorem Deg.toE (h : Deg H N kids) (e : Nat) : DegE H N kids e :=
  fun x hx i y hy => le_trans (h x hx i y hy) (Nat.le_add_right _ _)

theorem deg_link {H' : Heap} {c f : Nat} (C : Core H N roots kids) (D : Deg H N kids)
    (hc : c ∈ roots) (hf : f ∈ roots) (hcf : c ≠ f) (heq : H.numC c = H.numC f)
    (e1 : H'.numC = upd H.numC f (H.numC f + 1)) (e2 : H'.marked = upd H.marked c false) :
    Deg H' N (upd kids f (kids f ++ [c])) := by
  have old : ∀ x ∈ N, ∀ (i y : Nat), (kids x)[i]? = some y → i ≤ H'.numC y + (if H'.marked y then 1 else 0) := by
    intro x hx i y hy
    have hm : y ∈ kids x := List.mem_of_getElem? hy
    have hyc : y ≠ c := by rintro rfl; exact C.kid_not_root hx hm hc
    have := D x hx i y hy
    have h1 : H.numC y ≤ H'.numC y := by
      rw [e1, upd_apply]; split
      · rename_i h; subst h; omega
      · exact le_refl _
    rw [e2, upd_ne _ _ hyc]; omega
  intro x hx i y hy
  rw [upd_apply] at hy
  split at hy
  · rename_i h; subst h
    rw [List.getElem?_append] at hy
    split at hy
    · exact old x hx i y hy
    · rename_i hlt
      have h1 : i - (kids x).length < 1 := by simpa using (List.getElem?_eq_some_iff.1 hy).1
      have h2 : i - (kids x).length = 0 := by omega
      rw [h2] at hy; simp at hy; subst hy
      rw [e1, upd_ne _ _ hcf, heq, C.nc x hx]; omega
  · exact old x hx i y hy

theorem deg_cut {H' : Heap} {A B : List Nat} {y p : Nat} (C : Core H N roots kids) (D : DegE H N kids y) (hp : p ∈ N)
    (hk : kids p = A ++ y :: B)
    (e1 : H'.numC = upd H.numC p (H.numC p - 1)) (e2 : H'.marked = upd H.marked y false) :
    DegE H' N (upd kids p (A ++ B)) p := by
  have hyk : y ∈ kids p := by rw [hk]; simp
  have nd := C.knd p hp
  rw [hk] at nd
  have hyAB : y ∉ A ++ B := (List.nodup_cons.1 ((List.perm_middle (a := y) (l₁ := A) (l₂ := B)).nodup_iff.1 nd)).1
  have hyp : y ≠ p := C.kid_ne hp hyk
  have old : ∀ x ∈ N, ∀ (i z : Nat), (kids x)[i]? = some z → z ≠ y →
      i ≤ H'.numC z + (if H'.marked z then 1 else 0) + (if z = p then 1 else 0) := by
    intro x hx i z hz hzy
    have := D x hx i z hz
    simp only [hzy, ↓reduceIte, Nat.add_zero] at this
    rw [e1, e2, upd_ne _ _ hzy, upd_apply]
    split <;> rename_i h
    · subst h; simp; omega
    · simp; omega
  intro x hx i z hz
  rw [upd_apply] at hz
  split at hz
  · rename_i h; subst h
    have hzy : z ≠ y := by rintro rfl; exact hyAB (List.mem_of_getElem? hz)
    rw [List.getElem?_append] at hz
    split at hz
    · rename_i hlt
      exact old x hx i z (by rw [hk, List.getElem?_append_left hlt]; exact hz) hzy
    · rename_i hlt
      have := old x hx (i + 1) z (by
        rw [hk, List.getElem?_append_right (by omega),
          show i + 1 - A.length = (i - A.length) + 1 by omega, List.getElem?_cons_succ]; exact hz) hzy
      omega
  · rename_i h
    have hzy : z ≠ y := by
      rintro rfl; exact h (C.kid_unique hx hp (List.mem_of_getElem? hz) hyk)
    exact old x hx i z hz hzy

/-- every node is at or below a root, whose value is at most its own -/
theorem Core.root_le (C : Core H N roots kids) {x : Nat} (hx : x ∈ N) : ∃ r ∈ roots, H.value r ≤ H.value x := by
  obtain ⟨ht, hht⟩ := C.ht
  have : ∀ d x, x ∈ N → N.sup ht - ht x ≤ d → ∃ r ∈ roots, H.value r ≤ H.value x := by
    intro d
    induction d with
    | zero =>
      intro x hx hd
      rcases C.up x hx with h | ⟨p, hp, hk⟩
      · exact ⟨x, h, le_refl _⟩
      · have h1 := hht p hp x hk
        have h2 := Finset.le_sup (f := ht) hp
        omega
    | succ d ih =>
      intro x hx hd
      rcases C.up x hx with h | ⟨p, hp, hk⟩
      · exact ⟨x, h, le_refl _⟩
      · have h1 := hht p hp x hk
        have h2 := Finset.le_sup (f := ht) hp
        obtain ⟨r, hr, hv⟩ := ih p hp (by omega)
        exact ⟨r, hr, le_trans hv (C.ord p hp x hk)⟩
  exact this _ x hx (le_refl _)

/-- `z` is `x` or below it, following parent pointers -/
def Desc (H : Heap) (z x : Nat) : Prop := Relation.ReflTransGen (fun a b => H.parent a = some b) z x

theorem desc_linear {z a b : Nat} (h1 : Desc H z a) (h2 : Desc H z b) : Desc H a b ∨ Desc H b a := by
  unfold Desc at *
  induction h1 using Relation.ReflTransGen.head_induction_on with
  | refl => exact Or.inl h2
  | head hz h ih =>
    rename_i z w
    rcases Relation.ReflTransGen.cases_head h2 with rfl | ⟨w', hw', h2'⟩
    · exact Or.inr (Relation.ReflTransGen.head hz h)
    · rw [hz] at hw'; simp at hw'; subst hw'; exact ih h2'

/-- size of the subtree is at least a Fibonacci number -/
theorem fib_sum (k : Nat) : 1 + (Finset.range k).sum (fun i => Nat.fib (i - 1 + 2)) ≥ Nat.fib (k + 2) := by
  induction k with
  | zero => simp
  | succ k ih =>
    rw [Finset.sum_range_succ]
    have : Nat.fib (k + 1 + 2) = Nat.fib (k + 1) + Nat.fib (k + 2) := Nat.fib_add_two
    have h2 : Nat.fib (k + 1) ≤ Nat.fib (k - 1 + 2) := Nat.fib_mono (by omega)
    omega

theorem sum_range_le (l : List Nat) (g : Nat → Nat) (h : ∀ i (hi : i < l.length), g i ≤ l[i]) :
    (Finset.range l.length).sum g ≤ l.sum := by
  induction l generalizing g with
  | nil => simp
  | cons a l ih =>
    rw [List.length_cons, Finset.sum_range_succ']
    have h1 := ih (fun i => g (i + 1)) (fun i hi => h (i + 1) (by simpa using hi))
    have h2 : g 0 ≤ a := h 0 (by simp)
    simp; omega

theorem Core.subtree (C : Core H N roots kids) (D : Deg H N kids) {x : Nat} (hx : x ∈ N) :
    Nat.fib (H.numC x + 2) ≤ N.card := by
  classical
  obtain ⟨ht, hht⟩ := C.ht
  have hht' : ∀ z x, z ∈ N → Desc H z x → x ∈ N ∧ ht z ≤ ht x := by
    intro z x hz h
    induction h with
    | refl => exact ⟨hz, le_refl _⟩
    | tail _ hb ih =>
      obtain ⟨h1, h2⟩ := C.parent_some ih.1 hb
      exact ⟨h1, le_trans ih.2 (hht _ h1 _ h2).le⟩
  have main : ∀ h x, x ∈ N → ht x < h → ∃ S : Finset Nat, S ⊆ N ∧ (∀ z ∈ S, Desc H z x) ∧
      Nat.fib (H.numC x + 2) ≤ S.card := by
    intro h
    induction h with
    | zero => intro x _ h; omega
    | succ h ih =>
      intro x hx hlt
      -- subtrees of the children
      have hk : ∀ y, ∃ S : Finset Nat, y ∈ kids x → S ⊆ N ∧ (∀ z ∈ S, Desc H z y) ∧
          Nat.fib (H.numC y + 2) ≤ S.card := by
        intro y
        by_cases hy : y ∈ kids x
        · obtain ⟨S, hS⟩ := ih y (C.kN x hx y hy) (by have := hht x hx y hy; omega)
          exact ⟨S, fun _ => hS⟩
        · exact ⟨∅, fun h => absurd h hy⟩
      choose S hS using hk
      let K := (kids x).toFinset
      refine ⟨insert x (K.biUnion S), ?_, ?_, ?_⟩
      · intro z hz
        simp only [Finset.mem_insert, Finset.mem_biUnion, K, List.mem_toFinset] at hz
        rcases hz with rfl | ⟨y, hy, hz⟩
        · exact hx
        · exact (hS y hy).1 hz
      · intro z hz
        simp only [Finset.mem_insert, Finset.mem_biUnion, K, List.mem_toFinset] at hz
        rcases hz with rfl | ⟨y, hy, hz⟩
        · exact .refl
        · exact .tail ((hS y hy).2.1 z hz) (C.kpar x hx y hy)
      · have disj : ∀ a ∈ K, ∀ b ∈ K, a ≠ b → Disjoint (S a) (S b) := by
          intro a ha b hb hab
          simp only [K, List.mem_toFinset] at ha hb
          rw [Finset.disjoint_left]
          intro z hza hzb
          have key : ∀ a b, a ∈ kids x → b ∈ kids x → a ≠ b → ¬ Desc H a b := by
            intro a b ha hb hab hd
            rcases Relation.ReflTransGen.cases_head hd with rfl | ⟨w, hw, hd'⟩
            · exact hab rfl
            · rw [C.kpar x hx a ha] at hw; simp at hw; subst hw
              have := (hht' x b hx hd').2
              have := hht x hx b hb
              omega
          rcases desc_linear ((hS a ha).2.1 z hza) ((hS b hb).2.1 z hzb) with h | h
          · exact key a b ha hb hab h
          · exact key b a hb ha (Ne.symm hab) h
        have hxn : x ∉ K.biUnion S := by
          intro hz
          simp only [Finset.mem_biUnion, K, List.mem_toFinset] at hz
          obtain ⟨y, hy, hz⟩ := hz
          have h1 := (hht' x y hx ((hS y hy).2.1 x hz)).2
          have h2 := hht x hx y hy
          omega
        rw [Finset.card_insert_of_notMem hxn, Finset.card_biUnion disj]
        have hsum : (Finset.range (kids x).length).sum (fun i => Nat.fib (i - 1 + 2)) ≤ K.sum (fun u => (S u).card) := by
          have e : K.sum (fun u => (S u).card) = ((kids x).map (fun u => (S u).card)).sum := by
            simp only [K]
            rw [List.sum_toFinset _ (C.knd x hx)]
          rw [e]
          have h0 := sum_range_le ((kids x).map (fun u => (S u).card)) (fun i => Nat.fib (i - 1 + 2)) (by
            intro i hi
            simp only [List.length_map] at hi
            have hg : (kids x)[i]? = some (kids x)[i] := by simp [hi]
            have h1 := D x hx i _ hg
            have h2 := (hS (kids x)[i] (List.getElem_mem hi)).2.2
            simp only [List.getElem_map]
            refine le_trans (Nat.fib_mono ?_) h2
            split at h1 <;> omega)
          simpa using h0
        have := fib_sum (kids x).length
        rw [C.nc x hx]; omega
  obtain ⟨S, h1, _, h2⟩ := main (ht x + 1) x hx (Nat.lt_succ_self _)
  exact le_trans h2 (Finset.card_le_card h1)

end Verif.Fib
