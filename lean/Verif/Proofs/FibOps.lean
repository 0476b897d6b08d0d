import Verif.Proofs.FibDeg

namespace Verif.Fib
open Verif
set_option autoImplicit false

/-- the heap invariant -/
structure Inv (H : Heap) (N : Finset Nat) (roots : List Nat) (kids : Nat → List Nat) : Prop where
  core : Core H N roots kids
  deg : Deg H N kids
  hd : H.head = roots.head?
  tl : H.tail = roots.getLast?
  num : H.numNodes = N.card
  min : (roots = [] ∧ H.minRoot = none) ∨ ∃ m ∈ roots, H.minRoot = some m ∧ ∀ r ∈ roots, H.value m ≤ H.value r

variable {H : Heap} {N : Finset Nat} {roots : List Nat} {kids : Nat → List Nat}

theorem Inv.roots_nil (I : Inv H N roots kids) : roots = [] ↔ N = ∅ := by
  constructor
  · intro h
    rw [Finset.eq_empty_iff_forall_notMem]
    intro x hx
    obtain ⟨r, hr, _⟩ := I.core.root_le hx
    rw [h] at hr; simp at hr
  · intro h
    cases hr : roots with
    | nil => rfl
    | cons a l =>
      have := I.core.rN a (by rw [hr]; simp)
      rw [h] at this; simp at this

theorem Inv.min_le (I : Inv H N roots kids) {m x : Nat} (hm : H.minRoot = some m) (hx : x ∈ N) :
    m ∈ roots ∧ H.value m ≤ H.value x := by
  rcases I.min with ⟨h, h2⟩ | ⟨m', h1, h2, h3⟩
  · rw [hm] at h2; simp at h2
  · rw [hm] at h2; simp at h2; subst h2
    obtain ⟨r, hr, hv⟩ := I.core.root_le hx
    exact ⟨h1, le_trans (h3 r hr) hv⟩

theorem inv_create (H : Heap) : Inv (createHeap H) ∅ [] (fun _ => []) := by
  constructor
  · constructor <;> simp [createHeap]
  · intro x hx; simp at hx
  all_goals simp [createHeap]

/-- changing only fields the forest does not use -/
theorem Core.congr {H' : Heap} (C : Core H N roots kids)
    (e1 : H'.key = H.key) (e2 : H'.value = H.value) (e3 : H'.parent = H.parent) (e4 : H'.left = H.left)
    (e5 : H'.right = H.right) (e6 : H'.headC = H.headC) (e7 : H'.tailC = H.tailC) (e8 : H'.numC = H.numC)
    (e9 : H'.numTrees = H.numTrees) : Core H' N roots kids := by
  obtain ⟨a1, a2, a3, a4, a5, a6, a7, a8, a9, a10, a11, a12, a13, a14, a15, a16⟩ := C
  constructor
  · exact a1
  · exact a2
  · exact a3
  · exact a4
  · rw [e3]; exact a5
  · rw [e3]; exact a6
  · exact a7
  · rw [e4, e5]; exact a8
  · rw [e4, e5]; exact a9
  · rw [e6]; exact a10
  · rw [e7]; exact a11
  · rw [e8]; exact a12
  · exact a13
  · rw [e2]; exact a14
  · rw [e1]; exact a15
  · rw [e9]; exact a16

/-- changing the values, keeping the heap order -/
theorem Core.setValue (C : Core H N roots kids) (w : Nat → ℚ)
    (h : ∀ x ∈ N, ∀ y ∈ kids x, w x ≤ w y) : Core { H with value := w } N roots kids := by
  obtain ⟨a1, a2, a3, a4, a5, a6, a7, a8, a9, a10, a11, a12, a13, a14, a15, a16⟩ := C
  exact ⟨a1, a2, a3, a4, a5, a6, a7, a8, a9, a10, a11, a12, a13, h, a15, a16⟩

/-- inserting a fresh node -/
theorem insert_inv (I : Inv H N roots kids) {x k : Nat} {v : ℚ} (hx : x ∉ N) (hk : ∀ y ∈ N, H.key y ≠ k) :
    ∃ H' kids', createInsertNode H x k v = .ok H' ∧ Inv H' (insert x N) (roots ++ [x]) kids' ∧
      (∀ y, H'.value y = if y = x then v else H.value y) ∧ (∀ y, H'.key y = if y = x then k else H.key y) := by
  have C := I.core
  have hxr : x ∉ roots := fun h => hx (C.rN x h)
  have hxk : ∀ y ∈ N, x ∉ kids y := fun y hy h => hx (C.kN y hy x h)
  have hne : ∀ y ∈ N, y ≠ x := by rintro y hy rfl; exact hx hy
  -- structural part
  have key : ∀ H' : Heap, H'.value = upd H.value x v → H'.key = upd H.key x k →
      H'.parent = upd H.parent x none → H'.numC = upd H.numC x 0 → H'.numTrees = H.numTrees + 1 →
      H'.headC = upd H.headC x none → H'.tailC = upd H.tailC x none → H'.marked = upd H.marked x false →
      Circ H'.right H'.left (roots ++ [x]) → (∀ y ∈ N, Circ H'.right H'.left (kids y)) →
      Core H' (insert x N) (roots ++ [x]) (upd kids x []) ∧ Deg H' (insert x N) (upd kids x []) := by
    intro H' e1 e2 e3 e4 e5 e6 e7 e8 c1 c2
    have kk : ∀ y ∈ insert x N, ∀ z, z ∈ upd kids x [] y → y ∈ N ∧ z ∈ kids y ∧ z ∈ N ∧ y ≠ x ∧ z ≠ x := by
      intro y hy z hz
      rw [upd_apply] at hz
      split at hz
      · simp at hz
      · rename_i h
        have hyN : y ∈ N := by simpa [h] using hy
        have := C.kN y hyN z hz
        exact ⟨hyN, hz, this, h, hne z this⟩
    refine ⟨?_, ?_⟩
    · constructor
      · intro y hy; simp at hy ⊢
        rcases hy with hy | rfl
        · exact Or.inr (C.rN y hy)
        · exact Or.inl rfl
      · rw [List.nodup_append]
        refine ⟨C.rnd, by simp, ?_⟩
        intro a ha b hb; simp at hb; subst hb; rintro rfl; exact hxr ha
      · intro y hy z hz
        exact Finset.mem_insert_of_mem (kk y hy z hz).2.2.1
      · intro y hy
        rw [upd_apply]; split
        · simp
        · rename_i h; exact C.knd y (by simpa [h] using hy)
      · intro y hy; rw [e3, upd_apply]; split
        · rfl
        · rename_i h; simp [h] at hy; exact C.rpar y hy
      · intro y hy z hz
        obtain ⟨h1, h2, h3, h4, h5⟩ := kk y hy z hz
        rw [e3, upd_ne _ _ h5]; exact C.kpar y h1 z h2
      · intro y hy
        by_cases h : y = x
        · left; simp [h]
        · have hyN : y ∈ N := by simpa [h] using hy
          rcases C.up y hyN with h1 | ⟨p, hp, h1⟩
          · left; simp [h1]
          · right; exact ⟨p, by simp [hp], by rw [upd_ne _ _ (hne p hp)]; exact h1⟩
      · exact c1
      · intro y hy
        rw [upd_apply]; split
        · simp
        · rename_i h; exact c2 y (by simpa [h] using hy)
      · intro y hy
        rw [e6]; simp only [upd_apply]; split
        · simp
        · rename_i h; exact C.hc y (by simpa [h] using hy)
      · intro y hy
        rw [e7]; simp only [upd_apply]; split
        · simp
        · rename_i h; exact C.tc y (by simpa [h] using hy)
      · intro y hy
        rw [e4]; simp only [upd_apply]; split
        · simp
        · rename_i h; exact C.nc y (by simpa [h] using hy)
      · obtain ⟨ht, hht⟩ := C.ht
        refine ⟨ht, fun y hy z hz => ?_⟩
        obtain ⟨h1, h2, h3, h4, h5⟩ := kk y hy z hz
        exact hht y h1 z h2
      · intro y hy z hz
        obtain ⟨h1, h2, h3, h4, h5⟩ := kk y hy z hz
        rw [e1, upd_ne _ _ h4, upd_ne _ _ h5]; exact C.ord y h1 z h2
      · intro y hy z hz
        rw [e2]; simp only [upd_apply]
        split <;> split
        · intro _; simp_all
        · rename_i h1 h2
          intro h; exact absurd h.symm (hk z (by simpa [h2] using hz))
        · rename_i h1 h2
          intro h; exact absurd h (hk y (by simpa [h1] using hy))
        · rename_i h1 h2
          exact C.kinj y (by simpa [h1] using hy) z (by simpa [h2] using hz)
      · rw [e5, C.nt]; simp
    · intro y hy i z hz
      obtain ⟨h1, h2, h3, h4, h5⟩ := kk y hy z (List.mem_of_getElem? hz)
      rw [upd_ne _ _ h4] at hz
      rw [e4, e8, upd_ne _ _ h5, upd_ne _ _ h5]
      exact I.deg y h1 i z hz
  have hK : ∀ y ∈ N, Circ (upd H.right x x) (upd H.left x x) (kids y) := by
    intro y hy
    rw [circ_frameR (hxk y hy), circ_frameL (hxk y hy)]; exact C.circK y hy
  unfold createInsertNode insertNode createNode
  simp only
  by_cases h0 : H.numTrees = 0
  · have hr : roots = [] := by rw [← List.length_eq_zero_iff, ← C.nt]; exact h0
    subst hr
    simp only [h0, ↓reduceIte, pure_eq_ok, ok_bind]
    have kd := key { key := upd H.key x k, value := upd H.value x v, parent := upd H.parent x none, left := upd H.left x x,
                     right := upd H.right x x, headC := upd H.headC x none, tailC := upd H.tailC x none,
                     numC := upd H.numC x 0, marked := upd H.marked x false, isRoot := upd H.isRoot x true,
                     minRoot := some x, head := some x, tail := some x, numNodes := H.numNodes + 1, numTrees := 0 + 1 }
              rfl rfl rfl rfl (by simp [h0]) rfl rfl rfl (by simp) hK
    refine ⟨_, _, rfl, ⟨kd.1, kd.2, rfl, rfl, ?_, Or.inr ⟨x, by simp, rfl, by simp⟩⟩, fun y => by simp [upd_apply], fun y => by simp [upd_apply]⟩
    simp [I.num, hx]
  · simp only [h0, ↓reduceIte]
    rcases I.min with ⟨h, _⟩ | ⟨m, hm, hmr, hmin⟩
    · exact absurd (by rw [C.nt, h]; rfl) h0
    have hrne : roots ≠ [] := by rintro rfl; simp at hm
    obtain ⟨h, hh⟩ : ∃ h, roots.head? = some h := by
      cases hr : roots with
      | nil => exact absurd hr hrne
      | cons a l => exact ⟨a, rfl⟩
    obtain ⟨t, ht⟩ : ∃ t, roots.getLast? = some t := ⟨_, List.getLast?_eq_getLast_of_ne_nil hrne⟩
    have hhm : h ∈ roots := List.mem_of_head? hh
    have htm : t ∈ roots := List.mem_of_getLast? ht
    have hmx : m ≠ x := hne m (C.rN m hm)
    have c1 : Circ (upd (upd (upd H.right x x) t x) x h) (upd (upd (upd H.left x x) h x) x t) (roots ++ [x]) := by
      apply circ_append C.rnd hxr (Or.inl ?_) hh ht
      rw [circ_frameR hxr, circ_frameL hxr]; exact C.circR
    have c2 : ∀ y ∈ N, Circ (upd (upd (upd H.right x x) t x) x h) (upd (upd (upd H.left x x) h x) x t) (kids y) := by
      intro y hy
      rw [circ_frameR (hxk y hy), circ_frameL (hxk y hy), circ_frameR (fun hm => C.kid_not_root hy hm htm),
        circ_frameL (fun hm => C.kid_not_root hy hm hhm)]
      exact hK y hy
    have hroots : ∀ r ∈ roots, r ≠ x := fun r hr => hne r (C.rN r hr)
    simp only [hmr, deref_some, ok_bind, upd_self, upd_ne _ _ hmx]
    by_cases hlt : v < H.value m
    · simp only [hlt, ↓reduceIte, appendRoot, I.tl, I.hd, hh, ht, deref_some, ok_bind, pure_eq_ok]
      refine ⟨_, upd kids x [], rfl, ⟨?_, ?_, ?_, ?_, ?_, Or.inr ⟨x, by simp, rfl, ?_⟩⟩, fun y => by simp [upd_apply], fun y => by simp [upd_apply]⟩
      · exact (key _ rfl rfl rfl rfl rfl rfl rfl rfl c1 c2).1
      · exact (key _ rfl rfl rfl rfl rfl rfl rfl rfl c1 c2).2
      · simp [List.head?_append, hh]
      · simp
      · simp [I.num, hx]
      · intro r hr; simp at hr
        rcases hr with hr | rfl
        · simp only [upd_self, upd_ne _ _ (hroots r hr)]
          exact le_trans hlt.le (hmin r hr)
        · exact le_refl _
    · simp only [hlt, ↓reduceIte, appendRoot, I.tl, I.hd, hh, ht, deref_some, ok_bind, pure_eq_ok]
      refine ⟨_, upd kids x [], rfl, ⟨?_, ?_, ?_, ?_, ?_, Or.inr ⟨m, by simp [hm], rfl, ?_⟩⟩, fun y => by simp [upd_apply], fun y => by simp [upd_apply]⟩
      · exact (key _ rfl rfl rfl rfl rfl rfl rfl rfl c1 c2).1
      · exact (key _ rfl rfl rfl rfl rfl rfl rfl rfl c1 c2).2
      · simp [List.head?_append, hh]
      · simp
      · simp [I.num, hx]
      · intro r hr; simp at hr
        rcases hr with hr | rfl
        · simp only [upd_ne _ _ (hroots r hr), upd_ne _ _ hmx]
          exact hmin r hr
        · simp only [upd_self, upd_ne _ _ hmx]; exact not_lt.1 hlt

/-- `cut` does not look at values -/
theorem cut_value (w : Nat → ℚ) (y p : Nat) :
    cut { H with value := w } y p = (cut H y p).map (fun H' => { H' with value := w }) := by
  unfold cut appendRoot unlink
  simp only
  split
  · cases H.tail <;> cases H.head <;> rfl
  · cases H.headC p with
    | none => rfl
    | some h =>
      simp only [deref_some, ok_bind]
      split <;> simp only
      · cases upd H.headC p (some (H.right y)) p <;> 
        · cases H.tailC p with
          | none => rfl
          | some t =>
            simp only [deref_some, ok_bind]
            split <;> simp only [pure_eq_ok, ok_bind] <;> cases H.tail <;> cases H.head <;> rfl
      · cases H.tailC p with
        | none => rfl
        | some t =>
          simp only [deref_some, ok_bind]
          split <;> simp only [pure_eq_ok, ok_bind] <;> cases H.tail <;> cases H.head <;> rfl

theorem mem_split {l : List Nat} {y : Nat} (h : y ∈ l) : ∃ A B, l = A ++ y :: B := List.append_of_mem h

/-- `cascading_cut` -/
theorem cascading_core : ∀ (k : Nat) (H : Heap) (roots : List Nat) (kids : Nat → List Nat) (e : Nat),
    Core H N roots kids → DegE H N kids e → e ∈ N → roots ≠ [] → H.head = roots.head? → H.tail = roots.getLast? →
    N.card < k + roots.length →
    ∃ H' roots' kids', cascadingCut k H e = .ok H' ∧ Core H' N roots' kids' ∧ Deg H' N kids' ∧
      H'.head = roots'.head? ∧ H'.tail = roots'.getLast? ∧ (∀ r ∈ roots, r ∈ roots') ∧
      H'.value = H.value ∧ H'.key = H.key ∧ H'.numNodes = H.numNodes ∧ H'.minRoot = H.minRoot := by
  intro k
  induction k with
  | zero =>
    intro H roots kids e C _ _ _ _ _ hlt
    have : roots.length ≤ N.card := by
      rw [← List.toFinset_card_of_nodup C.rnd]
      exact Finset.card_le_card (fun x hx => C.rN x (by simpa using hx))
    omega
  | succ k ih =>
    intro H roots kids e C D he hne hhd htl hlt
    rw [cascadingCut]
    cases hp : H.parent e with
    | none =>
      have her := C.parent_none he hp
      refine ⟨H, roots, kids, rfl, C, ?_, hhd, htl, fun _ h => h, rfl, rfl, rfl, rfl⟩
      intro x hx i y hy
      have := D x hx i y hy
      have hye : y ≠ e := by rintro rfl; exact C.kid_not_root hx (List.mem_of_getElem? hy) her
      simpa [hye] using this
    | some p =>
      obtain ⟨hpN, hek⟩ := C.parent_some he hp
      simp only
      by_cases hm : H.marked e = false
      · simp only [hm, ↓reduceIte, pure_eq_ok]
        refine ⟨_, roots, kids, rfl, C.congr rfl rfl rfl rfl rfl rfl rfl rfl rfl, ?_, hhd, htl, fun _ h => h, rfl, rfl, rfl, rfl⟩
        intro x hx i y hy
        have := D x hx i y hy
        simp only [upd_apply]
        by_cases hye : y = e
        · subst hye; simp [hm] at this ⊢; omega
        · simpa [hye] using this
      · simp only [hm, ↓reduceIte]
        obtain ⟨A, B, hk⟩ := mem_split hek
        obtain ⟨H1, e1, C1, h1, t1, v1, k1, n1, m1, c1, mk1⟩ := cut_core C hpN hk hne hhd htl
        have D1 := deg_cut C D hpN hk c1 mk1
        obtain ⟨H2, r2, k2, e2, C2, D2, h2, t2, s2, v2, ke2, n2, m2⟩ :=
          ih H1 (roots ++ [e]) _ p C1 D1 hpN (by simp) (by
            rw [h1, hhd, List.head?_append]; cases hr : roots with
            | nil => exact absurd hr hne
            | cons a l => rfl) (by rw [t1]; simp) (by simp; omega)
        refine ⟨H2, r2, k2, by rw [e1]; exact e2, C2, D2, h2, t2, fun r hr => s2 r (by simp [hr]), ?_, ?_, ?_, ?_⟩
        · rw [v2, v1]
        · rw [ke2, k1]
        · rw [n2, n1]
        · rw [m2, m1]

/-- `decrease_value` -/
theorem decrease_inv (I : Inv H N roots kids) {x : Nat} {v : ℚ} (hx : x ∈ N) (hv : v ≤ H.value x) :
    ∃ H' roots' kids', decreaseValue H x v = .ok H' ∧ Inv H' N roots' kids' ∧
      H'.value = upd H.value x v ∧ H'.key = H.key := by
  have C := I.core
  have hrne : roots ≠ [] := by rw [Ne, I.roots_nil]; rintro rfl; simp at hx
  obtain ⟨m, hmr⟩ : ∃ m, H.minRoot = some m := by
    rcases I.min with ⟨h, _⟩ | ⟨m, _, h, _⟩
    · exact absurd h hrne
    · exact ⟨m, h⟩
  have hm := (I.min_le hmr hx).1
  unfold decreaseValue
  simp only [gt_iff_lt, not_lt.2 hv, ↓reduceIte, upd_self]
  -- finishing step, common to the three branches
  have fin : ∀ (H2 : Heap) (roots2 : List Nat) (kids2 : Nat → List Nat), Core H2 N roots2 kids2 → Deg H2 N kids2 →
      H2.head = roots2.head? → H2.tail = roots2.getLast? → (∀ r ∈ roots, r ∈ roots2) →
      H2.value = upd H.value x v → H2.key = H.key → H2.numNodes = H.numNodes → H2.minRoot = H.minRoot →
      ∃ H' roots' kids', (do
        let m ← deref H2.minRoot
        pure (if H2.value x < H2.value m then { H2 with minRoot := some x } else H2)) = .ok H' ∧
        Inv H' N roots' kids' ∧ H'.value = upd H.value x v ∧ H'.key = H.key := by
    intro H2 roots2 kids2 C2 D2 hd2 tl2 sub v2 k2 n2 m2
    rw [m2, hmr]
    simp only [deref_some, ok_bind, pure_eq_ok, v2, upd_self]
    have hle : ∀ y ∈ N, y ≠ x → H.value m ≤ H.value y := fun y hy _ => (I.min_le hmr hy).2
    by_cases hlt : v < upd H.value x v m
    · simp only [hlt, ↓reduceIte]
      have hmx : m ≠ x := by rintro rfl; simp at hlt
      rw [upd_ne _ _ hmx] at hlt
      have hxr : x ∈ roots2 := by
        rcases C2.up x hx with h | ⟨p, hp, hk⟩
        · exact h
        · have h1 := C2.ord p hp x hk
          have hpx : p ≠ x := Ne.symm (C2.kid_ne hp hk)
          rw [v2, upd_self, upd_ne _ _ hpx] at h1
          have := hle p hp hpx
          exact absurd (lt_of_le_of_lt h1 (lt_of_lt_of_le hlt this)) (lt_irrefl _)
      refine ⟨_, roots2, kids2, rfl, ⟨C2.congr rfl (by simp [v2]) rfl rfl rfl rfl rfl rfl rfl, D2, hd2, tl2, ?_, Or.inr ⟨x, hxr, rfl, ?_⟩⟩, rfl, k2⟩
      · simp [n2, I.num]
      · intro r hr
        simp only [upd_self]
        by_cases hrx : r = x
        · subst hrx; simp
        · rw [upd_ne _ _ hrx]; exact le_trans hlt.le (hle r (C2.rN r hr) hrx)
    · simp only [hlt, ↓reduceIte]
      refine ⟨_, roots2, kids2, rfl, ⟨C2, D2, hd2, tl2, ?_, Or.inr ⟨m, sub m hm, by rw [m2, hmr], ?_⟩⟩, v2, k2⟩
      · simp [n2, I.num]
      · intro r hr
        rw [v2]
        by_cases hrx : r = x
        · subst hrx; rw [upd_self]; exact not_lt.1 hlt
        · rw [upd_ne _ _ hrx]
          refine le_trans ?_ (hle r (C2.rN r hr) hrx)
          by_cases hmx : m = x
          · subst hmx; simpa using hv
          · rw [upd_ne _ _ hmx]
  cases hp : H.parent x with
  | none =>
    simp only [pure_eq_ok, ok_bind]
    have hxr := C.parent_none hx hp
    refine fin { H with value := upd H.value x v } roots kids ?_ I.deg I.hd I.tl (fun _ h => h) rfl rfl rfl rfl
    apply C.setValue
    intro y hy z hz
    have hzx : z ≠ x := by rintro rfl; exact C.kid_not_root hy hz hxr
    rw [upd_ne _ _ hzx]
    have := C.ord y hy z hz
    rw [upd_apply]; split
    · rename_i h; subst h; exact le_trans hv this
    · exact this
  | some p =>
    obtain ⟨hpN, hxk⟩ := C.parent_some hx hp
    have hpx : p ≠ x := Ne.symm (C.kid_ne hpN hxk)
    simp only [upd_ne _ _ hpx]
    by_cases hlt : v < H.value p
    · simp only [hlt, ↓reduceIte]
      obtain ⟨A, B, hk⟩ := mem_split hxk
      obtain ⟨H1, e1, C1, h1, t1, v1, k1, n1, m1, c1, mk1⟩ := cut_core C hpN hk hrne I.hd I.tl
      have D1 := deg_cut C (I.deg.toE x) hpN hk c1 mk1
      have C1' : Core { H1 with value := upd H.value x v } N (roots ++ [x]) (upd kids p (A ++ B)) := by
        apply C1.setValue
        intro y hy z hz
        have hzx : z ≠ x := by
          rintro rfl; exact C1.kid_not_root hy hz (by simp)
        rw [upd_ne _ _ hzx]
        have := C1.ord y hy z hz
        rw [v1] at this
        rw [upd_apply]; split
        · rename_i h; subst h; exact le_trans hv this
        · exact this
      have hcv := cut_value (H := H) (upd H.value x v) x p
      rw [e1] at hcv
      simp only [Except.map] at hcv
      rw [hcv]
      simp only [ok_bind]
      obtain ⟨H2, r2, k2, e2, C2, D2, h2, t2, s2, v2, ke2, n2, m2⟩ :=
        cascading_core (H1.numNodes + 1) { H1 with value := upd H.value x v } (roots ++ [x]) _ p C1' D1 hpN (by simp) (by
            simp only; rw [h1, I.hd, List.head?_append]; cases hr : roots with
            | nil => exact absurd hr hrne
            | cons a l => rfl) (by simp [t1]) (by simp [n1, I.num]; omega)
      rw [e2]
      simp only [ok_bind]
      exact fin H2 r2 k2 C2 D2 h2 t2 (fun r hr => s2 r (by simp [hr])) v2 (by rw [ke2]; exact k1) (by rw [n2]; exact n1)
        (by rw [m2]; exact m1)
    · simp only [hlt, ↓reduceIte, pure_eq_ok, ok_bind]
      refine fin { H with value := upd H.value x v } roots kids ?_ I.deg I.hd I.tl (fun _ h => h) rfl rfl rfl rfl
      apply C.setValue
      intro y hy z hz
      have := C.ord y hy z hz
      by_cases hzx : z = x
      · subst hzx
        have : y = p := C.kid_unique hy hpN hz hxk
        subst this
        rw [upd_ne _ _ hpx, upd_self]; exact not_lt.1 hlt
      · rw [upd_ne _ _ hzx, upd_apply]; split
        · rename_i h; subst h; exact le_trans hv this
        · exact this

theorem decrease_exit {x : Nat} {v : ℚ} (hv : H.value x < v) : decreaseValue H x v = .error .exit := by
  simp [decreaseValue, hv]

end Verif.Fib
