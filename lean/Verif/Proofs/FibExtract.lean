import Verif.Proofs.FibOps
import Mathlib.Data.List.Perm.Basic
import Mathlib.Data.List.Nodup

namespace Verif.Fib
open Verif
set_option autoImplicit false

variable {H : Heap} {N : Finset Nat} {roots : List Nat} {kids : Nat → List Nat}

/-- one round of the children loop of `extract_min` is a `cut` -/
theorem promote_step {m c k : Nat} (h : H.numC m = k + 1) :
    promote m (k + 1) H (some c) = (do let H' ← cut H c m; promote m k H' (H'.headC m)) := by
  rw [promote]
  unfold cut appendRoot unlink
  simp only [deref_some, ok_bind, upd_self, h]
  have e : (k + 1 = 1) = (k + 1 - 1 = 0) := by simp
  simp only [e]
  split
  · cases H.tail <;> cases H.head <;> simp [h]
  · cases H.headC m with
    | none => rfl
    | some hh =>
      simp only [deref_some, ok_bind]
      split <;> simp only
      · cases H.tailC m with
        | none => rfl
        | some t =>
          simp only [deref_some, ok_bind]
          split <;> simp only [pure_eq_ok, ok_bind] <;> cases H.tail <;> cases H.head <;> simp [h]
      · cases H.tailC m with
        | none => rfl
        | some t =>
          simp only [deref_some, ok_bind]
          split <;> simp only [pure_eq_ok, ok_bind] <;> cases H.tail <;> cases H.head <;> simp [h]

theorem upd_upd {α : Type} (f : Nat → α) (i : Nat) (a b : α) : upd (upd f i a) i b = upd f i b := by
  funext j; simp only [upd_apply]; split <;> rfl

/-- the children loop moves all children of `m` to the root list -/
theorem promote_core {m : Nat} : ∀ (l : List Nat) (H : Heap) (roots : List Nat) (kids : Nat → List Nat),
    Core H N roots kids → Deg H N kids → m ∈ roots → kids m = l → H.head = roots.head? → H.tail = roots.getLast? →
    ∃ H', promote m l.length H (H.headC m) = .ok H' ∧ Core H' N (roots ++ l) (upd kids m []) ∧
      Deg H' N (upd kids m []) ∧
      H'.head = roots.head? ∧ H'.tail = (roots ++ l).getLast? ∧ H'.value = H.value ∧ H'.key = H.key ∧
      H'.numNodes = H.numNodes ∧ H'.minRoot = H.minRoot := by
  intro l
  induction l with
  | nil =>
    intro H roots kids C D hm hk hhd htl
    have e : upd kids m [] = kids := by
      funext x; rw [upd_apply]; split
      · rename_i h; rw [h, hk]
      · rfl
    exact ⟨H, rfl, by simpa [e] using C, by simpa [e] using D, hhd, by simpa using htl, rfl, rfl, rfl, rfl⟩
  | cons c l ih =>
    intro H roots kids C D hm hk hhd htl
    have hmN := C.rN m hm
    have hne : roots ≠ [] := by rintro rfl; simp at hm
    have hn : H.numC m = l.length + 1 := by rw [C.nc m hmN, hk]; rfl
    have hh : H.headC m = some c := by rw [C.hc m hmN, hk]; rfl
    obtain ⟨H1, e1, C1, h1, t1, v1, k1, n1, m1, c1, mk1⟩ := cut_core (A := []) C hmN (by simpa using hk) hne hhd htl
    have D1 := deg_cut (A := []) C (D.toE c) hmN (by simpa using hk) c1 mk1
    simp only [List.nil_append] at C1 D1
    have D1' : Deg H1 N (upd kids m l) := by
      intro x hx i y hy
      have := D1 x hx i y hy
      have hym : y ≠ m := by
        rintro rfl; exact C1.kid_not_root hx (List.mem_of_getElem? hy) (by simp [hm])
      simpa [hym] using this
    have hhead : (roots ++ [c]).head? = roots.head? := by
      cases roots with
      | nil => simp at hm
      | cons a r => rfl
    obtain ⟨H2, e2, C2, D2, h2, t2, v2, k2, n2, m2⟩ := ih H1 (roots ++ [c]) _ C1 D1' (by simp [hm]) (by simp)
      (by rw [h1, hhd, hhead]) (by rw [t1]; simp)
    refine ⟨H2, ?_, ?_, ?_, ?_, ?_, ?_, ?_, ?_, ?_⟩
    · rw [List.length_cons, hh, promote_step hn, e1]; exact e2
    · rw [upd_upd] at C2; simpa using C2
    · rw [upd_upd] at D2; exact D2
    · rw [h2, hhead]
    · simpa using t2
    · rw [v2, v1]
    · rw [k2, k1]
    · rw [n2, n1]
    · rw [m2, m1]

/-- removing a childless root -/
theorem remove_core {H H' : Heap} {A B : List Nat} {m : Nat} (C : Core H N (A ++ m :: B) kids) (hk : kids m = [])
    (hne : A ++ B ≠ [])
    (e1 : H'.key = H.key) (e2 : H'.value = H.value) (e3 : H'.parent = H.parent)
    (e4 : H'.left = upd H.left (H.right m) (H.left m))
    (e5 : H'.right = upd H.right (H.left m) (H.right m)) (e6 : H'.headC = H.headC) (e7 : H'.tailC = H.tailC)
    (e8 : H'.numC = H.numC) (e9 : H'.numTrees = H.numTrees - 1) : Core H' (N.erase m) (A ++ B) kids := by
  have nd := C.rnd
  have nd' := (List.perm_middle (a := m) (l₁ := A) (l₂ := B)).nodup_iff.1 nd
  have hmAB : m ∉ A ++ B := (List.nodup_cons.1 nd').1
  have sub : ∀ z ∈ A ++ B, z ∈ A ++ m :: B := by intro z hz; simp at hz ⊢; tauto
  have hmr : m ∈ A ++ m :: B := by simp
  obtain ⟨cr, hR, hL⟩ := circ_remove nd C.circR hne
  have er : ∀ x ∈ N.erase m, x ∈ N := fun x hx => (Finset.mem_erase.1 hx).2
  have hkm : ∀ x ∈ N, m ∉ kids x := fun x hx h => C.kid_not_root hx h hmr
  constructor
  · intro x hx; exact Finset.mem_erase.2 ⟨by rintro rfl; exact hmAB hx, C.rN x (sub x hx)⟩
  · exact (List.nodup_cons.1 nd').2
  · intro x hx y hy; exact Finset.mem_erase.2 ⟨by rintro rfl; exact hkm x (er x hx) hy, C.kN x (er x hx) y hy⟩
  · intro x hx; exact C.knd x (er x hx)
  · intro x hx; rw [e3]; exact C.rpar x (sub x hx)
  · intro x hx y hy; rw [e3]; exact C.kpar x (er x hx) y hy
  · intro y hy
    rcases C.up y (er y hy) with h | ⟨x, hx, h⟩
    · left
      have : y ≠ m := (Finset.mem_erase.1 hy).1
      simp at h ⊢; tauto
    · right; refine ⟨x, Finset.mem_erase.2 ⟨?_, hx⟩, h⟩
      rintro rfl; rw [hk] at h; simp at h
  · rw [e4, e5]; exact cr
  · intro x hx
    have hx := er x hx
    rw [e4, e5, circ_frameR (fun h => C.kid_not_root hx h (sub _ hL)), circ_frameL (fun h => C.kid_not_root hx h (sub _ hR))]
    exact C.circK x hx
  · intro x hx; rw [e6]; exact C.hc x (er x hx)
  · intro x hx; rw [e7]; exact C.tc x (er x hx)
  · intro x hx; rw [e8]; exact C.nc x (er x hx)
  · obtain ⟨ht, h⟩ := C.ht
    exact ⟨ht, fun x hx y hy => h x (er x hx) y hy⟩
  · intro x hx y hy; rw [e2]; exact C.ord x (er x hx) y hy
  · intro x hx y hy; rw [e1]; exact C.kinj x (er x hx) y (er y hy)
  · rw [e9, C.nt]; simp

/-- `degree_list` holds exactly the roots `Q`, by degree -/
def Tab (H : Heap) (dl : Nat → Option Nat) (Q : List Nat) (dim : Nat) : Prop :=
  (∀ d x, dl d = some x ↔ x ∈ Q ∧ H.numC x = d) ∧ ∀ d x, dl d = some x → d < dim

/-- the same, without the node being processed -/
def TabX (H : Heap) (dl : Nat → Option Nat) (Q : List Nat) (cur dim : Nat) : Prop :=
  (∀ d x, dl d = some x ↔ x ∈ Q ∧ x ≠ cur ∧ H.numC x = d) ∧ ∀ d x, dl d = some x → d < dim

/-- table large enough for every possible degree -/
def Good (dim : Nat) (N : Finset Nat) : Prop := ∀ d, Nat.fib (d + 2) ≤ N.card → d < dim

theorem linkLoop_core {dim : Nat} {U : List Nat} : ∀ (fuel : Nat) (H : Heap) (dl : Nat → Option Nat) (Q : List Nat)
    (kids : Nat → List Nat) (cur deg : Nat),
    Core H N (Q ++ U) kids → Deg H N kids → cur ∈ Q → H.numC cur = deg → TabX H dl Q cur dim → 0 < fuel → dim < fuel + deg →
    (linkLoop dim fuel H dl cur deg = .error (.oobAt .degreeList) ∧ ¬ Good dim N) ∨
    ∃ H' dl' Q' kids', linkLoop dim fuel H dl cur deg = .ok (H', dl') ∧ Core H' N (Q' ++ U) kids' ∧ Deg H' N kids' ∧
      Tab H' dl' Q' dim ∧ Q' ≠ [] ∧ H'.value = H.value ∧ H'.key = H.key ∧ H'.numNodes = H.numNodes ∧
      H'.minRoot = H.minRoot ∧ (∀ u ∈ U, H'.numC u = H.numC u) := by
  intro fuel
  induction fuel with
  | zero =>
    intro H dl Q kids cur deg C D hcur hdeg T h0
    exact absurd h0 (lt_irrefl _)
  | succ fuel ih =>
    intro H dl Q kids cur deg C D hcur hdeg T _ hf
    rw [linkLoop]
    have hcN := C.rN cur (by simp [hcur])
    by_cases hge : deg ≥ dim
    · left
      simp only [hge, ↓reduceIte, true_and]
      intro g
      have := g deg (hdeg ▸ C.subtree D hcN)
      omega
    simp only [hge, ↓reduceIte]
    cases hd : dl deg with
    | none =>
      right
      refine ⟨H, _, Q, kids, rfl, C, D, ⟨?_, ?_⟩, by rintro rfl; simp at hcur, rfl, rfl, rfl, rfl, fun _ _ => rfl⟩
      · intro d x
        rw [upd_apply]
        split
        · rename_i h; subst h
          constructor
          · intro h; simp at h; subst h; exact ⟨hcur, hdeg⟩
          · rintro ⟨h1, h2⟩
            by_cases hx : x = cur
            · rw [hx]
            · have := (T.1 d x).2 ⟨h1, hx, h2⟩; rw [hd] at this; simp at this
        · rename_i h
          rw [T.1]
          constructor
          · rintro ⟨h1, _, h2⟩; exact ⟨h1, h2⟩
          · rintro ⟨h1, h2⟩; exact ⟨h1, by rintro rfl; exact h (h2.symm.trans hdeg), h2⟩
      · intro d x h
        rw [upd_apply] at h
        split at h
        · omega
        · exact T.2 d x h
    | some same =>
      obtain ⟨hsQ, hsc, hsd⟩ := (T.1 deg same).1 hd
      -- winner and loser
      have main : ∀ w l, w ∈ Q → l ∈ Q → w ≠ l → H.value w ≤ H.value l → H.numC w = deg → H.numC l = deg →
          (∀ z, (z = w ∨ z = l) ↔ (z = cur ∨ z = same)) →
          ((do let H' ← linkTrees H l w; linkLoop dim fuel H' (upd dl deg none) w (deg + 1)) = .error (.oobAt .degreeList) ∧ ¬ Good dim N) ∨
          ∃ H' dl' Q' kids', (do let H' ← linkTrees H l w; linkLoop dim fuel H' (upd dl deg none) w (deg + 1)) = .ok (H', dl') ∧
            Core H' N (Q' ++ U) kids' ∧ Deg H' N kids' ∧ Tab H' dl' Q' dim ∧ Q' ≠ [] ∧ H'.value = H.value ∧
            H'.key = H.key ∧ H'.numNodes = H.numNodes ∧ H'.minRoot = H.minRoot ∧ (∀ u ∈ U, H'.numC u = H.numC u) := by
        intro w l hw hl hwl hv hnw hnl hset
        obtain ⟨A, B, hQ⟩ := mem_split hl
        have hwAB : w ∈ A ++ B := by rw [hQ] at hw; simp at hw ⊢; tauto
        have C' : Core H N (A ++ l :: (B ++ U)) kids := by rw [hQ] at C; simpa using C
        obtain ⟨H1, e1, C1, v1, k1, n1, m1, c1, mk1⟩ := linkTrees_core (f := w) C' (by simp at hwAB ⊢; tauto) hv
        have D1 := deg_link C' D (c := l) (f := w) (by simp) (by simp at hwAB ⊢; tauto) (Ne.symm hwl) (by rw [hnw, hnl]) c1 mk1
        rw [e1]
        simp only [ok_bind]
        have hlAB : l ∉ A ++ B := by
          have nd := C'.rnd
          have := (List.nodup_cons.1 ((List.perm_middle (a := l) (l₁ := A) (l₂ := B ++ U)).nodup_iff.1 nd)).1
          simp at this ⊢; tauto
        have T1 : TabX H1 (upd dl deg none) (A ++ B) w dim := by
          refine ⟨?_, ?_⟩
          · intro d x
            have hmem : x ∈ A ++ B ↔ x ∈ Q ∧ x ≠ l := by
              rw [hQ]
              constructor
              · intro h; exact ⟨by simp at h ⊢; tauto, by rintro rfl; exact hlAB h⟩
              · rintro ⟨h1, h2⟩; simp at h1 ⊢; tauto
            rw [hmem, upd_apply]
            by_cases hxw : x = w
            · subst hxw
              constructor
              · intro h
                split at h
                · simp at h
                · rename_i hne
                  obtain ⟨_, _, h3⟩ := (T.1 d x).1 h
                  exact absurd (h3.symm.trans hnw) hne
              · rintro ⟨_, h, _⟩; exact absurd rfl h
            · rw [c1, upd_ne _ _ hxw]
              by_cases hxl : x = l
              · subst hxl
                constructor
                · intro h
                  split at h
                  · simp at h
                  · rename_i hne
                    obtain ⟨_, _, h3⟩ := (T.1 d x).1 h
                    exact absurd (h3.symm.trans hnl) hne
                · rintro ⟨⟨_, h⟩, _⟩; exact absurd rfl h
              · have hx2 := hset x
                have hxcs : x ≠ cur ∧ x ≠ same := by
                  constructor
                  · intro h; exact absurd (hx2.2 (Or.inl h)) (by simp [hxw, hxl])
                  · intro h; exact absurd (hx2.2 (Or.inr h)) (by simp [hxw, hxl])
                split
                · rename_i hdd; subst hdd
                  constructor
                  · intro h; simp at h
                  · rintro ⟨⟨h1, _⟩, _, h2⟩
                    have := (T.1 d x).2 ⟨h1, hxcs.1, h2⟩
                    rw [hd] at this; simp at this; exact absurd this.symm hxcs.2
                · rw [T.1]; constructor
                  · rintro ⟨h1, _, h3⟩; exact ⟨⟨h1, hxl⟩, hxw, h3⟩
                  · rintro ⟨⟨h1, _⟩, _, h3⟩; exact ⟨h1, hxcs.1, h3⟩
          · intro d x h
            rw [upd_apply] at h
            split at h
            · simp at h
            · exact T.2 d x h
        have hU : ∀ u ∈ U, u ≠ w := by
          rintro u hu rfl
          have nd := C'.rnd
          simp only [List.nodup_append] at nd
          rcases List.mem_append.1 hwAB with h | h
          · exact nd.2.2 u h u (by simp [hu]) rfl
          · have h3 := (List.nodup_cons.1 nd.2.1).2
            exact (List.nodup_append.1 h3).2.2 u h u hu rfl
        have hn1 : H1.numC w = deg + 1 := by rw [c1]; simp [hnw]
        rcases ih H1 (upd dl deg none) (A ++ B) _ w (deg + 1) (by simpa using C1) D1 hwAB hn1 T1 (by omega) (by omega) with h | h
        · exact Or.inl h
        · obtain ⟨H2, dl2, Q2, kids2, e2, C2, D2, T2, ne2, v2, k2, n2, m2, u2⟩ := h
          refine Or.inr ⟨H2, dl2, Q2, kids2, e2, C2, D2, T2, ne2, by rw [v2, v1], by rw [k2, k1], by rw [n2, n1],
            by rw [m2, m1], ?_⟩
          intro u hu
          rw [u2 u hu, c1, upd_ne _ _ (hU u hu)]
      simp only
      by_cases hgt : H.value cur > H.value same
      · simp only [hgt, ↓reduceIte]
        exact main same cur hsQ hcur hsc hgt.le hsd hdeg (fun z => or_comm)
      · simp only [hgt, ↓reduceIte]
        exact main cur same hcur hsQ (Ne.symm hsc) (not_lt.1 hgt) hdeg hsd (fun z => Iff.rfl)

theorem scan_core {dim : Nat} : ∀ (U : List Nat) (H : Heap) (dl : Nat → Option Nat) (Q : List Nat)
    (kids : Nat → List Nat) (iter : Nat),
    Core H N (Q ++ U) kids → Deg H N kids → Tab H dl Q dim → (∀ u ∈ U.head?, iter = u) →
    (scanRoots dim U.length H dl iter = .error (.oobAt .degreeList) ∧ ¬ Good dim N) ∨
    ∃ H' dl' Q' kids', scanRoots dim U.length H dl iter = .ok (H', dl') ∧ Core H' N Q' kids' ∧ Deg H' N kids' ∧
      Tab H' dl' Q' dim ∧ H'.value = H.value ∧ H'.key = H.key ∧ H'.numNodes = H.numNodes := by
  intro U
  induction U with
  | nil =>
    intro H dl Q kids iter C D T _
    right
    exact ⟨H, dl, Q, kids, rfl, by simpa using C, D, T, rfl, rfl, rfl⟩
  | cons u U ih =>
    intro H dl Q kids iter C D T hi
    have hiu : iter = u := hi u (by simp)
    subst hiu
    have C' : Core H N ((Q ++ [iter]) ++ U) kids := by simpa using C
    have hnext : ∀ v ∈ U.head?, H.right iter = v := by
      intro v hv
      cases U with
      | nil => simp at hv
      | cons w U => simp at hv; subst hv; exact (circ_next C.circR).1
    have huQ : iter ∉ Q := by
      intro h
      have nd := C.rnd
      exact (List.nodup_append.1 nd).2.2 iter h iter (by simp) rfl
    have TX : TabX H dl (Q ++ [iter]) iter dim := by
      refine ⟨fun d x => ?_, T.2⟩
      rw [T.1]
      constructor
      · rintro ⟨h1, h2⟩; exact ⟨by simp [h1], by rintro rfl; exact huQ h1, h2⟩
      · rintro ⟨h1, h2, h3⟩; simp at h1; exact ⟨by tauto, h3⟩
    rw [List.length_cons, scanRoots]
    simp only
    rcases linkLoop_core (dim + 1) H dl (Q ++ [iter]) kids iter (H.numC iter) C' D (by simp) rfl TX (by omega) (by omega)
      with ⟨h, g⟩ | ⟨H1, dl1, Q1, kids1, e1, C1, D1, T1, -, v1, k1, n1, -, -⟩
    · left; rw [h]; exact ⟨rfl, g⟩
    · rw [e1]; simp only [ok_bind]
      rcases ih H1 dl1 Q1 kids1 (H.right iter) C1 D1 T1 hnext with h | ⟨H2, dl2, Q2, kids2, e2, C2, D2, T2, v2, k2, n2⟩
      · exact Or.inl h
      · exact Or.inr ⟨H2, dl2, Q2, kids2, e2, C2, D2, T2, by rw [v2, v1], by rw [k2, k1], by rw [n2, n1]⟩

theorem seg_congr {R Lf R' Lf' : Nat → Nat} {L : List Nat} : ∀ {a b : Nat}, (∀ z ∈ a :: L, R' z = R z) →
    (∀ z ∈ L, Lf' z = Lf z) → Lf' b = Lf b → Seg R Lf a L b → Seg R' Lf' a L b := by
  induction L with
  | nil => intro a b h1 _ h3 h; simp only [seg_nil] at h ⊢; rw [h1 a (by simp), h3]; exact h
  | cons x L ih =>
    intro a b h1 h2 h3 h
    simp only [seg_cons] at h ⊢
    rw [h1 a (by simp), h2 x (by simp)]
    exact ⟨h.1, h.2.1, ih (fun z hz => h1 z (List.mem_cons_of_mem _ hz)) (fun z hz => h2 z (List.mem_cons_of_mem _ hz)) h3 h.2.2⟩

theorem circ_congr {R Lf R' Lf' : Nat → Nat} {L : List Nat} (h1 : ∀ z ∈ L, R' z = R z) (h2 : ∀ z ∈ L, Lf' z = Lf z)
    (h : Circ R Lf L) : Circ R' Lf' L := by
  cases L with
  | nil => trivial
  | cons a t => exact seg_congr h1 (fun z hz => h2 z (List.mem_cons_of_mem _ hz)) (h2 a (by simp)) h

theorem rebuild_ok (dl : Nat → Option Nat) : ∀ (k i : Nat) (H : Heap) (L : List Nat),
    (L ++ (List.range' i k).filterMap dl).Nodup →
    ((L = [] ∧ H.minRoot = none) ∨ ∃ m ∈ L, H.minRoot = some m ∧ (∀ r ∈ L, H.value m ≤ H.value r) ∧
      H.head = L.head? ∧ H.tail = L.getLast?) →
    (Circ H.right H.left L ∨ L.length = 1) →
    ∃ H', rebuild dl k i H = .ok H' ∧
      (H'.key = H.key ∧ H'.value = H.value ∧ H'.parent = H.parent ∧ H'.headC = H.headC ∧ H'.tailC = H.tailC ∧
        H'.numC = H.numC ∧ H'.numTrees = H.numTrees ∧ H'.marked = H.marked ∧ H'.numNodes = H.numNodes) ∧
      (Circ H'.right H'.left (L ++ (List.range' i k).filterMap dl) ∨ (L ++ (List.range' i k).filterMap dl).length = 1) ∧
      ((L ++ (List.range' i k).filterMap dl).length ≤ 1 → H'.right = H.right ∧ H'.left = H.left) ∧
      (∀ z, z ∉ L ++ (List.range' i k).filterMap dl → H'.right z = H.right z ∧ H'.left z = H.left z) ∧
      ((L ++ (List.range' i k).filterMap dl = [] ∧ H'.minRoot = none) ∨
        ∃ m ∈ L ++ (List.range' i k).filterMap dl, H'.minRoot = some m ∧
          (∀ r ∈ L ++ (List.range' i k).filterMap dl, H.value m ≤ H.value r) ∧
          H'.head = (L ++ (List.range' i k).filterMap dl).head? ∧
          H'.tail = (L ++ (List.range' i k).filterMap dl).getLast?) := by
  intro k
  induction k with
  | zero =>
    intro i H L nd hm hc
    refine ⟨H, rfl, ⟨rfl, rfl, rfl, rfl, rfl, rfl, rfl, rfl, rfl⟩, ?_⟩
    simp only [List.range'_zero, List.filterMap_nil, List.append_nil] at *
    exact ⟨hc, by simp, by simp, hm⟩
  | succ k ih =>
    intro i H L nd hm hc
    rw [List.range'_succ, List.filterMap_cons] at nd ⊢; rw [rebuild]
    cases hd : dl i with
    | none => simp only [hd] at nd ⊢; exact ih (i + 1) H L nd hm hc
    | some d =>
      simp only [hd] at nd ⊢
      have eL : L ++ d :: (List.range' (i + 1) k).filterMap dl = (L ++ [d]) ++ (List.range' (i + 1) k).filterMap dl := by simp
      rw [eL] at nd ⊢
      have ndL : (L ++ [d]).Nodup := (List.nodup_append.1 nd).1
      have hdL : d ∉ L := fun h => (List.nodup_append.1 ndL).2.2 d h d (by simp) rfl
      rcases hm with ⟨rfl, hm⟩ | ⟨m, hmL, hm, hmin, hhd, htl⟩
      · simp only [hm]
        have hmm := ih (i + 1) { H with minRoot := some d, head := some d, tail := some d } [d] (by simpa using nd)
          (Or.inr ⟨d, by simp, rfl, by simp, rfl, rfl⟩) (Or.inr rfl)
        exact hmm
      · simp only [hm]
        have hLne : L ≠ [] := by rintro rfl; simp at hmL
        obtain ⟨a, ha⟩ : ∃ a, L.head? = some a := by cases L with
          | nil => simp at hLne
          | cons a t => exact ⟨a, rfl⟩
        obtain ⟨b, hb⟩ : ∃ b, L.getLast? = some b := by
          rw [List.getLast?_eq_some_getLast hLne]; exact ⟨_, rfl⟩
        have haL : a ∈ L := List.mem_of_mem_head? (by rw [ha]; simp)
        have hbL : b ∈ L := List.mem_of_getLast? hb
        have cr := circ_append (c := d) (List.nodup_append.1 ndL).1 hdL hc ha hb
        -- generic continuation
        have main : ∀ mn : Nat, mn ∈ L ++ [d] → (∀ r ∈ L ++ [d], H.value mn ≤ H.value r) →
            ∃ H', rebuild dl k (i + 1) { H with
                  minRoot := some mn
                  right := upd (upd H.right b d) d a
                  left := upd (upd H.left a d) d b
                  tail := some d } = .ok H' ∧
              (H'.key = H.key ∧ H'.value = H.value ∧ H'.parent = H.parent ∧ H'.headC = H.headC ∧ H'.tailC = H.tailC ∧
                H'.numC = H.numC ∧ H'.numTrees = H.numTrees ∧ H'.marked = H.marked ∧ H'.numNodes = H.numNodes) ∧
              (Circ H'.right H'.left ((L ++ [d]) ++ (List.range' (i + 1) k).filterMap dl) ∨
                ((L ++ [d]) ++ (List.range' (i + 1) k).filterMap dl).length = 1) ∧
              (((L ++ [d]) ++ (List.range' (i + 1) k).filterMap dl).length ≤ 1 → H'.right = H.right ∧ H'.left = H.left) ∧
              (∀ z, z ∉ (L ++ [d]) ++ (List.range' (i + 1) k).filterMap dl → H'.right z = H.right z ∧ H'.left z = H.left z) ∧
              (((L ++ [d]) ++ (List.range' (i + 1) k).filterMap dl = [] ∧ H'.minRoot = none) ∨
                ∃ m ∈ (L ++ [d]) ++ (List.range' (i + 1) k).filterMap dl, H'.minRoot = some m ∧
                  (∀ r ∈ (L ++ [d]) ++ (List.range' (i + 1) k).filterMap dl, H.value m ≤ H.value r) ∧
                  H'.head = ((L ++ [d]) ++ (List.range' (i + 1) k).filterMap dl).head? ∧
                  H'.tail = ((L ++ [d]) ++ (List.range' (i + 1) k).filterMap dl).getLast?) := by
          intro mn h1 h2
          obtain ⟨H', e, ef, c', _, fr, mm⟩ := ih (i + 1) { H with
                  minRoot := some mn
                  right := upd (upd H.right b d) d a
                  left := upd (upd H.left a d) d b
                  tail := some d } (L ++ [d]) nd
              (Or.inr ⟨mn, h1, rfl, h2, by
                show H.head = _
                rw [hhd]; cases L with
                | nil => simp at hLne
                | cons x t => rfl, by simp⟩) (Or.inl cr)
          refine ⟨H', e, ef, c', ?_, ?_, mm⟩
          · intro hl
            exfalso
            have : 0 < L.length := List.length_pos_iff.2 hLne
            simp at hl; omega
          · intro z hz
            obtain ⟨f1, f2⟩ := fr z hz
            have hza : z ≠ a := by rintro rfl; exact hz (by simp [haL])
            have hzb : z ≠ b := by rintro rfl; exact hz (by simp [hbL])
            have hzd : z ≠ d := by rintro rfl; exact hz (by simp)
            rw [f1, f2]
            simp [upd_ne _ _ hza, upd_ne _ _ hzb, upd_ne _ _ hzd]
        have hha : H.head = some a := by rw [hhd, ha]
        rw [hha] at main
        by_cases hgt : H.value m > H.value d
        · simp only [hgt, ↓reduceIte, appendRoot, hhd, htl, ha, hb, deref_some, ok_bind, pure_eq_ok]
          refine main d (by simp) ?_
          intro r hr
          rcases List.mem_append.1 hr with h | h
          · exact le_trans hgt.le (hmin r h)
          · simp at h; rw [h]
        · simp only [hgt, ↓reduceIte, appendRoot, hhd, htl, ha, hb, deref_some, ok_bind, pure_eq_ok]
          have := main m (by simp [hmL]) (by
            intro r hr
            rcases List.mem_append.1 hr with h | h
            · exact hmin r h
            · simp at h; rw [h]; exact not_lt.1 hgt)
          rw [← hm] at this
          exact this

/-- replacing the root circle by a permutation of it -/
theorem Core.permRoots {H H' : Heap} {Q L : List Nat} (C : Core H N Q kids) (hp : L.Perm Q)
    (ef : H'.key = H.key ∧ H'.value = H.value ∧ H'.parent = H.parent ∧ H'.headC = H.headC ∧ H'.tailC = H.tailC ∧
        H'.numC = H.numC ∧ H'.numTrees = H.numTrees)
    (cr : Circ H'.right H'.left L) (fr : ∀ z, z ∉ L → H'.right z = H.right z ∧ H'.left z = H.left z) :
    Core H' N L kids := by
  obtain ⟨e1, e2, e3, e4, e5, e6, e7⟩ := ef
  have hk : ∀ x ∈ N, ∀ z ∈ kids x, z ∉ L := fun x hx z hz h => C.kid_not_root hx hz (hp.mem_iff.1 h)
  obtain ⟨a1, a2, a3, a4, a5, a6, a7, a8, a9, a10, a11, a12, a13, a14, a15, a16⟩ := C
  constructor
  · intro x hx; exact a1 x (hp.mem_iff.1 hx)
  · exact hp.nodup_iff.2 a2
  · exact a3
  · exact a4
  · intro x hx; rw [e3]; exact a5 x (hp.mem_iff.1 hx)
  · rw [e3]; exact a6
  · intro y hy; rw [hp.mem_iff]; exact a7 y hy
  · exact cr
  · intro x hx; exact circ_congr (fun z hz => (fr z (hk x hx z hz)).1) (fun z hz => (fr z (hk x hx z hz)).2) (a9 x hx)
  · rw [e4]; exact a10
  · rw [e5]; exact a11
  · rw [e6]; exact a12
  · exact a13
  · rw [e2]; exact a14
  · rw [e1]; exact a15
  · rw [e7, a16, hp.length_eq]

theorem consolidate_core {H : Heap} (C : Core H N roots kids) (D : Deg H N kids) (hne : roots ≠ [])
    (hd : ∃ r, H.head = some r ∧ ∃ A B, roots = A ++ B ∧ B.head? = some r) :
    (consolidate H = .error (.oobAt .degreeList) ∧ ¬ Good (dimension H.numNodes) N) ∨
    ∃ H' roots' kids', consolidate H = .ok H' ∧ Core H' N roots' kids' ∧ Deg H' N kids' ∧ H'.head = roots'.head? ∧
      H'.tail = roots'.getLast? ∧ H'.value = H.value ∧ H'.key = H.key ∧ H'.numNodes = H.numNodes ∧
      (∃ m ∈ roots', H'.minRoot = some m ∧ ∀ r ∈ roots', H'.value m ≤ H'.value r) := by
  obtain ⟨r, hr, A, B, hAB, hB⟩ := hd
  have hBne : B ≠ [] := by rintro rfl; simp at hB
  have Cr : Core H N (B ++ A) kids := by
    subst hAB
    exact C.permRoots List.perm_append_comm ⟨rfl, rfl, rfl, rfl, rfl, rfl, rfl⟩ ((circ_rotate _ _).1 C.circR) (fun _ _ => ⟨rfl, rfl⟩)
  have hhead : (B ++ A).head? = some r := by
    cases B with
    | nil => simp at hBne
    | cons b B => simpa using hB
  have hnt : H.numTrees = (B ++ A).length := Cr.nt
  unfold consolidate
  simp only [hr, deref_some, ok_bind, hnt]
  rcases scan_core (dim := dimension H.numNodes) (B ++ A) H (fun _ => none) [] kids r (by simpa using Cr) D
    ⟨by simp, by simp⟩ (by rw [hhead]; simp) with ⟨h, g⟩ | ⟨H1, dl, Q, kids1, e1, C1, D1, T1, v1, k1, n1⟩
  · left; rw [h]; exact ⟨rfl, g⟩
  right
  rw [e1]; simp only [ok_bind]
  set ns := (List.range' 0 (dimension H.numNodes)).filterMap dl with hns
  have hinj : ∀ d d' x, dl d = some x → dl d' = some x → d = d' := by
    intro d d' x h h'
    rw [← ((T1.1 d x).1 h).2, ← ((T1.1 d' x).1 h').2]
  have hmem : ∀ x, x ∈ ns ↔ x ∈ Q := by
    intro x
    rw [hns, List.mem_filterMap]
    constructor
    · rintro ⟨d, _, h⟩; exact ((T1.1 d x).1 h).1
    · intro h
      have hx := (T1.1 (H1.numC x) x).2 ⟨h, rfl⟩
      exact ⟨_, by rw [List.mem_range'_1]; exact ⟨Nat.zero_le _, by simpa using T1.2 _ _ hx⟩, hx⟩
  have hnd : ns.Nodup := by
    apply List.Nodup.filterMap _ (List.nodup_range')
    intro a a' b h h'
    exact hinj a a' b h h'
  have hperm : ns.Perm Q := (List.perm_ext_iff_of_nodup hnd C1.rnd).2 hmem
  obtain ⟨H2, e2, ef, c2, s2, f2, m2⟩ := rebuild_ok dl (dimension H.numNodes) 0 { H1 with minRoot := none } []
    (by simpa using hnd) (Or.inl ⟨rfl, rfl⟩) (Or.inl trivial)
  simp only [List.nil_append, ← hns] at c2 s2 f2 m2
  have hQne : Q ≠ [] := by
    rintro rfl
    obtain ⟨x, hx⟩ := List.exists_mem_of_ne_nil _ hne
    obtain ⟨y, hy, _⟩ := C1.root_le (C.rN x hx)
    simp at hy
  have hnsne : ns ≠ [] := by
    intro h; rw [h] at hperm; exact hQne hperm.nil_eq.symm
  have cr : Circ H2.right H2.left ns := by
    rcases c2 with c | c
    · exact c
    · obtain ⟨x, hx⟩ := List.length_eq_one_iff.1 c
      obtain ⟨hr', hl'⟩ := s2 (by omega)
      rw [hx] at hperm
      have hQ : Q = [x] := (List.singleton_perm.1 hperm).symm
      rw [hx, hr', hl']
      have := C1.circR; rw [hQ] at this; exact this
  refine ⟨H2, ns, kids1, e2, ?_, ?_, ?_, ?_, ?_, ?_, ?_, ?_⟩
  · obtain ⟨g1, g2, g3, g4, g5, g6, g7, g8, g9⟩ := ef
    exact C1.permRoots hperm ⟨g1, g2, g3, g4, g5, g6, g7⟩ cr f2
  · intro x hx i y hy
    rw [ef.2.2.2.2.2.1, ef.2.2.2.2.2.2.2.1]; exact D1 x hx i y hy
  · rcases m2 with ⟨h, _⟩ | ⟨m, _, _, _, h, _⟩
    · exact absurd h hnsne
    · exact h
  · rcases m2 with ⟨h, _⟩ | ⟨m, _, _, _, _, h⟩
    · exact absurd h hnsne
    · exact h
  · rw [ef.2.1]; exact v1
  · rw [ef.1]; exact k1
  · rw [ef.2.2.2.2.2.2.2.2]; exact n1
  · rcases m2 with ⟨h, _⟩ | ⟨m, h1, h2, h3, _⟩
    · exact absurd h hnsne
    · refine ⟨m, h1, h2, ?_⟩
      rw [ef.2.1]; exact h3

/-- `extract_min` on a non-empty heap -/
theorem extract_inv (I : Inv H N roots kids) (hN : N.Nonempty) :
    (extractMin H = .error (.oobAt .degreeList) ∧ ∃ m ∈ N, ¬ Good (dimension N.card) (N.erase m)) ∨
    ∃ m H' roots' kids', extractMin H = .ok (some (H.key m), H') ∧ m ∈ N ∧ (∀ x ∈ N, H.value m ≤ H.value x) ∧
      Inv H' (N.erase m) roots' kids' ∧ H'.value = H.value ∧ H'.key = H.key := by
  have hrne : roots ≠ [] := by rw [Ne, I.roots_nil]; rintro rfl; simp at hN
  obtain ⟨m, hmr, hm, hmin⟩ : ∃ m ∈ roots, H.minRoot = some m ∧ ∀ r ∈ roots, H.value m ≤ H.value r := by
    rcases I.min with ⟨h, _⟩ | h
    · exact absurd h hrne
    · exact h
  have C := I.core
  have hmN := C.rN m hmr
  have hminN : ∀ x ∈ N, H.value m ≤ H.value x := fun x hx => (I.min_le hm hx).2
  obtain ⟨H1, e1, C1, D1, h1, t1, v1, k1, n1, m1⟩ := promote_core (kids m) H roots kids C I.deg hmr rfl I.hd I.tl
  have hnc : H.numC m = (kids m).length := C.nc m hmN
  unfold extractMin
  simp only [hm, hnc, e1, ok_bind]
  -- the root list with the children of `m` appended
  set rs := roots ++ kids m with hrs
  have hmrs : m ∈ rs := by simp [hrs, hmr]
  have hrsne : rs ≠ [] := by rintro h; rw [h] at hmrs; simp at hmrs
  have hhd : H1.head = rs.head? := by
    rw [h1]; cases hr : roots with
    | nil => exact absurd hr hrne
    | cons a l => simp [hrs, hr]
  have htl : H1.tail = rs.getLast? := t1
  obtain ⟨A, B, hAB⟩ := mem_split hmrs
  have nd := C1.rnd
  rw [hAB] at nd
  have nd' := (List.perm_middle (a := m) (l₁ := A) (l₂ := B)).nodup_iff.1 nd
  have hmAB : m ∉ A ++ B := (List.nodup_cons.1 nd').1
  have C1' : Core H1 N (A ++ m :: B) (upd kids m []) := hAB ▸ C1
  have kinj : ∀ x ∈ rs, H1.key x = H1.key m → x = m := fun x hx h => C1.kinj x (C1.rN x hx) m hmN h
  obtain ⟨hd, hdE⟩ : ∃ a, rs.head? = some a := by
    cases hr : rs with
    | nil => exact absurd hr hrsne
    | cons a l => exact ⟨a, rfl⟩
  obtain ⟨tl, tlE⟩ : ∃ b, rs.getLast? = some b := by
    rw [List.getLast?_eq_some_getLast hrsne]; exact ⟨_, rfl⟩
  rw [hdE] at hhd; rw [tlE] at htl
  have hdm : hd ∈ rs := List.mem_of_mem_head? (by rw [hdE]; simp)
  have tlm : tl ∈ rs := List.mem_of_getLast? tlE
  simp only [hhd, deref_some, ok_bind]
  by_cases hsing : A ++ B = []
  · -- last node of the heap
    obtain ⟨rfl, rfl⟩ := List.append_eq_nil_iff.1 hsing
    simp only [List.nil_append] at hAB C1'
    have hdm' : hd = m := by rw [hAB] at hdm; simpa using hdm
    have tlm' : tl = m := by rw [hAB] at tlm; simpa using tlm
    subst hdm'
    obtain ⟨hR, hL⟩ := circ_single C1'.circR
    right
    have hNer : N.erase hd = ∅ := by
      rw [Finset.eq_empty_iff_forall_notMem]
      intro x hx
      obtain ⟨hxm, hxN⟩ := Finset.mem_erase.1 hx
      obtain ⟨ht, hht⟩ := C1'.ht
      -- climb: every node of a one-root forest whose root has no children is the root
      rcases C1'.up x hxN with h | ⟨p, hp, hxp⟩
      · simp at h; exact hxm h
      · have : ∀ n y, y ∈ N → N.sup ht - ht y ≤ n → y = hd := by
          intro n
          induction n with
          | zero =>
            intro y hy hn
            rcases C1'.up y hy with h | ⟨q, hq, hyq⟩
            · simpa using h
            · have h1 := hht q hq y hyq
              have h2 : ht q ≤ N.sup ht := Finset.le_sup hq
              omega
          | succ n ihn =>
            intro y hy hn
            rcases C1'.up y hy with h | ⟨q, hq, hyq⟩
            · simpa using h
            · have h1 := hht q hq y hyq
              have h2 : ht q ≤ N.sup ht := Finset.le_sup hq
              have h3 := ihn q hq (by omega)
              subst h3
              simp at hyq
        exact hxm (this _ x hxN le_rfl)
    subst tlm'
    simp only [↓reduceIte, htl, deref_some, ok_bind, unlink, hL, hR, upd_self, pure_eq_ok, k1]
    refine ⟨tl, _, [], fun _ => [], rfl, hmN, hminN, ?_, v1, rfl⟩
    rw [hNer]
    constructor
    · constructor <;> simp
    · intro x hx; simp at hx
    · rfl
    · rfl
    · show H1.numNodes - 1 = _
      rw [n1, I.num]
      have := Finset.card_erase_of_mem hmN
      rw [hNer] at this; exact this.symm
    · left; exact ⟨rfl, rfl⟩
  · -- other roots remain
    obtain ⟨cr, hRm, hLm⟩ := circ_remove nd C1'.circR hsing
    have hRne : H1.right m ≠ m := fun h => hmAB (h ▸ hRm)
    have hRrs : H1.right m ∈ rs := by rw [hAB]; simp at hRm ⊢; tauto
    have hkey : H1.key m ≠ H1.key (H1.right m) := fun h => hRne (kinj _ hRrs h.symm)
    have hkey2 : ∀ x, x ∈ rs → (H1.key x = H1.key m ↔ x = m) := fun x hx => ⟨kinj x hx, by rintro rfl; rfl⟩
    -- new head and its place in the list
    have hdeg : Deg H1 (N.erase m) (upd kids m []) := fun x hx => D1 x (Finset.mem_erase.1 hx).2
    have fin : ∀ (hd' tl' : Nat) (X : Heap), hd' ∈ A ++ B → X = { H1 with
                  numTrees := H1.numTrees - 1, head := some hd', tail := some tl'
                  right := upd H1.right (H1.left m) (H1.right m)
                  left := upd H1.left (H1.right m) (H1.left m)
                  minRoot := some (H1.right m) } →
        ((consolidate X >>= fun H6 => (pure (some (H1.key m), { H6 with numNodes := H6.numNodes - 1 }) : Res (Option Nat × Heap)))
            = .error (.oobAt .degreeList) ∧ ∃ m ∈ N, ¬ Good (dimension N.card) (N.erase m)) ∨
        ∃ m_1 H' roots' kids', (consolidate X >>= fun H6 =>
            (pure (some (H1.key m), { H6 with numNodes := H6.numNodes - 1 }) : Res (Option Nat × Heap))) = .ok (some (H1.key m_1), H') ∧ m_1 ∈ N ∧
          (∀ x ∈ N, H.value m_1 ≤ H.value x) ∧ Inv H' (N.erase m_1) roots' kids' ∧ H'.value = H.value ∧ H'.key = H1.key := by
      intro hd' tl' X hh hX
      have CX : Core X (N.erase m) (A ++ B) (upd kids m []) :=
        remove_core C1' (by simp) hsing (by rw [hX]) (by rw [hX]) (by rw [hX]) (by rw [hX]) (by rw [hX]) (by rw [hX])
          (by rw [hX]) (by rw [hX]) (by rw [hX])
      obtain ⟨P, S, hPS⟩ := mem_split hh
      have hcard : X.numNodes = N.card := by rw [hX]; show H1.numNodes = _; rw [n1, I.num]
      have hXd : Deg X (N.erase m) (upd kids m []) := by rw [hX]; exact hdeg
      rcases consolidate_core CX hXd hsing ⟨hd', by rw [hX], P, hd' :: S, hPS, rfl⟩ with
        ⟨h, g⟩ | ⟨H2, r2, kids2, e2, C2, D2, h2, t2, v2, k2, n2, m2⟩
      · left; rw [h]; rw [hcard] at g; exact ⟨rfl, m, hmN, g⟩
      · right
        rw [e2]
        refine ⟨m, _, r2, kids2, rfl, hmN, hminN, ?_, ?_, ?_⟩
        · refine ⟨C2.congr rfl rfl rfl rfl rfl rfl rfl rfl rfl, D2, h2, t2, ?_, Or.inr m2⟩
          show H2.numNodes - 1 = _
          rw [n2, hcard, Finset.card_erase_of_mem hmN]
        · show H2.value = _; rw [v2, hX]; exact v1
        · show H2.key = _; rw [k2, hX]
    have hABmem : ∀ x ∈ rs, x ≠ m → x ∈ A ++ B := by
      intro x hx hne; rw [hAB] at hx; simp at hx ⊢; tauto
    rw [← k1]
    have hup : upd H1.right (H1.left m) (H1.right m) m = H1.right m := by
      rw [upd_apply]; split <;> rfl
    by_cases c1 : hd = m
    · subst c1
      simp only [↓reduceIte, htl, deref_some, ok_bind]
      by_cases c2 : tl = hd
      · subst c2
        simp only [↓reduceIte, unlink, hup, hkey]
        exact fin _ _ _ hRm rfl
      · have : ¬ H1.key tl = H1.key hd := by rw [hkey2 tl tlm]; exact c2
        simp only [this, ↓reduceIte, unlink, hup, hkey]
        exact fin _ tl _ hRm rfl
    · have hc1 : ¬ H1.key hd = H1.key m := by rw [hkey2 hd hdm]; exact c1
      simp only [hc1, ↓reduceIte, htl, deref_some, ok_bind]
      by_cases c2 : tl = m
      · subst c2
        simp only [↓reduceIte, unlink, hup, hkey]
        exact fin hd _ _ (hABmem hd hdm c1) rfl
      · have hc2 : ¬ H1.key tl = H1.key m := by rw [hkey2 tl tlm]; exact c2
        simp only [hc2, ↓reduceIte, unlink, hup, hkey]
        exact fin hd tl _ (hABmem hd hdm c1) rfl

theorem extract_empty (I : Inv H N roots kids) (hN : N = ∅) : extractMin H = .ok (none, H) := by
  have : H.minRoot = none := by
    rcases I.min with ⟨_, h⟩ | ⟨m, h1, _⟩
    · exact h
    · have := I.core.rN m h1; rw [hN] at this; simp at this
  simp [extractMin, this]

end Verif.Fib
