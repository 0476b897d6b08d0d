import Verif.Model.Sort
import Verif.Spec.Order
import Mathlib.Logic.Equiv.Basic
import Mathlib.Data.List.Perm.Basic
import Mathlib.Data.List.Range
import Mathlib.Tactic.Linarith
import Mathlib.Data.List.Nodup

namespace Verif.Sort
open Verif Verif.Spec
set_option autoImplicit false

/-- `g'` comes from `g` by swaps at indices between `f` and `l` -/
inductive Swaps (f l : Nat) : Graph → Graph → Prop where
  | refl (g : Graph) : Swaps f l g g
  | step {g g' : Graph} {a b : Nat} : Swaps f l g g' → f ≤ a → a ≤ l → f ≤ b → b ≤ l → Swaps f l g (swap g' a b)

theorem Swaps.trans {f l : Nat} {g g1 g2 : Graph} (h1 : Swaps f l g g1) (h2 : Swaps f l g1 g2) : Swaps f l g g2 := by
  induction h2 with
  | refl => exact h1
  | step _ a b c d ih => exact ih.step a b c d

theorem Swaps.mono {f l f' l' : Nat} {g g1 : Graph} (h : Swaps f l g g1) (hf : f' ≤ f) (hl : l ≤ l') : Swaps f' l' g g1 := by
  induction h with
  | refl => exact .refl _
  | step _ a b c d ih => exact ih.step (by omega) (by omega) (by omega) (by omega)

theorem swap_edges (g : Graph) (a b i : Nat) : (swap g a b).edges i =
    if i = b then { (g.edges a) with pos := b } else if i = a then { (g.edges b) with pos := a } else g.edges i := by
  unfold swap setPos
  simp only [upd_apply]
  by_cases h1 : i = b <;> by_cases h2 : i = a
  · subst h1; subst h2; simp
  · subst h1; simp [h2]
    by_cases h : a = i
    · exact absurd h.symm h2
    · simp [h]
  · subst h2; simp [h1, Ne.symm h1]
  · simp [h1, h2]

theorem swap_content (g : Graph) (a b i : Nat) : content ((swap g a b).edges i) = content (g.edges (Equiv.swap a b i)) := by
  rw [swap_edges]
  by_cases h1 : i = b
  · subst h1; simp [content]
  · by_cases h2 : i = a
    · subst h2; simp [content, h1]
    · simp [h1, h2, Equiv.swap_apply_of_ne_of_ne h2 h1]

theorem setPos_mat (g : Graph) (p q k x y : Nat) : (setPos g p q k).mat x y =
    { (g.mat x y) with pos := if x = p ∧ y = q then k else (g.mat x y).pos } := by
  unfold setPos
  simp only [upd2_apply]
  split
  · rename_i h; rw [h.1, h.2]
  · rfl

theorem setPos_edges (g : Graph) (p q k : Nat) : (setPos g p q k).edges = g.edges := rfl

theorem swap_mat (g : Graph) (a b x y : Nat) : (swap g a b).mat x y = { (g.mat x y) with pos :=
    if x = (g.edges b).dest ∧ y = (g.edges b).src then a else
    if x = (g.edges a).dest ∧ y = (g.edges a).src then b else
    if x = (g.edges b).src ∧ y = (g.edges b).dest then a else
    if x = (g.edges a).src ∧ y = (g.edges a).dest then b else (g.mat x y).pos } := by
  unfold swap
  simp only [setPos_mat, setPos_edges]

/-- what a sequence of swaps keeps -/
structure Kept (f l : Nat) (g g' : Graph) : Prop where
  nodes : g'.nodes = g.nodes
  numNodes : g'.numNodes = g.numNodes
  numEdges : g'.numEdges = g.numEdges
  cost : g'.cost = g.cost
  ordered : g'.ordered = g.ordered
  mat : ∀ x y, content (g'.mat x y) = content (g.mat x y)
  perm : ∃ σ : Equiv.Perm Nat, (∀ i, content (g'.edges i) = content (g.edges (σ i))) ∧
    (∀ i, ¬ (f ≤ i ∧ i ≤ l) → σ i = i ∧ g'.edges i = g.edges i)

theorem Swaps.kept {f l : Nat} {g g' : Graph} (h : Swaps f l g g') : Kept f l g g' := by
  induction h with
  | refl => exact ⟨rfl, rfl, rfl, rfl, rfl, fun _ _ => rfl, Equiv.refl _, fun _ => rfl, fun _ _ => ⟨rfl, rfl⟩⟩
  | @step g1 a b hs ha hal hb hbl ih =>
    obtain ⟨k1, k2, k3, k4, k5, k6, σ, hσ, hf⟩ := ih
    refine ⟨k1, k2, k3, k4, k5, ?_, (Equiv.swap a b).trans σ, ?_, ?_⟩
    · intro x y; rw [swap_mat]; exact k6 x y
    · intro i; rw [swap_content, hσ]; rfl
    · intro i hi
      have hia : i ≠ a := by rintro rfl; omega
      have hib : i ≠ b := by rintro rfl; omega
      refine ⟨?_, ?_⟩
      · rw [Equiv.trans_apply, Equiv.swap_apply_of_ne_of_ne hia hib]; exact (hf i hi).1
      · rw [swap_edges]; simp [hia, hib, (hf i hi).2]

theorem Kept.perm_in {f l : Nat} {σ : Equiv.Perm Nat} (h : ∀ i, ¬ (f ≤ i ∧ i ≤ l) → σ i = i) {i : Nat}
    (hi : f ≤ i ∧ i ≤ l) : f ≤ σ i ∧ σ i ≤ l := by
  by_contra hc
  have h1 := h (σ i) hc
  have h2 := σ.injective h1
  rw [h2] at hc; exact hc hi

/-- a property of contents that holds on a range still holds on it after swaps inside any subrange -/
theorem Swaps.forall_range {f l f' l' : Nat} {g g' : Graph} (h : Swaps f l g g') (P : Edge → Prop)
    (hP : ∀ e e', content e = content e' → P e → P e') (hall : ∀ i, f' ≤ i → i ≤ l' → P (g.edges i))
    (hsub : (f' ≤ f ∧ l ≤ l') ∨ l' < f ∨ l < f') : ∀ i, f' ≤ i → i ≤ l' → P (g'.edges i) := by
  obtain ⟨-, -, -, -, -, -, σ, hσ, hf⟩ := h.kept
  intro i h1 h2
  by_cases hi : f ≤ i ∧ i ≤ l
  · have := Kept.perm_in (fun i hi => (hf i hi).1) hi
    exact hP _ _ (hσ i).symm (hall _ (by omega) (by omega))
  · rw [(hf i hi).2]; exact hall i h1 h2

theorem Swaps.simple {f l : Nat} {g g' : Graph} (h : Swaps f l g g') (hl : l < g.numEdges) (hs : Simple g) (hp : Positions g) :
    Simple g' ∧ Positions g' := by
  induction h with
  | refl => exact ⟨hs, hp⟩
  | @step g1 a b hsw ha hal hb hbl ih =>
    obtain ⟨s1, p1⟩ := ih
    have hn : g1.numEdges = g.numEdges := hsw.kept.numEdges
    have hn' : (swap g1 a b).numEdges = g1.numEdges := rfl
    have hA : a < g1.numEdges := by omega
    have hB : b < g1.numEdges := by omega
    have hlt : ∀ i < g1.numEdges, Equiv.swap a b i < g1.numEdges := by
      intro i hi
      by_cases h1 : i = a
      · subst h1; simpa using hB
      · by_cases h2 : i = b
        · subst h2; simpa using hA
        · rw [Equiv.swap_apply_of_ne_of_ne h1 h2]; exact hi
    have hc : ∀ i, ((swap g1 a b).edges i).src = (g1.edges (Equiv.swap a b i)).src ∧
        ((swap g1 a b).edges i).dest = (g1.edges (Equiv.swap a b i)).dest := by
      intro i
      have := swap_content g1 a b i
      simp only [content, Prod.mk.injEq] at this
      exact ⟨this.1, this.2.1⟩
    refine ⟨?_, ?_⟩
    · intro i hi j hj he
      rw [(hc i).1, (hc i).2, (hc j).1, (hc j).2] at he
      exact (Equiv.swap a b).injective (s1 _ (hlt i hi) _ (hlt j hj) he)
    · intro i hi
      rw [hn'] at hi
      have hpos : ((swap g1 a b).edges i).pos = i := by
        rw [swap_edges]; split
        · rename_i h; exact h.symm
        · split
          · rename_i h; exact h.symm
          · exact (p1 i hi).1
      refine ⟨hpos, ?_⟩
      rw [(hc i).1, (hc i).2]
      set k := Equiv.swap a b i with hk
      have hkl := hlt i hi
      have hki : i = Equiv.swap a b k := by rw [hk, Equiv.swap_apply_self]
      obtain ⟨_, q1, q2⟩ := p1 k hkl
      -- matching end points force equal indices
      have sa := s1 k hkl a hA
      have sb := s1 k hkl b hB
      have d1 : (g1.edges k).src = (g1.edges a).src ∧ (g1.edges k).dest = (g1.edges a).dest → k = a := by
        rintro ⟨e1, e2⟩; exact sa (by rw [e1, e2])
      have d2 : (g1.edges k).src = (g1.edges a).dest ∧ (g1.edges k).dest = (g1.edges a).src → k = a := by
        rintro ⟨e1, e2⟩; exact sa (by rw [e1, e2, Sym2.eq_swap])
      have d3 : (g1.edges k).src = (g1.edges b).src ∧ (g1.edges k).dest = (g1.edges b).dest → k = b := by
        rintro ⟨e1, e2⟩; exact sb (by rw [e1, e2])
      have d4 : (g1.edges k).src = (g1.edges b).dest ∧ (g1.edges k).dest = (g1.edges b).src → k = b := by
        rintro ⟨e1, e2⟩; exact sb (by rw [e1, e2, Sym2.eq_swap])
      have comm : ∀ {p q : Prop}, p ∧ q → q ∧ p := fun h => ⟨h.2, h.1⟩
      rw [swap_mat, swap_mat]
      simp only
      by_cases ka : k = a
      · have hi' : i = b := by rw [hki, ka]; simp
        subst hi'
        rw [ka]
        by_cases hab : a = i
        · subst hab; simp
        · have n1 : ¬ ((g1.edges a).src = (g1.edges i).src ∧ (g1.edges a).dest = (g1.edges i).dest) := by
            intro h; exact hab (ka ▸ d3 (by rw [ka]; exact h))
          have n2 : ¬ ((g1.edges a).src = (g1.edges i).dest ∧ (g1.edges a).dest = (g1.edges i).src) := by
            intro h; exact hab (ka ▸ d4 (by rw [ka]; exact h))
          have n3 : ¬ ((g1.edges a).dest = (g1.edges i).dest ∧ (g1.edges a).src = (g1.edges i).src) := fun h => n1 (comm h)
          have n4 : ¬ ((g1.edges a).dest = (g1.edges i).src ∧ (g1.edges a).src = (g1.edges i).dest) := fun h => n2 (comm h)
          simp [n1, n2, n3, n4]
      · by_cases kb : k = b
        · have hi' : i = a := by rw [hki, kb]; simp
          subst hi'
          rw [kb]
          have n1 : ¬ ((g1.edges b).src = (g1.edges i).src ∧ (g1.edges b).dest = (g1.edges i).dest) := by
            intro h; exact ka (d1 (by rw [kb]; exact h))
          have n2 : ¬ ((g1.edges b).src = (g1.edges i).dest ∧ (g1.edges b).dest = (g1.edges i).src) := by
            intro h; exact ka (d2 (by rw [kb]; exact h))
          have n3 : ¬ ((g1.edges b).dest = (g1.edges i).dest ∧ (g1.edges b).src = (g1.edges i).src) := fun h => n1 (comm h)
          have n4 : ¬ ((g1.edges b).dest = (g1.edges i).src ∧ (g1.edges b).src = (g1.edges i).dest) := fun h => n2 (comm h)
          simp [n1, n2, n3, n4]
        · have hik : i = k := by rw [hki, Equiv.swap_apply_of_ne_of_ne ka kb]
          have n1 := fun h => ka (d1 h)
          have n2 := fun h => ka (d2 h)
          have n3 := fun h => kb (d3 h)
          have n4 := fun h => kb (d4 h)
          have m1 : ¬ ((g1.edges k).dest = (g1.edges a).dest ∧ (g1.edges k).src = (g1.edges a).src) := fun h => n1 (comm h)
          have m2 : ¬ ((g1.edges k).dest = (g1.edges a).src ∧ (g1.edges k).src = (g1.edges a).dest) := fun h => n2 (comm h)
          have m3 : ¬ ((g1.edges k).dest = (g1.edges b).dest ∧ (g1.edges k).src = (g1.edges b).src) := fun h => n3 (comm h)
          have m4 : ¬ ((g1.edges k).dest = (g1.edges b).src ∧ (g1.edges k).src = (g1.edges b).dest) := fun h => n4 (comm h)
          rw [if_neg n4, if_neg n2, if_neg n3, if_neg n1, if_neg m3, if_neg m1, if_neg m4, if_neg m2, q1, q2, hik]
          exact ⟨rfl, rfl⟩

theorem up_eq (h : Bool) (pw pp : ℚ) (e : Edge) : up h pw pp e = !down h pw pp e := by
  unfold up down
  rcases lt_trichotomy e.weight pw with hw | hw | hw <;> cases h
  · simp [hw.le]
  · simp [hw, hw.le, hw.ne, hw.ne']
  · simp [hw]
  · rw [Bool.eq_iff_iff]; simp [hw]
  · simp [hw]
  · simp [hw, hw.le, hw.ne, hw.ne']

theorem down_false {h : Bool} {a b : Edge} : down h b.weight b.prob a = false ↔ Before h a b := by
  unfold down Before
  rcases lt_trichotomy a.weight b.weight with hw | hw | hw <;> cases h
  · simp [hw, hw.le]
  · simp [hw, hw.le, hw.ne]
  · simp [hw]
  · simp [hw]
  · simp [hw, hw.ne', hw.le]
  · simp [hw, hw.ne', hw.le]

theorem down_true {h : Bool} {a b : Edge} (hd : down h b.weight b.prob a = true) : Before h b a := by
  unfold down at hd
  unfold Before
  rcases lt_trichotomy a.weight b.weight with hw | hw | hw
  · simp [hw, hw.le, hw.ne, not_lt.2 hw.le] at hd
  · right
    refine ⟨hw.symm, fun hh => ?_⟩
    simp [hw, hh] at hd
    exact hd.le
  · exact Or.inl hw

theorem before_trans {h : Bool} {a b c : Edge} (h1 : Before h a b) (h2 : Before h b c) : Before h a c := by
  unfold Before at *
  rcases h1 with h1 | ⟨h1, g1⟩ <;> rcases h2 with h2 | ⟨h2, g2⟩
  · left; linarith
  · left; linarith
  · left; linarith
  · right; exact ⟨h1.trans h2, fun hh => le_trans (g2 hh) (g1 hh)⟩

theorem before_congr {h : Bool} {a b a' b' : Edge} (ha : content a = content a') (hb : content b = content b')
    (hh : Before h a b) : Before h a' b' := by
  simp only [content, Prod.mk.injEq] at ha hb
  unfold Before at *
  rw [← ha.2.2.2.1, ← ha.2.2.2.2, ← hb.2.2.2.1, ← hb.2.2.2.2]; exact hh

theorem down_congr {h : Bool} {pw pp : ℚ} {a a' : Edge} (ha : content a = content a') : down h pw pp a = down h pw pp a' := by
  simp only [content, Prod.mk.injEq] at ha
  unfold down; rw [ha.2.2.2.1, ha.2.2.2.2]

variable {hy : Bool} {cap : Nat} {pw pp : ℚ}

theorem rd_ok {g : Graph} {i : Nat} (h : i < cap) : rd cap g i = .ok (g.edges i) := by simp [rd, h]

theorem scanUp_ok {g : Graph} {j : Nat} (hc : j + 1 < cap) : ∀ (k i : Nat), i ≤ j + 1 → j + 1 < i + k →
    ∃ i', scanUp hy cap g pw pp j k i = .ok i' ∧ i ≤ i' ∧ i' ≤ j + 1 ∧
      (∀ x, i ≤ x → x < i' → down hy pw pp (g.edges x) = false) ∧ (i' ≤ j → down hy pw pp (g.edges i') = true) := by
  intro k
  induction k with
  | zero => intro i h1 h2; omega
  | succ k ih =>
    intro i h1 h2
    rw [scanUp, rd_ok (by omega)]
    simp only [ok_bind, up_eq]
    by_cases hij : i ≤ j
    · cases hd : down hy pw pp (g.edges i) with
      | false =>
        simp only [hij, decide_true, Bool.not_false, Bool.and_self, ↓reduceIte]
        obtain ⟨i', e, q1, q2, q3, q4⟩ := ih (i + 1) (by omega) (by omega)
        refine ⟨i', e, by omega, q2, ?_, q4⟩
        intro x hx1 hx2
        by_cases hx : x = i
        · rw [hx]; exact hd
        · exact q3 x (by omega) hx2
      | true =>
        simp only [Bool.not_true, Bool.and_false, Bool.false_eq_true, ↓reduceIte, pure_eq_ok]
        exact ⟨i, rfl, le_refl _, h1, fun x _ _ => by omega, fun _ => hd⟩
    · simp only [hij, decide_false, Bool.false_and, Bool.false_eq_true, ↓reduceIte, pure_eq_ok]
      exact ⟨i, rfl, le_refl _, h1, fun x _ _ => by omega, fun h => by omega⟩

theorem scanDown_ok {g : Graph} {i : Nat} (hi : 1 ≤ i) : ∀ (k j : Nat), i ≤ j + 1 → j < cap → j + 1 < i + k →
    ∃ j', scanDown hy cap g pw pp i k j = .ok j' ∧ i ≤ j' + 1 ∧ j' ≤ j ∧
      (∀ x, j' < x → x ≤ j → down hy pw pp (g.edges x) = true) ∧ (i ≤ j' → down hy pw pp (g.edges j') = false) := by
  intro k
  induction k with
  | zero => intro j h1 h2 h3; omega
  | succ k ih =>
    intro j h1 h2 h3
    rw [scanDown, rd_ok h2]
    simp only [ok_bind]
    by_cases hij : i ≤ j
    · cases hd : down hy pw pp (g.edges j) with
      | true =>
        simp only [hij, decide_true, Bool.and_self, ↓reduceIte]
        obtain ⟨j', e, q1, q2, q3, q4⟩ := ih (j - 1) (by omega) (by omega) (by omega)
        refine ⟨j', e, q1, by omega, ?_, q4⟩
        intro x hx1 hx2
        by_cases hx : x = j
        · rw [hx]; exact hd
        · exact q3 x hx1 (by omega)
      | false =>
        simp only [Bool.and_false, Bool.false_eq_true, ↓reduceIte, pure_eq_ok]
        exact ⟨j, rfl, h1, le_refl _, fun x _ _ => by omega, fun _ => hd⟩
    · simp only [hij, decide_false, Bool.false_and, Bool.false_eq_true, ↓reduceIte, pure_eq_ok]
      exact ⟨j, rfl, h1, le_refl _, fun x _ _ => by omega, fun h => by omega⟩

theorem partLoop_ok {first last : Nat} (hc : last + 1 < cap) : ∀ (k : Nat) (g : Graph) (i j : Nat) (fresh : Nat),
    first < i → i ≤ j + 1 → j ≤ last → 
    (∀ x, first < x → x < i → down hy pw pp (g.edges x) = false) →
    (∀ x, j < x → x ≤ last → down hy pw pp (g.edges x) = true) →
    ((i ≤ j → down hy pw pp (g.edges i) = false ∧ down hy pw pp (g.edges j) = true) ∨ fresh = 1) →
    j + 1 + fresh < i + k →
    ∃ g' j', partLoop hy cap pw pp k g i j = .ok (g', j') ∧ Swaps (first + 1) last g g' ∧ first ≤ j' ∧ j' ≤ last ∧
      (∀ x, first < x → x ≤ j' → down hy pw pp (g'.edges x) = false) ∧
      (∀ x, j' < x → x ≤ last → down hy pw pp (g'.edges x) = true) := by
  intro k
  induction k with
  | zero => intro g i j fresh h1 h2 h3 h4 h5 h6 h7; omega
  | succ k ih =>
    intro g i j fresh h1 h2 h3 h4 h5 h6 h7
    rw [partLoop]
    obtain ⟨i', e1, a1, a2, a3, a4⟩ := scanUp_ok (hy := hy) (cap := cap) (pw := pw) (pp := pp) (g := g) (j := j)
      (by omega) (j + 2 - i + 1) i h2 (by omega)
    obtain ⟨j', e2, b1, b2, b3, b4⟩ := scanDown_ok (hy := hy) (cap := cap) (pw := pw) (pp := pp) (g := g) (i := i')
      (by omega) (j + 1) j a2 (by omega) (by omega)
    rw [e1]; simp only [ok_bind]; rw [e2]; simp only [ok_bind]
    by_cases hij : i' ≤ j'
    · simp only [hij, ↓reduceIte]
      have hne : i' ≠ j' := by
        rintro rfl
        have := a4 (by omega); rw [b4 (le_refl _)] at this; simp at this
      have di := a4 (by omega)
      have dj := b4 hij
      have ed : ∀ x, x ≠ i' → x ≠ j' → (swap g i' j').edges x = g.edges x := by
        intro x h1 h2; rw [swap_edges]; simp [h1, h2]
      have edi : down hy pw pp ((swap g i' j').edges i') = false := by
        rw [swap_edges]; simp only [hne, ↓reduceIte]; exact dj
      have edj : down hy pw pp ((swap g i' j').edges j') = true := by
        rw [swap_edges]; simp only [↓reduceIte]; exact di
      have hprog : fresh = 1 ∨ (i < i' ∧ j' < j) := by
        rcases h6 with h6 | h6
        · right
          obtain ⟨g1, g2⟩ := h6 (by omega)
          constructor
          · by_contra hc
            have : i' = i := by omega
            rw [this, g1] at di; simp at di
          · by_contra hc
            have : j' = j := by omega
            rw [this, g2] at dj; simp at dj
        · exact Or.inl h6
      obtain ⟨g', jf, e, sw, c1, c2, c3, c4⟩ := ih (swap g i' j') i' j' 0 (by omega) (by omega) (by omega)
        (by
          intro x hx1 hx2
          rw [ed x (by omega) (by omega)]
          by_cases hx : x < i
          · exact h4 x hx1 hx
          · exact a3 x (by omega) hx2)
        (by
          intro x hx1 hx2
          rw [ed x (by omega) (by omega)]
          by_cases hx : j < x
          · exact h5 x hx hx2
          · exact b3 x hx1 (by omega))
        (Or.inl (fun _ => ⟨edi, edj⟩)) (by omega)
      exact ⟨g', jf, e, ((Swaps.refl g).step (by omega) (by omega) (by omega) (by omega)).trans sw, c1, c2, c3, c4⟩
    · simp only [hij, ↓reduceIte, pure_eq_ok]
      refine ⟨g, j', rfl, .refl _, by omega, by omega, ?_, ?_⟩
      · intro x hx1 hx2
        by_cases hx : x < i
        · exact h4 x hx1 hx
        · exact a3 x (by omega) (by omega)
      · intro x hx1 hx2
        by_cases hx : j < x
        · exact h5 x hx hx2
        · exact b3 x hx1 (by omega)

theorem choosePivot_ok {g : Graph} {first last : Nat} (h : first < last) (hc : last < cap) :
    ∃ g' pw pp, choosePivot hy cap g first last = .ok (g', pw, pp) ∧ Swaps first last g g' ∧
      (g'.edges first).weight = pw ∧ (g'.edges first).prob = pp := by
  have hm : first ≤ (first + last) / 2 ∧ (first + last) / 2 ≤ last := by omega
  unfold choosePivot
  have hm' : (first + last) / 2 < cap := by omega
  simp only [rd_ok hc, rd_ok (by omega : first < cap), rd_ok hm', ok_bind, pure_eq_ok]
  have sw : ∀ b, first ≤ b → b ≤ last → Swaps first last g (swap g first b) := fun b h1 h2 =>
    (Swaps.refl g).step (le_refl _) h.le h1 h2
  have swe : ∀ b, ((swap g first b).edges first).weight = (g.edges b).weight ∧
      ((swap g first b).edges first).prob = (g.edges b).prob := by
    intro b; rw [swap_edges]; split
    · rename_i h; subst h; exact ⟨rfl, rfl⟩
    · simp
  split
  · split
    · split
      · exact ⟨_, _, _, rfl, sw _ hm.1 hm.2, swe _⟩
      · exact ⟨_, _, _, rfl, .refl _, rfl, rfl⟩
    · exact ⟨_, _, _, rfl, sw _ h.le (le_refl _), swe _⟩
  · split
    · exact ⟨_, _, _, rfl, sw _ h.le (le_refl _), swe _⟩
    · split
      · exact ⟨_, _, _, rfl, sw _ hm.1 hm.2, swe _⟩
      · exact ⟨_, _, _, rfl, .refl _, rfl, rfl⟩

theorem pivot_ok {g : Graph} {first last : Nat} (h : first < last) (hc : last + 1 < cap) :
    ∃ g' j, pivotQuicksort hy cap g first last = .ok (g', j) ∧ Swaps first last g g' ∧ first ≤ j ∧ j ≤ last ∧
      (∀ x, first ≤ x → x < j → Before hy (g'.edges x) (g'.edges j)) ∧
      (∀ x, j < x → x ≤ last → Before hy (g'.edges j) (g'.edges x)) := by
  obtain ⟨g1, pw, pp, e1, s1, rfl, rfl⟩ := choosePivot_ok (hy := hy) (g := g) h (by omega : last < cap)
  obtain ⟨g2, j, e2, s2, c1, c2, c3, c4⟩ := partLoop_ok (hy := hy) (cap := cap) (first := first) (last := last)
    (pw := (g1.edges first).weight) (pp := (g1.edges first).prob) hc
    (last - first + 2) g1 (first + 1) last 1 (by omega) (by omega) (le_refl _) (fun x _ _ => by omega)
    (fun x _ _ => by omega) (Or.inr rfl) (by omega)
  have hfirst : g2.edges first = g1.edges first := by
    obtain ⟨-, -, -, -, -, -, σ, hσ, hf⟩ := s2.kept
    exact (hf first (by omega)).2
  rw [← hfirst] at c3 c4
  unfold pivotQuicksort
  rw [e1]; simp only [ok_bind]; rw [e2]; simp only [ok_bind]
  have s12 := s1.trans (s2.mono (by omega) (le_refl _))
  by_cases hj : j = first
  · subst hj
    simp only [ne_eq, not_true_eq_false, ↓reduceIte, pure_eq_ok]
    exact ⟨g2, j, rfl, s12, c1, c2, fun x _ _ => by omega, fun x h1 h2 => down_true (c4 x h1 h2)⟩
  · simp only [ne_eq, hj, not_false_eq_true, ↓reduceIte, pure_eq_ok]
    refine ⟨_, j, rfl, s12.step (le_refl _) (by omega) c1 c2, c1, c2, ?_, ?_⟩
    · intro x h1 h2
      have ej : content ((swap g2 first j).edges j) = content (g2.edges first) := by rw [swap_content]; simp
      by_cases hx : x = first
      · subst hx
        have ex : content ((swap g2 x j).edges x) = content (g2.edges j) := by rw [swap_content]; simp
        exact before_congr ex.symm ej.symm (down_false.1 (c3 j (by omega) (le_refl _)))
      · have ex : (swap g2 first j).edges x = g2.edges x := by
          rw [swap_edges]; simp [hx, show x ≠ j by omega]
        rw [ex]
        exact before_congr rfl ej.symm (down_false.1 (c3 x (by omega) (by omega)))
    · intro x h1 h2
      have ej : content ((swap g2 first j).edges j) = content (g2.edges first) := by rw [swap_content]; simp
      have ex : (swap g2 first j).edges x = g2.edges x := by
        rw [swap_edges]; simp [show x ≠ first by omega, show x ≠ j by omega]
      rw [ex]
      exact before_congr ej.symm rfl (down_true (c4 x h1 h2))

theorem quickSort_ok : ∀ (k : Nat) (g : Graph) (first last : Nat), last + 1 < cap → last < first + k → 0 < k →
    ∃ g', quickSort hy cap k g first last = .ok g' ∧ Swaps first last g g' ∧
      (∀ x y, first ≤ x → x < y → y ≤ last → Before hy (g'.edges x) (g'.edges y)) := by
  intro k
  induction k with
  | zero => intro g first last _ _ h; omega
  | succ k ih =>
    intro g first last hc hk _
    rw [quickSort]
    by_cases hlt : first < last
    · simp only [hlt, ↓reduceIte]
      obtain ⟨g1, p, e1, s1, p1, p2, l1, r1⟩ := pivot_ok (hy := hy) (g := g) hlt hc
      rw [e1]; simp only [ok_bind]
      -- the left part
      have left : ∃ g2, (if (p : Int) - 1 > first then quickSort hy cap k g1 first (p - 1) else (pure g1 : Res Graph)) = .ok g2 ∧
          Swaps first (p - 1) g1 g2 ∧ (∀ x y, first ≤ x → x < y → y < p → Before hy (g2.edges x) (g2.edges y)) ∧
          (∀ x, ¬ (first ≤ x ∧ x < p) → g2.edges x = g1.edges x) := by
        by_cases hp : (p : Int) - 1 > first
        · rw [if_pos hp]
          obtain ⟨g2, e2, s2, o2⟩ := ih g1 first (p - 1) (by omega) (by omega) (by omega)
          refine ⟨g2, e2, s2, fun x y h1 h2 h3 => o2 x y h1 h2 (by omega), ?_⟩
          obtain ⟨-, -, -, -, -, -, σ, hσ, hf⟩ := s2.kept
          intro x hx; exact (hf x (by omega)).2
        · rw [if_neg hp]
          exact ⟨g1, rfl, .refl _, fun x y h1 h2 h3 => by omega, fun _ _ => rfl⟩
      obtain ⟨g2, e2, s2, o2, f2⟩ := left
      rw [e2]; simp only [ok_bind]
      have right : ∃ g3, (if p + 1 < last then quickSort hy cap k g2 (p + 1) last else (pure g2 : Res Graph)) = .ok g3 ∧
          Swaps (p + 1) last g2 g3 ∧ (∀ x y, p < x → x < y → y ≤ last → Before hy (g3.edges x) (g3.edges y)) ∧
          (∀ x, ¬ (p < x ∧ x ≤ last) → g3.edges x = g2.edges x) := by
        by_cases hp : p + 1 < last
        · rw [if_pos hp]
          obtain ⟨g3, e3, s3, o3⟩ := ih g2 (p + 1) last (by omega) (by omega) (by omega)
          refine ⟨g3, e3, s3, fun x y h1 h2 h3 => o3 x y (by omega) h2 h3, ?_⟩
          obtain ⟨-, -, -, -, -, -, σ, hσ, hf⟩ := s3.kept
          intro x hx; exact (hf x (by omega)).2
        · rw [if_neg hp]
          exact ⟨g2, rfl, .refl _, fun x y h1 h2 h3 => by omega, fun _ _ => rfl⟩
      obtain ⟨g3, e3, s3, o3, f3⟩ := right
      have hpiv : g3.edges p = g1.edges p := by rw [f3 p (by omega), f2 p (by omega)]
      -- bounds against the pivot survive both recursive calls
      have L : ∀ x, first ≤ x → x < p → Before hy (g3.edges x) (g3.edges p) := by
        intro x h1 h2
        rw [hpiv, f3 x (by omega)]
        have := s2.forall_range (fun e => Before hy e (g1.edges p)) (fun e e' he hb => before_congr he rfl hb)
          (f' := first) (l' := p - 1) (fun i hi1 hi2 => l1 i hi1 (by omega)) (Or.inl ⟨le_refl _, le_refl _⟩)
        exact this x h1 (by omega)
      have R : ∀ x, p < x → x ≤ last → Before hy (g3.edges p) (g3.edges x) := by
        intro x h1 h2
        rw [hpiv]
        have := s3.forall_range (fun e => Before hy (g1.edges p) e) (fun e e' he hb => before_congr rfl he hb)
          (f' := p + 1) (l' := last) (fun i hi1 hi2 => by rw [f2 i (by omega)]; exact r1 i (by omega) hi2)
          (Or.inl ⟨le_refl _, le_refl _⟩)
        exact this x (by omega) h2
      refine ⟨g3, e3, (s1.trans (s2.mono (le_refl _) (by omega))).trans (s3.mono (by omega) (le_refl _)), ?_⟩
      intro x y h1 h2 h3
      rcases lt_trichotomy y p with hy' | hy' | hy'
      · rw [f3 x (by omega), f3 y (by omega)]; exact o2 x y h1 h2 hy'
      · subst hy'; exact L x h1 h2
      · rcases lt_trichotomy x p with hx | hx | hx
        · exact before_trans (L x h1 hx) (R y hy' h3)
        · subst hx; exact R y hy' h3
        · exact o3 x y hx h2 h3
    · simp only [hlt, ↓reduceIte, pure_eq_ok]
      exact ⟨g, rfl, .refl _, fun x y h1 h2 h3 => by omega⟩

end Verif.Sort
