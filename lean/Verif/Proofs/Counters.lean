import Verif.Proofs.Search3
import Verif.Proofs.Term1

/-!
# How large the counters of a subproblem get
-/
namespace Verif
open Verif.Spec
set_option autoImplicit false

variable [Rounding]

variable {c : Cfg} {env : Env} {n : Nat}

/-- the undecided pairs of distinct nodes, each once -/
def freePairs (n : Nat) (cons : Nat → Nat → CType) : Finset (Nat × Nat) :=
  (Finset.range n ×ˢ Finset.range n).filter fun x => x.1 < x.2 ∧ cons x.1 x.2 = .nothing

omit [Rounding] in
theorem mem_freePairs {cons : Nat → Nat → CType} {x : Nat × Nat} : x ∈ freePairs n cons ↔ x.1 < x.2 ∧ x.2 < n ∧ cons x.1 x.2 = .nothing := by
  simp only [freePairs, Finset.mem_filter, Finset.mem_product, Finset.mem_range]
  constructor
  · rintro ⟨⟨-, h2⟩, h3, h4⟩; exact ⟨h3, h2, h4⟩
  · rintro ⟨h1, h2, h3⟩; exact ⟨⟨by omega, h2⟩, h1, h3⟩

omit [Rounding] in
theorem freePairs_congr {a b : Nat → Nat → CType} (h : ∀ u < n, ∀ v < n, a u v = b u v) : freePairs n a = freePairs n b := by
  ext x
  rw [mem_freePairs, mem_freePairs]
  constructor
  · rintro ⟨h1, h2, h3⟩; exact ⟨h1, h2, by rw [← h _ (by omega) _ h2]; exact h3⟩
  · rintro ⟨h1, h2, h3⟩; exact ⟨h1, h2, by rw [h _ (by omega) _ h2]; exact h3⟩

omit [Rounding] in
theorem upperPairs_length (n : Nat) : 2 * (upperPairs n).length = n * (n + 1) := by
  have h : (upperPairs n).length = ((List.range n).map fun i => n - i).sum := by
    unfold upperPairs
    rw [List.length_flatMap]
    congr 1
    apply List.map_congr_left
    intro i _
    simp
  rw [h]
  clear h
  induction n with
  | zero => simp
  | succ n ih =>
    rw [List.range_succ_eq_map, List.map_cons, List.sum_cons, List.map_map]
    have : ((fun i => n + 1 - i) ∘ Nat.succ) = fun i => n - i := by funext i; simp
    rw [this]
    have e : (n + 1) * (n + 1 + 1) = n * (n + 1) + 2 * (n + 1) := by ring
    omega

omit [Rounding] in
theorem filter_disjoint {α : Type} (l : List α) (p q : α → Bool) (h : ∀ a, p a = true → q a = false) : (l.filter p).length + (l.filter q).length ≤ l.length := by
  induction l with
  | nil => simp
  | cons a l ih =>
    have := h a
    rw [List.filter_cons, List.filter_cons, List.length_cons]
    cases hp : p a <;> cases hq : q a <;> simp_all <;> omega

omit [Rounding] in
/-- the free pairs are among the pairs of the loops -/
theorem freePairs_le (cons : Nat → Nat → CType) : (freePairs n cons).card ≤ ((upperPairs n).filter fun p => decide (cons p.1 p.2 = .nothing)).length := by
  have : freePairs n cons ⊆ ((upperPairs n).filter fun p => decide (cons p.1 p.2 = .nothing)).toFinset := by
    intro x hx
    rw [mem_freePairs] at hx
    rw [List.mem_toFinset, List.mem_filter, mem_upperPairs]
    exact ⟨⟨by omega, hx.2.1⟩, by simpa using hx.2.2⟩
  exact (Finset.card_le_card this).trans (List.toFinset_card_le _)

omit [Rounding] in
/-- there are at most `n (n - 1) / 2` free pairs -/
theorem freePairs_total (cons : Nat → Nat → CType) : 2 * (freePairs n cons).card + 2 * n ≤ n * (n + 1) := by
  have h1 : freePairs n cons ⊆ ((upperPairs n).filter fun p => decide (p.1 ≠ p.2)).toFinset := by
    intro x hx
    rw [mem_freePairs] at hx
    rw [List.mem_toFinset, List.mem_filter, mem_upperPairs]
    exact ⟨⟨by omega, hx.2.1⟩, by simp; omega⟩
  have h2 := (Finset.card_le_card h1).trans (List.toFinset_card_le _)
  have h3 : (Finset.range n).image (fun i => (i, i)) ⊆ ((upperPairs n).filter fun p => decide (p.1 = p.2)).toFinset := by
    intro x hx
    obtain ⟨i, hi, rfl⟩ := Finset.mem_image.1 hx
    rw [List.mem_toFinset, List.mem_filter, mem_upperPairs]
    exact ⟨⟨le_refl _, Finset.mem_range.1 hi⟩, by simp⟩
  have h4 := (Finset.card_le_card h3).trans (List.toFinset_card_le _)
  rw [Finset.card_image_of_injective _ (fun a b h => (Prod.mk.inj h).1), Finset.card_range] at h4
  have h5 := filter_disjoint (upperPairs n) (fun p => decide (p.1 ≠ p.2)) (fun p => decide (p.1 = p.2)) (by intro a; simp)
  have h6 := upperPairs_length n
  omega

omit [Rounding] in
theorem freePairs_decides {a b : Nat → Nat → CType} (h : Decides n a b) : freePairs n b ⊆ freePairs n a := by
  intro x hx
  rw [mem_freePairs] at hx ⊢
  refine ⟨hx.1, hx.2.1, ?_⟩
  by_contra hno
  exact h _ (by omega) _ hx.2.1 hno hx.2.2

omit [Rounding] in
/-- deciding a free pair takes one away -/
theorem freePairs_lt {a b : Nat → Nat → CType} (h : Decides n a b) {u v : Nat} (hu : u < n) (hv : v < n) (huv : u ≠ v) (ha : a u v = .nothing) (ha' : a v u = .nothing)
    (hb : b u v ≠ .nothing) (hb' : b v u ≠ .nothing) : (freePairs n b).card + 1 ≤ (freePairs n a).card := by
  refine Finset.card_lt_card (Finset.ssubset_iff_subset_ne.2 ⟨freePairs_decides h, ?_⟩)
  intro heq
  rcases Nat.lt_or_gt_of_ne huv with hlt | hlt
  · have : (u, v) ∈ freePairs n a := mem_freePairs.2 ⟨hlt, hv, ha⟩
    rw [← heq, mem_freePairs] at this
    exact hb this.2.2
  · have : (v, u) ∈ freePairs n a := mem_freePairs.2 ⟨hlt, hu, ha'⟩
    rw [← heq, mem_freePairs] at this
    exact hb' this.2.2

omit [Rounding] in
/-- `copy_constraints` counts the forbidden pairs anew -/
theorem copyConstraints_count {sp0 other s : SubProblem} (hm : SymMatrix c.maxV other.cons) (e : copyConstraints c sp0 other = .ok s) :
    2 * (s.numForbidden + (freePairs c.maxV s.cons).card) ≤ c.maxV * (c.maxV + 1) := by
  have hcons := (copyConstraints_ok hm e).2.2
  unfold copyConstraints at e
  have h := forList_inv (fun (P : List (Nat × Nat)) (s : SubProblem) => s.numForbidden ≤ (P.filter fun p => decide (other.cons p.1 p.2 = .forbidden)).length) (by
    rintro P ⟨i, j⟩ b b' hb e
    beta_reduce at hb ⊢
    rw [List.filter_append, List.length_append]
    have hij : upd2 (upd2 b.cons i j (other.cons i j)) j i (other.cons j i) i j = other.cons i j := by
      rw [upd2_apply]
      split
      · next h => obtain ⟨rfl, -⟩ := h; rfl
      · rw [upd2_apply, if_pos ⟨rfl, rfl⟩]
    unfold copyCell at e
    simp only at e
    rw [hij] at e
    split at e
    · unfold pushMandatory at e
      split at e
      · cases e
      · cases e; simp only; omega
    · split at e
      · next hf => cases e; simp [hf]; omega
      · cases e; simp only; omega) _ _ _ (by simp) e
  have h1 := freePairs_le (n := c.maxV) s.cons
  have h2 : ((upperPairs c.maxV).filter fun p => decide (s.cons p.1 p.2 = .nothing)).length = ((upperPairs c.maxV).filter fun p => decide (other.cons p.1 p.2 = .nothing)).length := by
    congr 1
    apply List.filter_congr
    intro p hp
    rw [mem_upperPairs] at hp
    rw [hcons _ (by omega) _ hp.2]
  have h3 := filter_disjoint (upperPairs c.maxV) (fun p => decide (other.cons p.1 p.2 = .forbidden)) (fun p => decide (other.cons p.1 p.2 = .nothing)) (by
    intro a h; simp only [decide_eq_true_eq] at h; simp [h])
  have h4 := upperPairs_length c.maxV
  omega

/-- the potential: forbidden counter plus free pairs -/
def fpot (n : Nat) (sp : SubProblem) : Nat := sp.numForbidden + (freePairs n sp.cons).card

omit [Rounding] in
theorem setCons_decides {cons : Nat → Nat → CType} {i j : Nat} {x : CType} (hx : x ≠ .nothing) : Decides n cons (setCons cons i j x) := by
  intro u _ v _ h
  rw [setCons_apply]
  split
  · exact hx
  · exact h

omit [Rounding] in
theorem makeChild_pot {mem cur child : SubProblem} {e : Edge} {id i : Nat} (hm : SymMatrix c.maxV cur.cons) (h : makeChild c mem cur e id i = .ok child) :
    2 * fpot c.maxV child ≤ c.maxV * (c.maxV + 1) + 2 := by
  unfold makeChild at h
  obtain ⟨ch, h1, h2⟩ := bind_eq_ok.1 h
  have hc := copyConstraints_count hm h1
  unfold fpot
  split at h2
  · unfold requireEdge pushMandatory at h2
    simp only at h2
    split at h2
    · cases h2
    · cases h2
      have := Finset.card_le_card (freePairs_decides (setCons_decides (n := c.maxV) (cons := ch.cons) (i := e.src) (j := e.dest) (x := .mandatory) (by simp)))
      simp only
      omega
  · cases h2
    have := Finset.card_le_card (freePairs_decides (setCons_decides (n := c.maxV) (cons := ch.cons) (i := e.src) (j := e.dest) (x := .forbidden) (by simp)))
    unfold forbidEdge
    simp only
    omega

omit [Rounding] in
/-- setting the free pairs of a row takes them all away -/
theorem setAll_count {cons : Nat → Nat → CType} {i : Nat} {x : CType} (hm : SymMatrix n cons) (hi : i < n) (hx : x ≠ .nothing) :
    (freePairs n (setAll cons i (nothingNodes n cons i) x)).card + (nothingNodes n cons i).length ≤ (freePairs n cons).card := by
  have hnd : (nothingNodes n cons i).Nodup := List.nodup_range.filter _
  have hcard : ((nothingNodes n cons i).toFinset.image fun j => (min i j, max i j)).card = (nothingNodes n cons i).length := by
    rw [Finset.card_image_of_injOn, List.toFinset_card_of_nodup hnd]
    intro a ha b hb hab
    simp only [Prod.mk.injEq] at hab
    omega
  rw [← hcard, ← Finset.card_union_of_disjoint]
  · refine Finset.card_le_card ?_
    refine Finset.union_subset ?_ ?_
    · intro p hp
      rw [mem_freePairs] at hp ⊢
      refine ⟨hp.1, hp.2.1, ?_⟩
      have := hp.2.2
      simp only [setAll] at this
      split at this
      · exact absurd this hx
      · exact this
    · intro p hp
      obtain ⟨j, hj, rfl⟩ := Finset.mem_image.1 hp
      rw [List.mem_toFinset] at hj
      have hj' := mem_nothing.1 hj
      have hij : i ≠ j := by
        rintro rfl
        rw [hm.diag i hi] at hj'; cases hj'.2
      rw [mem_freePairs]
      simp only
      refine ⟨by omega, by omega, ?_⟩
      rcases Nat.lt_or_gt_of_ne hij with h | h
      · rw [min_eq_left h.le, max_eq_right h.le]; exact hj'.2
      · rw [min_eq_right h.le, max_eq_left h.le, hm.symm j hj'.1 i hi]; exact hj'.2
  · rw [Finset.disjoint_left]
    intro p hp hp'
    obtain ⟨j, hj, rfl⟩ := Finset.mem_image.1 hp'
    rw [List.mem_toFinset] at hj
    rw [mem_freePairs] at hp
    have := hp.2.2
    simp only [setAll] at this
    rw [if_pos] at this
    · exact hx this
    · rcases Nat.le_total i j with h | h
      · rw [min_eq_left h, max_eq_right h]; exact Or.inl ⟨rfl, hj⟩
      · rw [min_eq_right h, max_eq_left h]; exact Or.inr ⟨rfl, hj⟩

omit [Rounding] in
theorem inferRow_pot {sp : SubProblem} {f i : Nat} {r : (SubProblem × Nat) × Bool} (hm : SymMatrix c.maxV sp.cons) (hi : i < c.maxV)
    (e : inferRow c ((sp, f), true) i = .ok r) : fpot c.maxV r.1.1 ≤ fpot c.maxV sp := by
  unfold inferRow at e
  simp only [if_true] at e
  split at e
  · rw [inferForbid_ok, ok_bind] at e
    cases e
    have := setAll_count (x := .forbidden) hm hi (by simp)
    unfold fpot
    simp only
    omega
  · split at e
    · cases e; exact le_refl _
    · split at e
      · split at e
        · obtain ⟨r', e1, e2⟩ := bind_eq_ok.1 e
          cases e2
          by_cases hr : sp.numMandatory + (nothingNodes c.maxV sp.cons i).length ≤ c.maxV ∨ nothingNodes c.maxV sp.cons i = []
          · obtain ⟨m, e3, -, -⟩ := (inferMandatory_ok c i sp f _).1 hr
            rw [e3] at e1; cases e1
            have := setAll_count (x := .mandatory) hm hi (by simp)
            unfold fpot
            simp only
            omega
          · rw [(inferMandatory_ok c i sp f _).2 hr] at e1; cases e1
        · cases e; exact le_refl _
      · cases e; exact le_refl _

omit [Rounding] in
theorem inferConstraints_pot {sp : SubProblem} {f : Nat} {r : (SubProblem × Nat) × Bool} (hm : SymMatrix c.maxV sp.cons) (e : inferConstraints c sp f = .ok r) :
    fpot c.maxV r.1.1 ≤ fpot c.maxV sp := by
  unfold inferConstraints at e
  have key : ∀ (l : List Nat) (b b' : (SubProblem × Nat) × Bool), (∀ i ∈ l, i < c.maxV) → SymMatrix c.maxV b.1.1.cons → forList (inferRow c) l b = .ok b' → fpot c.maxV b'.1.1 ≤ fpot c.maxV b.1.1 := by
    intro l
    induction l with
    | nil => intro b b' _ _ e; cases e; exact le_refl _
    | cons i l ih =>
      intro b b' hl hb e
      rw [forList] at e
      obtain ⟨b1, e1, e2⟩ := bind_eq_ok.1 e
      obtain ⟨⟨sp0, f0⟩, v⟩ := b
      cases v with
      | false =>
        have : b1 = ((sp0, f0), false) := by
          unfold inferRow at e1
          simp only [Bool.false_eq_true, if_false] at e1
          cases e1; rfl
        subst this
        exact ih _ b' (fun j hj => hl j (by simp [hj])) hb e2
      | true =>
        have h1 := inferRow_pot hb (hl i (by simp)) e1
        exact (ih b1 b' (fun j hj => hl j (by simp [hj])) (inferRow_ok hb (hl i (by simp)) e1).1.sym e2).trans h1
  exact key _ _ _ (fun i hi => List.mem_range.1 hi) hm e

/-- fixing keeps the potential -/
theorem variableFixing_pot {p : Problem} {sp : SubProblem} {r : SubProblem × Nat} (hm : SymMatrix c.maxV sp.cons)
    (hends : ∀ i < p.graph.numEdges, (p.graph.edges i).src < c.maxV ∧ (p.graph.edges i).dest < c.maxV ∧ (p.graph.edges i).src ≠ (p.graph.edges i).dest)
    (e : variableFixing c p sp = .ok r) : fpot c.maxV r.1 ≤ fpot c.maxV sp := by
  unfold variableFixing at e
  obtain ⟨s1, e1, e⟩ := bind_eq_ok.1 e
  obtain ⟨s2, e2, e⟩ := bind_eq_ok.1 e
  cases e
  have h1 : ∀ (m : Nat), m ≤ p.graph.numEdges → ∀ s1 : FixState,
      forList (fixForbid c p) (List.range m) { sp := sp, num := 0, repl := fun _ => INFINITE, candRepl := INFINITE } = .ok s1 →
      SymMatrix c.maxV s1.sp.cons ∧ fpot c.maxV s1.sp ≤ fpot c.maxV sp := by
    intro m
    induction m with
    | zero => intro _ s1 e; cases e; exact ⟨hm, le_refl _⟩
    | succ m ih =>
      intro hm' s1 e
      rw [List.range_succ, forList_snoc] at e
      obtain ⟨s, e1, e2⟩ := bind_eq_ok.1 e
      obtain ⟨k1, k2⟩ := ih (by omega) s e1
      obtain ⟨d1, d2, d3⟩ := hends m (by omega)
      have step : s.sp.cons (p.graph.edges m).src (p.graph.edges m).dest = .nothing →
          SymMatrix c.maxV (forbidEdge s.sp (p.graph.edges m)).cons ∧ fpot c.maxV (forbidEdge s.sp (p.graph.edges m)) ≤ fpot c.maxV sp := by
        intro hn
        refine ⟨setCons_symM k1 d3 _, ?_⟩
        have := freePairs_lt (n := c.maxV) (setCons_decides (cons := s.sp.cons) (i := (p.graph.edges m).src) (j := (p.graph.edges m).dest) (x := .forbidden) (by simp)) d1 d2 d3 hn
          (by rw [k1.symm _ d2 _ d1]; exact hn) (by rw [setCons_apply, if_pos (Or.inl ⟨rfl, rfl⟩)]; simp) (by rw [setCons_apply, if_pos (Or.inr ⟨rfl, rfl⟩)]; simp)
        unfold fpot forbidEdge at *
        simp only
        omega
      unfold fixForbid at e2
      simp only at e2
      split at e2
      · next hn =>
        obtain ⟨s', e3, e4⟩ := bind_eq_ok.1 e2
        have hs' : SymMatrix c.maxV s'.sp.cons ∧ fpot c.maxV s'.sp ≤ fpot c.maxV sp := by
          split at e3
          · obtain ⟨r', e5, e6⟩ := bind_eq_ok.1 e3
            split at e6
            · cases e6; exact step hn
            · cases e6; exact ⟨k1, k2⟩
          · cases e3; exact ⟨k1, k2⟩
        split at e4
        · split at e4 <;> (cases e4; exact hs')
        · cases e4; exact hs'
      · cases e2; exact ⟨k1, k2⟩
  obtain ⟨-, k2⟩ := h1 _ (le_refl _) s1 e1
  have h2 := forList_inv (fun _ (s : FixState) => fpot c.maxV s.sp ≤ fpot c.maxV s1.sp) (by
    intro _ i s s' h e
    refine le_trans ?_ h
    have push : ∀ {sp2 : SubProblem} {e : Edge}, requireEdge c s.sp e = .ok sp2 → fpot c.maxV sp2 ≤ fpot c.maxV s.sp := by
      intro sp2 e h2
      unfold requireEdge pushMandatory at h2
      simp only at h2
      split at h2
      · cases h2
      · cases h2
        have := Finset.card_le_card (freePairs_decides (setCons_decides (n := c.maxV) (cons := s.sp.cons) (i := e.src) (j := e.dest) (x := .mandatory) (by simp)))
        unfold fpot
        simp only
        omega
    unfold fixMandatory at e
    simp only at e
    split at e
    · split at e
      · split at e
        · cases e
        split at e
        · obtain ⟨sp2, e3, e4⟩ := bind_eq_ok.1 e
          cases e4; exact push e3
        · cases e; exact le_refl _
      · split at e
        · obtain ⟨sp2, e3, e4⟩ := bind_eq_ok.1 e
          cases e4; exact push e3
        · cases e; exact le_refl _
    · cases e; exact le_refl _) _ _ _ (le_refl _) e2
  exact h2.trans k2

omit [Rounding] in
/-- twice the free pairs are the undecided entries -/
theorem undecided_card {cons : Nat → Nat → CType} (hm : SymMatrix n cons) : (undecided n cons).card = 2 * (freePairs n cons).card := by
  have h : undecided n cons = freePairs n cons ∪ (freePairs n cons).image Prod.swap := by
    ext ⟨u, v⟩
    rw [Finset.mem_union, Finset.mem_image]
    simp only [undecided, Finset.mem_filter, Finset.mem_product, Finset.mem_range]
    constructor
    · rintro ⟨⟨h1, h2⟩, h3⟩
      rcases Nat.lt_trichotomy u v with h | rfl | h
      · exact Or.inl (mem_freePairs.2 ⟨h, h2, h3⟩)
      · rw [hm.diag u h1] at h3; cases h3
      · exact Or.inr ⟨(v, u), mem_freePairs.2 ⟨h, h1, by rw [hm.symm v h2 u h1]; exact h3⟩, rfl⟩
    · rintro (h | ⟨⟨a, b⟩, h, h'⟩)
      · rw [mem_freePairs] at h; simp only at h; exact ⟨⟨by omega, h.2.1⟩, h.2.2⟩
      · rw [mem_freePairs] at h
        simp only [Prod.swap_prod_mk, Prod.mk.injEq] at h h'
        obtain ⟨rfl, rfl⟩ := h'
        exact ⟨⟨h.2.1, by omega⟩, by rw [hm.symm b h.2.1 a (by omega)]; exact h.2.2⟩
  rw [h, Finset.card_union_of_disjoint, Finset.card_image_of_injective _ Prod.swap_injective]
  · omega
  · rw [Finset.disjoint_left]
    intro x hx hx'
    obtain ⟨y, hy, rfl⟩ := Finset.mem_image.1 hx'
    rw [mem_freePairs] at hx hy
    simp only [Prod.fst_swap, Prod.snd_swap] at hx
    omega

end Verif
