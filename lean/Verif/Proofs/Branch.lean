import Verif.Model.Branch
import Verif.Spec.Matrix
import Verif.Proofs.Constrained
import Verif.Proofs.OneTree
import Verif.Proofs.Tour

/-!
# Proofs about the constraint matrix functions and `branch`
-/
namespace Verif
open Verif.Spec
set_option autoImplicit false

variable [Rounding]

omit [Rounding] in
/-- loop rule: an invariant indexed by the part of the list already processed -/
theorem forList_inv {α β : Type} {f : β → α → Res β} (I : List α → β → Prop)
    (hstep : ∀ p a b b', I p b → f b a = .ok b' → I (p ++ [a]) b') : ∀ (l : List α) (b b' : β), I [] b → forList f l b = .ok b' → I l b' := by
  intro l
  induction l using List.reverseRecOn with
  | nil => intro b b' h e; cases e; exact h
  | append_singleton l a ih =>
    intro b b' h e
    rw [forList_snoc] at e
    obtain ⟨b1, e1, e2⟩ := bind_eq_ok.1 e
    exact hstep l a b1 b' (ih b b1 h e1) e2

omit [Rounding] in
theorem setCons_apply (cons : Nat → Nat → CType) (i j : Nat) (x : CType) (a b : Nat) :
    setCons cons i j x a b = if (a = i ∧ b = j) ∨ (a = j ∧ b = i) then x else cons a b := by
  unfold setCons
  rw [upd2_apply, upd2_apply]
  by_cases h1 : a = j ∧ b = i
  · rw [if_pos h1, if_pos (Or.inr h1)]
  · rw [if_neg h1]
    by_cases h2 : a = i ∧ b = j
    · rw [if_pos h2, if_pos (Or.inl h2)]
    · rw [if_neg h2, if_neg (by tauto)]

omit [Rounding] in
theorem setCons_sym {cons : Nat → Nat → CType} {i j : Nat} (x : CType) {a b : Nat} :
    setCons cons i j x a b = if s(a, b) = s(i, j) then x else cons a b := by
  rw [setCons_apply]
  congr 1
  rw [Sym2.eq_iff]

/-- the pairs `(i, j)`, `j ∈ l`, set to `x` -/
def setAll (cons : Nat → Nat → CType) (i : Nat) (l : List Nat) (x : CType) : Nat → Nat → CType :=
  fun a b => if (a = i ∧ b ∈ l) ∨ (b = i ∧ a ∈ l) then x else cons a b

omit [Rounding] in
theorem setAll_nil (cons : Nat → Nat → CType) (i : Nat) (x : CType) : setAll cons i [] x = cons := by
  funext a b; simp [setAll]

omit [Rounding] in
theorem setAll_snoc (cons : Nat → Nat → CType) (i : Nat) (l : List Nat) (j : Nat) (x : CType) :
    setCons (setAll cons i l x) i j x = setAll cons i (l ++ [j]) x := by
  funext a b
  rw [setCons_apply]
  unfold setAll
  simp only [List.mem_append, List.mem_singleton]
  by_cases h : (a = i ∧ b = j) ∨ (a = j ∧ b = i)
  · rw [if_pos h, if_pos (by tauto)]
  · rw [if_neg h]
    congr 1
    apply propext
    constructor
    · tauto
    · rintro (⟨h1, h2 | h2⟩ | ⟨h1, h2 | h2⟩) <;> tauto

omit [Rounding] in
theorem inferForbid_ok (i : Nat) (sp : SubProblem) (f : Nat) (l : List Nat) : forList (inferForbid i) l (sp, f) =
    .ok ({ sp with cons := setAll sp.cons i l .forbidden, numForbidden := sp.numForbidden + l.length }, f + l.length) := by
  induction l using List.reverseRecOn with
  | nil => rw [setAll_nil]; rfl
  | append_singleton l j ih =>
    rw [forList_snoc, ih, ok_bind]
    unfold inferForbid
    simp only [setAll_snoc, List.length_append, List.length_cons, List.length_nil]
    rfl

omit [Rounding] in
theorem inferMandatory_ok (c : Cfg) (i : Nat) (sp : SubProblem) (f : Nat) (l : List Nat) :
    (sp.numMandatory + l.length ≤ c.maxV ∨ l = [] → ∃ m, forList (inferMandatory c i) l (sp, f) =
      .ok ({ sp with cons := setAll sp.cons i l .mandatory, numMandatory := sp.numMandatory + l.length, mandatory := m }, f + l.length) ∧
      (∀ k < sp.numMandatory, m k = sp.mandatory k) ∧ (∀ k (h : k < l.length), m (sp.numMandatory + k) = (i, l[k]))) ∧
    (¬ (sp.numMandatory + l.length ≤ c.maxV ∨ l = []) → forList (inferMandatory c i) l (sp, f) = .error (.oobAt .mandatoryEdges)) := by
  induction l using List.reverseRecOn with
  | nil => refine ⟨fun _ => ⟨sp.mandatory, ?_, fun _ _ => rfl, by simp⟩, by simp⟩; rw [setAll_nil]; rfl
  | append_singleton l j ih =>
    have hlen : (l ++ [j]).length = l.length + 1 := by simp
    rw [forList_snoc]
    have hne : l ++ [j] ≠ [] := by simp
    constructor
    · intro h
      have h' : sp.numMandatory + l.length + 1 ≤ c.maxV := by
        rcases h with h | h
        · rw [hlen] at h; omega
        · exact absurd h hne
      obtain ⟨m, e, h1, h2⟩ := ih.1 (Or.inl (by omega))
      refine ⟨upd m (sp.numMandatory + l.length) (i, j), ?_, ?_, ?_⟩
      · rw [e, ok_bind]
        unfold inferMandatory pushMandatory
        simp only
        rw [if_neg (by omega)]
        simp only [ok_bind, pure_eq_ok, setAll_snoc, hlen]
        rfl
      · intro k hk; rw [upd_ne _ _ (by omega)]; exact h1 k hk
      · intro k hk
        by_cases hk' : k = l.length
        · subst hk'; simp
        · have hk2 : k < l.length := by rw [hlen] at hk; omega
          rw [upd_ne _ _ (by omega), h2 k hk2]
          simp [List.getElem_append_left hk2]
    · intro h
      push Not at h
      by_cases h' : sp.numMandatory + l.length ≤ c.maxV ∨ l = []
      · obtain ⟨m, e, -, -⟩ := ih.1 h'
        have hc : sp.numMandatory + l.length ≥ c.maxV := by have := h.1; rw [hlen] at this; omega
        rw [e, ok_bind]
        unfold inferMandatory pushMandatory
        simp only
        rw [if_pos hc]; rfl
      · rw [ih.2 h']; rfl

variable {n : Nat}

omit [Rounding] in
/-- a tour has two neighbours at every city -/
theorem TourSet.two_nbrs {S : EdgeSet} (h : TourSet n S) {i : Nat} (hi : i < n) : ((Finset.range n).filter fun j => s(i, j) ∈ S).card = 2 := by
  rw [← h.deg i hi]
  refine Finset.card_bij (fun j _ => s(i, j)) ?_ ?_ ?_
  · intro j hj; rw [Finset.mem_filter] at hj ⊢; exact ⟨hj.2, by simp⟩
  · intro a ha b hb hab
    rw [Sym2.eq_iff] at hab
    omega
  · intro e he
    rw [Finset.mem_filter] at he
    obtain ⟨j, rfl⟩ := he.2
    exact ⟨j, Finset.mem_filter.2 ⟨(h.within i j he.1).2, he.1⟩, rfl⟩

omit [Rounding] in
/-- the number of entries of a row as a set -/
theorem rowCount_eq (cons : Nat → Nat → CType) (i : Nat) (x : CType) : rowCount n cons i x = ((Finset.range n).filter fun j => cons i j = x).card := by
  unfold rowCount
  rw [← List.toFinset_card_of_nodup (List.nodup_range.filter _)]
  congr 1
  ext j; simp

omit [Rounding] in
theorem mem_nothing {cons : Nat → Nat → CType} {i j : Nat} : j ∈ nothingNodes n cons i ↔ j < n ∧ cons i j = .nothing := by
  simp [nothingNodes]

omit [Rounding] in
theorem nothing_length (cons : Nat → Nat → CType) (i : Nat) : (nothingNodes n cons i).length = rowCount n cons i .nothing := rfl

omit [Rounding] in
theorem row_total (cons : Nat → Nat → CType) (i : Nat) : rowCount n cons i .nothing + rowCount n cons i .mandatory + rowCount n cons i .forbidden = n := by
  rw [rowCount_eq, rowCount_eq, rowCount_eq]
  have h1 := Finset.card_filter_add_card_filter_not (s := Finset.range n) (fun j => cons i j = .nothing)
  have h2 := Finset.card_filter_add_card_filter_not (s := (Finset.range n).filter (fun j => ¬ cons i j = .nothing)) (fun j => cons i j = .mandatory)
  rw [Finset.filter_filter, Finset.filter_filter] at h2
  have e1 : (Finset.range n).filter (fun j => ¬ cons i j = .nothing ∧ cons i j = .mandatory) = (Finset.range n).filter (fun j => cons i j = .mandatory) := by
    apply Finset.filter_congr; intro j _; constructor
    · exact fun h => h.2
    · intro h; exact ⟨by rw [h]; simp, h⟩
  have e2 : (Finset.range n).filter (fun j => ¬ cons i j = .nothing ∧ ¬ cons i j = .mandatory) = (Finset.range n).filter (fun j => cons i j = .forbidden) := by
    apply Finset.filter_congr; intro j _
    cases cons i j <;> simp
  rw [e1, e2] at h2
  rw [Finset.card_range] at h1
  omega

omit [Rounding] in
/-- what an allowed tour says about row `i` -/
theorem row_facts {cons : Nat → Nat → CType} (hm : SymMatrix n cons) {t : List Nat} (hn : 3 ≤ n) (ht : AllowedBy n cons t) {i : Nat} (hi : i < n) :
    rowCount n cons i .mandatory ≤ 2 ∧ 2 ≤ n - rowCount n cons i .forbidden ∧
    (rowCount n cons i .mandatory = 2 → ∀ j < n, cons i j = .nothing → s(i, j) ∉ tourEdges t) ∧
    (n - rowCount n cons i .forbidden = 2 → ∀ j < n, cons i j = .nothing → s(i, j) ∈ tourEdges t) := by
  have hset := ht.1.set hn
  have h2 := TourSet.two_nbrs hset hi
  set N := (Finset.range n).filter fun j => s(i, j) ∈ tourEdges t with hN
  have hmand : (Finset.range n).filter (fun j => cons i j = .mandatory) ⊆ N := by
    intro j hj
    rw [Finset.mem_filter, Finset.mem_range] at hj
    refine Finset.mem_filter.2 ⟨Finset.mem_range.2 hj.1, (ht.2 i hi j hj.1 ?_).1 hj.2⟩
    rintro rfl
    have := hm.diag i hi; rw [hj.2] at this; cases this
  have hfree : N ⊆ (Finset.range n).filter (fun j => ¬ cons i j = .forbidden) := by
    intro j hj
    rw [Finset.mem_filter, Finset.mem_range] at hj
    refine Finset.mem_filter.2 ⟨Finset.mem_range.2 hj.1, fun h => (ht.2 i hi j hj.1 ?_).2 h hj.2⟩
    rintro rfl
    exact hset.loopless i hj.2
  have hfc := Finset.card_filter_add_card_filter_not (s := Finset.range n) (fun j => cons i j = .forbidden)
  rw [Finset.card_range] at hfc
  have c1 := Finset.card_le_card hmand
  have c2 := Finset.card_le_card hfree
  rw [rowCount_eq, rowCount_eq]
  refine ⟨by omega, by omega, ?_, ?_⟩
  · intro hm2 j hj hjn hmem
    have heq := Finset.eq_of_subset_of_card_le hmand (by omega)
    have : j ∈ N := Finset.mem_filter.2 ⟨Finset.mem_range.2 hj, hmem⟩
    rw [← heq, Finset.mem_filter, hjn] at this
    cases this.2
  · intro hf2 j hj hjn
    have heq := Finset.eq_of_subset_of_card_le hfree (by omega)
    have : j ∈ N := by
      rw [heq, Finset.mem_filter]; exact ⟨Finset.mem_range.2 hj, by rw [hjn]; simp⟩
    exact (Finset.mem_filter.1 this).2

/-- only unconstrained pairs change -/
def Refines (a b : SubProblem) : Prop := ∀ u v, a.cons u v ≠ .nothing → b.cons u v = a.cons u v

omit [Rounding] in
theorem Refines.allowed {a b : SubProblem} (h : Refines a b) {t : List Nat} (ht : AllowedBy n b.cons t) : AllowedBy n a.cons t := by
  refine ⟨ht.1, fun u hu v hv huv => ⟨fun h' => (ht.2 u hu v hv huv).1 (by rw [h u v (by rw [h']; simp), h']),
    fun h' => (ht.2 u hu v hv huv).2 (by rw [h u v (by rw [h']; simp), h'])⟩⟩

/-- the fields that the inference leaves alone -/
def SameRest (a b : SubProblem) : Prop :=
  b = { a with cons := b.cons, numMandatory := b.numMandatory, numForbidden := b.numForbidden, mandatory := b.mandatory }

/-- everything known about a constraint inference from `a` to `b` -/
structure Inferred (n : Nat) (a b : SubProblem) : Prop where
  refines : Refines a b
  rest : SameRest a b
  sym : SymMatrix n b.cons
  book : Bookkeeping n a → Bookkeeping n b
  tours : 3 ≤ n → ∀ t, AllowedBy n a.cons t → AllowedBy n b.cons t

omit [Rounding] in
theorem Inferred.refl {a : SubProblem} (h : SymMatrix n a.cons) : Inferred n a a := ⟨fun _ _ _ => rfl, rfl, h, id, fun _ _ h => h⟩

omit [Rounding] in
theorem Inferred.trans {a b d : SubProblem} (h : Inferred n a b) (h' : Inferred n b d) : Inferred n a d := by
  refine ⟨?_, ?_, h'.sym, fun s => h'.book (h.book s), fun hn t ht => h'.tours hn t (h.tours hn t ht)⟩
  · intro u v huv
    rw [h'.refines u v (by rw [h.refines u v huv]; exact huv), h.refines u v huv]
  · unfold SameRest
    have e2 := h'.rest; have e1 := h.rest
    unfold SameRest at e1 e2
    rw [e2, e1]

omit [Rounding] in
theorem setAll_refines {cons : Nat → Nat → CType} {i : Nat} (hm : SymMatrix n cons) (hi : i < n) (x : CType) {u v : Nat} (h : cons u v ≠ .nothing) :
    setAll cons i (nothingNodes n cons i) x u v = cons u v := by
  unfold setAll
  rw [if_neg]
  rintro (⟨rfl, h2⟩ | ⟨rfl, h2⟩)
  · exact h (mem_nothing.1 h2).2
  · have := mem_nothing.1 h2
    rw [hm.symm u this.1 v hi] at h
    exact h this.2

omit [Rounding] in
theorem setAll_symm {cons : Nat → Nat → CType} {i : Nat} {x : CType} (hm : SymMatrix n cons) (hi : i < n) :
    SymMatrix n (setAll cons i (nothingNodes n cons i) x) := by
  constructor
  · intro u hu v hv
    unfold setAll
    rw [hm.symm u hu v hv]
    congr 1
    apply propext; constructor <;> (rintro (h | h) <;> tauto)
  · intro u hu
    rw [setAll_refines hm hi x (by rw [hm.diag u hu]; simp)]
    exact hm.diag u hu


omit [Rounding] in
theorem inferForbid_inferred {sp : SubProblem} {i : Nat} (hm : SymMatrix n sp.cons) (hi : i < n) (h2 : rowCount n sp.cons i .mandatory = 2) :
    Inferred n sp { sp with cons := setAll sp.cons i (nothingNodes n sp.cons i) .forbidden, numForbidden := sp.numForbidden + (nothingNodes n sp.cons i).length } := by
  have href : ∀ u v, sp.cons u v ≠ .nothing → setAll sp.cons i (nothingNodes n sp.cons i) .forbidden u v = sp.cons u v :=
    fun u v h => setAll_refines hm hi .forbidden h
  refine ⟨href, rfl, setAll_symm hm hi, ?_, ?_⟩
  · intro hb
    refine ⟨setAll_symm hm hi, ?_, ?_, ?_, hb.room⟩
    · intro u hu v hv huv h
      refine hb.recorded u hu v hv huv ?_
      by_contra hne
      simp only [setAll] at h
      split at h
      · cases h
      · exact hne h
    · intro k hk
      have := hb.entries k hk
      refine ⟨this.1, this.2.1, this.2.2.1, ?_⟩
      simp only
      rw [href _ _ this.2.2.2]; exact this.2.2.2
    · intro u hu v hv huv h
      simp only [setAll] at h
      split at h
      · next h' =>
        have : 0 < (nothingNodes n sp.cons i).length := by
          rcases h' with h' | h'
          · exact List.length_pos_of_mem h'.2
          · exact List.length_pos_of_mem h'.2
        simp only; omega
      · have := hb.counted u hu v hv huv h
        simp only; omega
  · intro hn t ht
    have hf := (row_facts hm hn ht hi).2.2.1 h2
    refine ⟨ht.1, fun u hu v hv huv => ⟨?_, ?_⟩⟩
    · intro h
      simp only [setAll] at h
      split at h
      · cases h
      · exact (ht.2 u hu v hv huv).1 h
    · intro h
      simp only [setAll] at h
      split at h
      · next h' =>
        rcases h' with ⟨rfl, h'⟩ | ⟨rfl, h'⟩
        · exact hf v hv (mem_nothing.1 h').2
        · rw [Sym2.eq_swap]; exact hf u hu (mem_nothing.1 h').2
      · exact (ht.2 u hu v hv huv).2 h

omit [Rounding] in
theorem inferMandatory_inferred {sp : SubProblem} {i : Nat} (hm : SymMatrix n sp.cons) (hi : i < n) (h2 : n - rowCount n sp.cons i .forbidden = 2)
    {m : Nat → Nat × Nat} (hm1 : ∀ k < sp.numMandatory, m k = sp.mandatory k)
    (hm2 : ∀ k (h : k < (nothingNodes n sp.cons i).length), m (sp.numMandatory + k) = (i, (nothingNodes n sp.cons i)[k]))
    (hroom : sp.numMandatory + (nothingNodes n sp.cons i).length ≤ n ∨ nothingNodes n sp.cons i = []) :
    Inferred n sp { sp with cons := setAll sp.cons i (nothingNodes n sp.cons i) .mandatory, numMandatory := sp.numMandatory + (nothingNodes n sp.cons i).length, mandatory := m } := by
  have href : ∀ u v, sp.cons u v ≠ .nothing → setAll sp.cons i (nothingNodes n sp.cons i) .mandatory u v = sp.cons u v :=
    fun u v h => setAll_refines hm hi .mandatory h
  refine ⟨href, rfl, setAll_symm hm hi, ?_, ?_⟩
  · intro hb
    refine ⟨setAll_symm hm hi, ?_, ?_, ?_, ?_⟩
    · intro u hu v hv huv h
      simp only [setAll] at h
      split at h
      · next h' =>
        have key : ∀ w, w ∈ nothingNodes n sp.cons i → ∃ k < sp.numMandatory + (nothingNodes n sp.cons i).length, s((m k).1, (m k).2) = s(i, w) := by
          intro w hw
          obtain ⟨k, hk, rfl⟩ := List.mem_iff_getElem.1 hw
          exact ⟨sp.numMandatory + k, by omega, by rw [hm2 k hk]⟩
        rcases h' with ⟨rfl, h'⟩ | ⟨rfl, h'⟩
        · exact key v h'
        · rw [Sym2.eq_swap]; exact key u h'
      · obtain ⟨k, hk, h'⟩ := hb.recorded u hu v hv huv h
        exact ⟨k, by simp only; omega, by simp only; rw [hm1 k hk]; exact h'⟩
    · intro k hk
      simp only at hk ⊢
      by_cases hk' : k < sp.numMandatory
      · rw [hm1 k hk']
        have := hb.entries k hk'
        exact ⟨this.1, this.2.1, this.2.2.1, by rw [href _ _ this.2.2.2]; exact this.2.2.2⟩
      · obtain ⟨d, rfl⟩ : ∃ d, k = sp.numMandatory + d := ⟨k - sp.numMandatory, by omega⟩
        have hd : d < (nothingNodes n sp.cons i).length := by omega
        rw [hm2 d hd]
        have hmem := List.getElem_mem hd
        have hno := mem_nothing.1 hmem
        refine ⟨hi, hno.1, ?_, ?_⟩
        · intro h
          simp only at h
          have h3 := hno.2
          rw [← h, hm.diag i hi] at h3
          cases h3
        · simp only [setAll]
          rw [if_pos (by simp)]; simp
    · intro u hu v hv huv h
      simp only [setAll] at h
      split at h
      · cases h
      · exact hb.counted u hu v hv huv h
    · rcases hroom with h | h
      · exact h
      · simp only [h, List.length_nil, Nat.add_zero]; exact hb.room
  · intro hn t ht
    have hf := (row_facts hm hn ht hi).2.2.2 h2
    refine ⟨ht.1, fun u hu v hv huv => ⟨?_, ?_⟩⟩
    · intro h
      simp only [setAll] at h
      split at h
      · next h' =>
        rcases h' with ⟨rfl, h'⟩ | ⟨rfl, h'⟩
        · exact hf v hv (mem_nothing.1 h').2
        · rw [Sym2.eq_swap]; exact hf u hu (mem_nothing.1 h').2
      · exact (ht.2 u hu v hv huv).1 h
    · intro h
      simp only [setAll] at h
      split at h
      · cases h
      · exact (ht.2 u hu v hv huv).2 h

omit [Rounding] in
theorem inferRow_ok {c : Cfg} {sp : SubProblem} {f : Nat} {i : Nat} {r : (SubProblem × Nat) × Bool} (hm : SymMatrix c.maxV sp.cons) (hi : i < c.maxV)
    (e : inferRow c ((sp, f), true) i = .ok r) : Inferred c.maxV sp r.1.1 ∧ (r.2 = false → 3 ≤ c.maxV → ∀ t, ¬ AllowedBy c.maxV sp.cons t) := by
  unfold inferRow at e
  simp only [if_true] at e
  by_cases h2 : rowCount c.maxV sp.cons i .mandatory = 2
  · rw [if_pos h2, inferForbid_ok, ok_bind] at e
    cases e
    exact ⟨inferForbid_inferred hm hi h2, by simp⟩
  · rw [if_neg h2] at e
    by_cases h3 : rowCount c.maxV sp.cons i .mandatory > 2 ∨ c.maxV - rowCount c.maxV sp.cons i .forbidden < 2
    · rw [if_pos h3] at e
      cases e
      refine ⟨Inferred.refl hm, ?_⟩
      intro _ hn t ht
      have := row_facts hm hn ht hi
      omega
    · rw [if_neg h3] at e
      by_cases h4 : c.maxV - rowCount c.maxV sp.cons i .forbidden = 2
      · rw [if_pos h4, if_pos (by have := row_total (n := c.maxV) sp.cons i; rw [nothing_length]; omega)] at e
        obtain ⟨r', e1, e2⟩ := bind_eq_ok.1 e
        cases e2
        by_cases hr : sp.numMandatory + (nothingNodes c.maxV sp.cons i).length ≤ c.maxV ∨ nothingNodes c.maxV sp.cons i = []
        · obtain ⟨m, e3, hm1, hm2⟩ := (inferMandatory_ok c i sp f _).1 hr
          rw [e3] at e1; cases e1
          exact ⟨inferMandatory_inferred hm hi h4 hm1 hm2 hr, by simp⟩
        · rw [(inferMandatory_ok c i sp f _).2 hr] at e1; cases e1
      · rw [if_neg h4] at e
        cases e
        exact ⟨Inferred.refl hm, by simp⟩

omit [Rounding] in
theorem inferConstraints_ok {c : Cfg} {sp : SubProblem} {f : Nat} {r : (SubProblem × Nat) × Bool} (hm : SymMatrix c.maxV sp.cons)
    (e : inferConstraints c sp f = .ok r) : Inferred c.maxV sp r.1.1 ∧ (r.2 = false → 3 ≤ c.maxV → ∀ t, ¬ AllowedBy c.maxV sp.cons t) := by
  unfold inferConstraints at e
  have key : ∀ (l : List Nat) (b b' : (SubProblem × Nat) × Bool), (∀ i ∈ l, i < c.maxV) →
      (Inferred c.maxV sp b.1.1 ∧ (b.2 = false → 3 ≤ c.maxV → ∀ t, ¬ AllowedBy c.maxV sp.cons t)) → forList (inferRow c) l b = .ok b' →
      Inferred c.maxV sp b'.1.1 ∧ (b'.2 = false → 3 ≤ c.maxV → ∀ t, ¬ AllowedBy c.maxV sp.cons t) := by
    intro l
    induction l with
    | nil => intro b b' _ h e; cases e; exact h
    | cons i l ih =>
      intro b b' hl h e
      rw [forList] at e
      obtain ⟨b1, e1, e2⟩ := bind_eq_ok.1 e
      refine ih b1 b' (fun j hj => hl j (by simp [hj])) ?_ e2
      obtain ⟨⟨sp0, f0⟩, v⟩ := b
      cases v with
      | false =>
        have : b1 = ((sp0, f0), false) := by unfold inferRow at e1; cases e1; rfl
        rw [this]; exact h
      | true =>
        have h1 := inferRow_ok h.1.sym (hl i (by simp)) e1
        exact ⟨h.1.trans h1.1, fun hf hn t ht => h1.2 hf hn t (h.1.tours hn t ht)⟩
  exact key _ _ _ (fun i hi => List.mem_range.1 hi) ⟨Inferred.refl hm, by simp⟩ e


omit [Rounding] in
theorem mem_upperPairs {n : Nat} {p : Nat × Nat} : p ∈ upperPairs n ↔ p.1 ≤ p.2 ∧ p.2 < n := by
  obtain ⟨i, j⟩ := p
  simp only [upperPairs, List.mem_flatMap, List.mem_range, List.mem_map, List.mem_range'_1, Prod.mk.injEq]
  constructor
  · rintro ⟨a, ha, b, hb, rfl, rfl⟩; omega
  · intro h; exact ⟨i, by omega, j, by omega, rfl, rfl⟩

omit [Rounding] in
theorem foldl_inv {α β : Type} {f : β → α → β} (I : List α → β → Prop) (hstep : ∀ p a b, I p b → I (p ++ [a]) (f b a)) (l : List α) (b : β) (h : I [] b) : I l (l.foldl f b) := by
  induction l using List.reverseRecOn with
  | nil => exact h
  | append_singleton l a ih => rw [List.foldl_append]; exact hstep l a _ ih

omit [Rounding] in
theorem initializeMatrix_ok (c : Cfg) (sp : SubProblem) : ∃ m, initializeMatrix c sp = { sp with numMandatory := 0, numForbidden := 0, cons := m } ∧
    ∀ u < c.maxV, ∀ v < c.maxV, m u v = if u = v then .forbidden else .nothing := by
  have h := foldl_inv (f := initCell) (fun (P : List (Nat × Nat)) (s : SubProblem) => ∃ m, s = { sp with numMandatory := 0, numForbidden := 0, cons := m } ∧
    ∀ u v, ((u, v) ∈ P ∨ (v, u) ∈ P) → m u v = if u = v then .forbidden else .nothing) (by
    rintro P ⟨i, j⟩ s ⟨m, rfl, hm⟩
    unfold initCell
    simp only
    by_cases hij : j = i
    · subst hij
      rw [if_pos rfl]
      refine ⟨_, rfl, ?_⟩
      intro u v huv
      rw [upd2_apply]
      by_cases h : u = j ∧ v = j
      · rw [if_pos h, if_pos (by omega)]
      · rw [if_neg h]
        apply hm
        simp only [List.mem_append, List.mem_singleton, Prod.mk.injEq] at huv
        tauto
    · rw [if_neg hij]
      refine ⟨_, rfl, ?_⟩
      intro u v huv
      rw [setCons_apply]
      by_cases h : (u = i ∧ v = j) ∨ (u = j ∧ v = i)
      · rw [if_pos h, if_neg (by omega)]
      · rw [if_neg h]
        apply hm
        simp only [List.mem_append, List.mem_singleton, Prod.mk.injEq] at huv
        tauto) (upperPairs c.maxV) { sp with numMandatory := 0, numForbidden := 0 } ⟨sp.cons, rfl, by simp⟩
  obtain ⟨m, h1, h2⟩ := h
  refine ⟨m, h1, ?_⟩
  intro u hu v hv
  apply h2
  rw [mem_upperPairs, mem_upperPairs]
  simp only; omega

/-- invariant of the copy loop -/
structure CopyInv (c : Cfg) (sp0 other : SubProblem) (P : List (Nat × Nat)) (s : SubProblem) : Prop where
  rest : SameRest sp0 s
  cons : ∀ u v, ((u, v) ∈ P ∨ (v, u) ∈ P) → s.cons u v = other.cons u v
  recorded : ∀ p ∈ P, other.cons p.1 p.2 = .mandatory → ∃ k < s.numMandatory, s.mandatory k = p
  entries : ∀ k < s.numMandatory, s.mandatory k ∈ P ∧ other.cons (s.mandatory k).1 (s.mandatory k).2 = .mandatory
  counted : ∀ p ∈ P, other.cons p.1 p.2 = .forbidden → 0 < s.numForbidden
  room : s.numMandatory ≤ c.maxV

omit [Rounding] in
theorem copyCell_ok {c : Cfg} {sp0 other s s' : SubProblem} {P : List (Nat × Nat)} {p : Nat × Nat} (h : CopyInv c sp0 other P s)
    (e : copyCell c other s p = .ok s') : CopyInv c sp0 other (P ++ [p]) s' := by
  obtain ⟨i, j⟩ := p
  have hcons : ∀ u v, ((u, v) ∈ P ++ [(i, j)] ∨ (v, u) ∈ P ++ [(i, j)]) → upd2 (upd2 s.cons i j (other.cons i j)) j i (other.cons j i) u v = other.cons u v := by
    intro u v huv
    rw [upd2_apply, upd2_apply]
    split
    · next h' => rw [h'.1, h'.2]
    · split
      · next h' => rw [h'.1, h'.2]
      · apply h.cons
        simp only [List.mem_append, List.mem_singleton, Prod.mk.injEq] at huv
        tauto
  have hrest : ∀ a b d m, SameRest sp0 { s with cons := a, numMandatory := b, numForbidden := d, mandatory := m } := by
    intro a b d m
    have := h.rest
    unfold SameRest at this ⊢
    rw [this]
  have hij : upd2 (upd2 s.cons i j (other.cons i j)) j i (other.cons j i) i j = other.cons i j := hcons i j (by simp)
  unfold copyCell at e
  simp only at e
  rw [hij] at e
  by_cases h1 : other.cons i j = .mandatory
  · rw [if_pos h1] at e
    unfold pushMandatory at e
    simp only at e
    by_cases h2 : s.numMandatory ≥ c.maxV
    · rw [if_pos h2] at e; cases e
    · rw [if_neg h2] at e
      cases e
      refine ⟨hrest _ _ _ _, hcons, ?_, ?_, ?_, by simp only; omega⟩
      · intro q hq hqm
        rcases List.mem_append.1 hq with hq | hq
        · obtain ⟨k, hk, h'⟩ := h.recorded q hq hqm
          exact ⟨k, by simp only; omega, by simp only; rw [upd_ne _ _ (by omega)]; exact h'⟩
        · rw [List.mem_singleton] at hq
          subst hq
          exact ⟨s.numMandatory, by simp, by simp⟩
      · intro k hk
        simp only at hk ⊢
        by_cases hk' : k = s.numMandatory
        · rw [hk', upd_self]; exact ⟨by simp, h1⟩
        · rw [upd_ne _ _ hk']
          have := h.entries k (by omega)
          exact ⟨by simp [this.1], this.2⟩
      · intro q hq hqf
        rcases List.mem_append.1 hq with hq | hq
        · exact h.counted q hq hqf
        · rw [List.mem_singleton] at hq
          subst hq
          rw [h1] at hqf; cases hqf
  · rw [if_neg h1] at e
    have hrec : ∀ q ∈ P ++ [(i, j)], other.cons q.1 q.2 = .mandatory → ∃ k < s.numMandatory, s.mandatory k = q := by
      intro q hq hqm
      rcases List.mem_append.1 hq with hq | hq
      · exact h.recorded q hq hqm
      · rw [List.mem_singleton] at hq
        subst hq; exact absurd hqm h1
    have hent : ∀ k < s.numMandatory, s.mandatory k ∈ P ++ [(i, j)] ∧ other.cons (s.mandatory k).1 (s.mandatory k).2 = .mandatory := by
      intro k hk
      have := h.entries k hk
      exact ⟨by simp [this.1], this.2⟩
    by_cases h2 : other.cons i j = .forbidden
    · rw [if_pos h2] at e
      cases e
      exact ⟨hrest _ _ _ _, hcons, hrec, hent, fun _ _ _ => by simp, h.room⟩
    · rw [if_neg h2] at e
      cases e
      refine ⟨hrest _ _ _ _, hcons, hrec, hent, ?_, h.room⟩
      intro q hq hqf
      rcases List.mem_append.1 hq with hq | hq
      · exact h.counted q hq hqf
      · rw [List.mem_singleton] at hq
        subst hq; exact absurd hqf h2

omit [Rounding] in
theorem copyConstraints_ok {c : Cfg} {sp0 other s : SubProblem} (hm : SymMatrix c.maxV other.cons) (e : copyConstraints c sp0 other = .ok s) :
    Bookkeeping c.maxV s ∧ SameRest sp0 s ∧ (∀ u < c.maxV, ∀ v < c.maxV, s.cons u v = other.cons u v) := by
  unfold copyConstraints at e
  have h := forList_inv (CopyInv c sp0 other) (fun P a b b' h e => copyCell_ok h e) _ _ _ (by
    exact ⟨rfl, by simp, by simp, by simp, by simp, by simp⟩) e
  have hc : ∀ u < c.maxV, ∀ v < c.maxV, s.cons u v = other.cons u v := by
    intro u hu v hv
    apply h.cons
    rw [mem_upperPairs, mem_upperPairs]; simp only; omega
  refine ⟨⟨⟨?_, ?_⟩, ?_, ?_, ?_, h.room⟩, h.rest, hc⟩
  · intro u hu v hv; rw [hc u hu v hv, hc v hv u hu]; exact hm.symm u hu v hv
  · intro u hu; rw [hc u hu u hu]; exact hm.diag u hu
  · intro u hu v hv huv hma
    rw [hc u hu v hv] at hma
    by_cases h' : u ≤ v
    · obtain ⟨k, hk, hk'⟩ := h.recorded (u, v) (mem_upperPairs.2 ⟨h', hv⟩) hma
      exact ⟨k, hk, by rw [hk']⟩
    · obtain ⟨k, hk, hk'⟩ := h.recorded (v, u) (mem_upperPairs.2 ⟨by simp only; omega, hu⟩) (by rw [← hma]; exact hm.symm v hv u hu)
      exact ⟨k, hk, by rw [hk', Sym2.eq_swap]⟩
  · intro k hk
    obtain ⟨h1, h2⟩ := h.entries k hk
    rw [mem_upperPairs] at h1
    have h3 : (s.mandatory k).1 < c.maxV := by omega
    refine ⟨h3, h1.2, ?_, ?_⟩
    · intro heq
      rw [← heq, hm.diag _ h3] at h2; cases h2
    · rw [hc _ h3 _ h1.2, h2]; simp
  · intro u hu v hv huv hf
    rw [hc u hu v hv] at hf
    by_cases h' : u ≤ v
    · exact h.counted (u, v) (mem_upperPairs.2 ⟨h', hv⟩) hf
    · exact h.counted (v, u) (mem_upperPairs.2 ⟨by simp only; omega, hu⟩) (by rw [← hf]; exact hm.symm v hv u hu)

omit [Rounding] in
theorem setCons_symM {cons : Nat → Nat → CType} (hm : SymMatrix n cons) {i j : Nat} (hij : i ≠ j) (x : CType) : SymMatrix n (setCons cons i j x) := by
  constructor
  · intro u hu v hv
    rw [setCons_sym, setCons_sym, Sym2.eq_swap, hm.symm u hu v hv]
  · intro u hu
    rw [setCons_apply, if_neg (by omega)]; exact hm.diag u hu

omit [Rounding] in
/-- a child requires the edge -/
theorem requireEdge_ok {c : Cfg} {sp sp' : SubProblem} {e : Edge} (hb : Bookkeeping c.maxV sp) (hs : e.src < c.maxV) (hd : e.dest < c.maxV) (hne : e.src ≠ e.dest)
    (h : requireEdge c sp e = .ok sp') : Bookkeeping c.maxV sp' ∧ SameRest sp sp' ∧ sp'.cons = setCons sp.cons e.src e.dest .mandatory := by
  unfold requireEdge pushMandatory at h
  simp only at h
  by_cases h2 : sp.numMandatory ≥ c.maxV
  · rw [if_pos h2] at h; cases h
  · rw [if_neg h2] at h
    cases h
    refine ⟨⟨setCons_symM hb.sym hne _, ?_, ?_, ?_, by simp only; omega⟩, rfl, rfl⟩
    · intro u hu v hv huv hm
      simp only at hm ⊢
      rw [setCons_sym] at hm
      split at hm
      · next h' => exact ⟨sp.numMandatory, by omega, by rw [upd_self]; exact h'.symm⟩
      · obtain ⟨k, hk, hk'⟩ := hb.recorded u hu v hv huv hm
        exact ⟨k, by omega, by rw [upd_ne _ _ (by omega)]; exact hk'⟩
    · intro k hk
      simp only at hk ⊢
      by_cases hk' : k = sp.numMandatory
      · rw [hk', upd_self]
        refine ⟨hs, hd, hne, ?_⟩
        rw [setCons_sym, if_pos rfl]; simp
      · rw [upd_ne _ _ hk']
        have := hb.entries k (by omega)
        refine ⟨this.1, this.2.1, this.2.2.1, ?_⟩
        rw [setCons_sym]; split
        · simp
        · exact this.2.2.2
    · intro u hu v hv huv hf
      simp only at hf ⊢
      rw [setCons_sym] at hf
      split at hf
      · cases hf
      · exact hb.counted u hu v hv huv hf

omit [Rounding] in
/-- a child forbids the edge -/
theorem forbidEdge_ok {c : Cfg} {sp : SubProblem} {e : Edge} (hb : Bookkeeping c.maxV sp) (hne : e.src ≠ e.dest) :
    Bookkeeping c.maxV (forbidEdge sp e) ∧ SameRest sp (forbidEdge sp e) ∧ (forbidEdge sp e).cons = setCons sp.cons e.src e.dest .forbidden := by
  refine ⟨⟨setCons_symM hb.sym hne _, ?_, ?_, fun _ _ _ _ _ _ => by simp [forbidEdge], hb.room⟩, rfl, rfl⟩
  · intro u hu v hv huv hm
    simp only [forbidEdge] at hm ⊢
    rw [setCons_sym] at hm
    split at hm
    · cases hm
    · exact hb.recorded u hu v hv huv hm
  · intro k hk
    simp only [forbidEdge] at hk ⊢
    have := hb.entries k hk
    refine ⟨this.1, this.2.1, this.2.2.1, ?_⟩
    rw [setCons_sym]; split
    · simp
    · exact this.2.2.2

omit [Rounding] in
/-- what a child looks like before inference -/
theorem makeChild_ok {c : Cfg} {mem cur child : SubProblem} {e : Edge} {id i : Nat} (hm : SymMatrix c.maxV cur.cons) (hs : e.src < c.maxV) (hd : e.dest < c.maxV)
    (hne : e.src ≠ e.dest) (h : makeChild c mem cur e id i = .ok child) :
    Bookkeeping c.maxV child ∧ child.id = id ∧ child.fatherId = cur.id ∧ child.value = cur.value ∧ child.treeLevel = cur.treeLevel + 1 ∧ child.type = .opened ∧
    child.numCycle = 0 ∧ child.edgeToBranch = -1 ∧ child.prob = cur.prob ∧
    ∀ u < c.maxV, ∀ v < c.maxV, child.cons u v = if s(u, v) = s(e.src, e.dest) then (if childRequires c e.prob i then .mandatory else .forbidden) else cur.cons u v := by
  unfold makeChild at h
  obtain ⟨ch, h1, h2⟩ := bind_eq_ok.1 h
  obtain ⟨b1, b2, b3⟩ := copyConstraints_ok hm h1
  have hfields : ∀ ch2, SameRest ch ch2 → ch2.id = id ∧ ch2.fatherId = cur.id ∧ ch2.value = cur.value ∧ ch2.treeLevel = cur.treeLevel + 1 ∧ ch2.type = .opened ∧
    ch2.numCycle = 0 ∧ ch2.edgeToBranch = -1 ∧ ch2.prob = cur.prob := by
    intro ch2 h'
    unfold SameRest at h' b2
    rw [h', b2]
    exact ⟨rfl, rfl, rfl, rfl, rfl, rfl, rfl, rfl⟩
  cases hr : childRequires c e.prob i with
  | true =>
    rw [hr, if_pos rfl] at h2
    obtain ⟨d1, d2, d3⟩ := requireEdge_ok b1 hs hd hne h2
    obtain ⟨f1, f2, f3, f4, f5, f6, f7, f8⟩ := hfields child d2
    refine ⟨d1, f1, f2, f3, f4, f5, f6, f7, f8, ?_⟩
    intro u hu v hv
    rw [d3, setCons_sym, b3 u hu v hv]; simp
  | false =>
    rw [hr, if_neg (by simp)] at h2
    cases h2
    obtain ⟨d1, d2, d3⟩ := forbidEdge_ok b1 hne
    obtain ⟨f1, f2, f3, f4, f5, f6, f7, f8⟩ := hfields _ d2
    refine ⟨d1, f1, f2, f3, f4, f5, f6, f7, f8, ?_⟩
    intro u hu v hv
    rw [d3, setCons_sym, b3 u hu v hv]; simp

omit [Rounding] in
/-- the tours of a child before inference -/
theorem child_tours {c : Cfg} {cur child : SubProblem} {e : Edge} {b : Bool} (hs : e.src < c.maxV) (hd : e.dest < c.maxV) (hne : e.src ≠ e.dest)
    (hc : ∀ u < c.maxV, ∀ v < c.maxV, child.cons u v = if s(u, v) = s(e.src, e.dest) then (if b then .mandatory else .forbidden) else cur.cons u v)
    {t : List Nat} (ht : AllowedBy c.maxV cur.cons t) : AllowedBy c.maxV child.cons t ↔ (b = true ↔ s(e.src, e.dest) ∈ tourEdges t) := by
  constructor
  · intro h
    have h1 := h.2 e.src hs e.dest hd hne
    rw [hc e.src hs e.dest hd, if_pos rfl] at h1
    cases b with
    | true => simp at h1; simp [h1]
    | false => simp at h1; simp [h1]
  · intro h
    refine ⟨ht.1, fun u hu v hv huv => ?_⟩
    rw [hc u hu v hv]
    split
    · next h' =>
      rw [h']
      cases b with
      | true => simp at h; simp [h]
      | false => simp at h; simp [h]
    · exact ht.2 u hu v hv huv

end Verif
