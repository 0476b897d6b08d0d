import Verif.Model.Prim
import Verif.Proofs.Tree
import Verif.Proofs.Kruskal
import Verif.Props.FibHeap

/-!
# Prim's main loop: invariant

`V` are the nodes put in the heap, `E` the edges that may be used, `w` their weights, `big` the value of unreached nodes.
-/
namespace Verif
open Verif.Spec
set_option autoImplicit false

variable [Rounding]

/-- the edges to their fathers of the nodes in `X` -/
def fatherEdges (X : Finset Nat) (f : Nat → Option Nat) : EdgeSet :=
  (X.filter (fun i => f i ≠ none)).image fun i => s((f i).getD 0, i)

omit [Rounding] in
theorem mem_fatherEdges {X : Finset Nat} {f : Nat → Option Nat} {e : Sym2 Nat} :
    e ∈ fatherEdges X f ↔ ∃ i ∈ X, ∃ p, f i = some p ∧ e = s(p, i) := by
  simp only [fatherEdges, Finset.mem_image, Finset.mem_filter]
  constructor
  · rintro ⟨i, ⟨hi, hf⟩, rfl⟩
    cases h : f i with
    | none => exact absurd h hf
    | some p => exact ⟨i, hi, p, h, by simp⟩
  · rintro ⟨i, hi, p, hp, rfl⟩
    exact ⟨i, ⟨hi, by simp [hp]⟩, by simp [hp]⟩

omit [Rounding] in
theorem fatherEdges_congr {X : Finset Nat} {f f' : Nat → Option Nat} (h : ∀ i ∈ X, f' i = f i) : fatherEdges X f' = fatherEdges X f := by
  ext e; simp only [mem_fatherEdges]
  constructor
  · rintro ⟨i, hi, p, hp, rfl⟩; exact ⟨i, hi, p, by rw [← h i hi]; exact hp, rfl⟩
  · rintro ⟨i, hi, p, hp, rfl⟩; exact ⟨i, hi, p, by rw [h i hi]; exact hp, rfl⟩

/-- what Prim's loop needs to know about the graph -/
structure PrimCtx (g : Graph) (allow : Nat → Nat → Bool) (V : Finset Nat) (E : EdgeSet) (w : Sym2 Nat → ℚ) (big : ℚ) : Prop where
  vlt : ∀ i ∈ V, i < g.numNodes
  nlt : ∀ u ∈ V, ∀ v ∈ (g.nodes u).list, v < g.numNodes
  within : Within V E
  edge : ∀ u ∈ V, ∀ v ∈ V, u ≠ v → (s(u, v) ∈ E ↔ v ∈ (g.nodes u).list ∧ allow u v = true)
  noloop : ∀ u, s(u, u) ∉ E
  wt : ∀ u v, s(u, v) ∈ E → (g.mat u v).weight = w s(u, v)

/-- invariant of Prim's loop: `X` is the set of extracted nodes -/
structure PInv (V : Finset Nat) (E : EdgeSet) (w : Sym2 Nat → ℚ) (big : ℚ) (val0 : Nat → ℚ) (n : Nat) (X : Finset Nat)
    (seen : Nat → Nat → Prop) (s : PState) : Prop where
  xsub : X ⊆ V
  bag : ∃ bag, Fib.Reach s.heap bag ∧ ∀ i, bag i = if i ∈ V \ X then some (i, s.heap.value i) else none
  inh : ∀ i < n, (s.inHeap i = true ↔ i ∈ V \ X)
  start : X = ∅ → ∀ i ∈ V, s.fathers i = none ∧ s.heap.value i = val0 i
  unreached : X.Nonempty → ∀ i ∈ V \ X, s.fathers i = none → s.heap.value i = big
  fat : ∀ i ∈ V \ X, ∀ p, s.fathers i = some p → p ∈ X ∧ s(p, i) ∈ E ∧ s.heap.value i = w s(p, i)
  bound : ∀ i ∈ V \ X, ∀ x ∈ X, s(x, i) ∈ E → seen x i → s.heap.value i ≤ w s(x, i)
  fin : ∀ i ∈ X, ∀ p, s.fathers i = some p → p ∈ X ∧ s(p, i) ∈ E
  acyc : Acyclic (fatherEdges X s.fathers)
  prom : Promising w V E (fatherEdges X s.fathers)
  card : (fatherEdges X s.fathers).card = (X.filter (fun i => s.fathers i ≠ none)).card
  roots : (∀ e ∈ E, w e < big) → Connected V E → (X.filter (fun i => s.fathers i = none)).card ≤ 1
  out : ∀ i < n, i ∉ V → s.fathers i = none

section
variable {g : Graph} {allow : Nat → Nat → Bool} {V : Finset Nat} {E : EdgeSet} {w : Sym2 Nat → ℚ} {big : ℚ} {val0 : Nat → ℚ}

omit [Rounding] in
theorem relax_ok (ctx : PrimCtx g allow V E w big) {X : Finset Nat} {u : Nat} (huX : u ∈ X) {done : List Nat} {s : PState}
    (h : PInv V E w big val0 g.numNodes X (fun x i => x ≠ u ∨ i ∈ done) s) {v : Nat} (hv : v ∈ (g.nodes u).list) :
    ∃ s', relax g allow u s v = .ok s' ∧ PInv V E w big val0 g.numNodes X (fun x i => x ≠ u ∨ i ∈ done ++ [v]) s' := by
  have huV := h.xsub huX
  have hvn := ctx.nlt u huV v hv
  have Xne : X.Nonempty := ⟨u, huX⟩
  -- the invariant with `v` counted as seen, if the state does not change
  have keep : (v ∈ V \ X → s(u, v) ∈ E → s.heap.value v ≤ w s(u, v)) →
      PInv V E w big val0 g.numNodes X (fun x i => x ≠ u ∨ i ∈ done ++ [v]) s := by
    intro hb
    refine { h with bound := ?_ }
    intro i hi x hx hxi hs
    rcases hs with hs | hs
    · exact h.bound i hi x hx hxi (Or.inl hs)
    · rcases List.mem_append.1 hs with hs | hs
      · exact h.bound i hi x hx hxi (Or.inr hs)
      · simp at hs; subst hs
        by_cases hxu : x = u
        · subst hxu; exact hb hi hxi
        · exact h.bound i hi x hx hxi (Or.inl hxu)
  unfold relax
  by_cases hvu : v = u
  · simp only [hvu, ne_eq, not_true_eq_false, ↓reduceIte, pure_eq_ok, Except.ok.injEq, exists_eq_left']
    rw [hvu] at keep; exact keep (fun _ hE => absurd hE (ctx.noloop u))
  have hge : ¬ v ≥ g.numNodes := by omega
  rw [if_pos hvu, if_neg hge]
  by_cases hin : s.inHeap v = true
  swap
  · rw [if_neg hin]
    exact ⟨s, rfl, keep (fun hvx => absurd ((h.inh v hvn).2 hvx) hin)⟩
  rw [if_pos hin]
  have hvX := (h.inh v hvn).1 hin
  have hvV := (Finset.mem_sdiff.1 hvX).1
  by_cases hlt : (g.mat u v).weight < s.heap.value v
  swap
  · simp only [if_neg hlt]
    refine ⟨s, rfl, keep (fun _ hE => ?_)⟩
    rw [← ctx.wt u v hE]; exact not_lt.1 hlt
  by_cases hal : allow u v = true
  swap
  · simp only [if_pos hlt, if_neg hal]
    refine ⟨s, rfl, keep (fun _ hE => ?_)⟩
    exact absurd ((ctx.edge u huV v hvV (fun h => hvu h.symm)).1 hE).2 hal
  have hE : s(u, v) ∈ E := (ctx.edge u huV v hvV (fun h => hvu h.symm)).2 ⟨hv, hal⟩
  obtain ⟨bag, hr, hbag⟩ := h.bag
  have hbv : bag v = some (v, s.heap.value v) := by rw [hbag, if_pos hvX]
  obtain ⟨h', e1, hr', -⟩ := (Fib.C12_decrease_value hr hbv (g.mat u v).weight).1 hlt.le
  simp only [if_pos hlt, if_pos hal, e1, ok_bind, pure_eq_ok, Except.ok.injEq, exists_eq_left']
  have hval : ∀ i ∈ V \ X, h'.value i = if i = v then (g.mat u v).weight else s.heap.value i := by
    intro i hi
    by_cases hiv : i = v
    · subst hiv
      rw [if_pos rfl]
      exact (Fib.C10_contents hr' (by rw [upd_self])).2
    · rw [if_neg hiv]
      exact (Fib.C10_contents hr' (x := i) (k := i) (by rw [upd_ne _ _ hiv, hbag, if_pos hi])).2
  have hfX : ∀ i ∈ X, (upd s.fathers v (some u)) i = s.fathers i := by
    intro i hi
    rw [upd_ne]
    rintro rfl; exact (Finset.mem_sdiff.1 hvX).2 hi
  have hfe := fatherEdges_congr hfX
  have hwuv := ctx.wt u v hE
  constructor
  · exact h.xsub
  · refine ⟨_, hr', ?_⟩
    intro i
    rw [upd_apply]
    by_cases hiv : i = v
    · subst hiv; rw [if_pos rfl, if_pos hvX, hval i hvX, if_pos rfl]
    · rw [if_neg hiv, hbag]
      by_cases hi : i ∈ V \ X
      · rw [if_pos hi, if_pos hi, hval i hi, if_neg hiv]
      · rw [if_neg hi, if_neg hi]
  · exact h.inh
  · intro hX; rw [hX] at huX; simp at huX
  · intro _ i hi hf
    show h'.value i = big
    simp only [upd_apply] at hf
    rw [hval i hi]
    by_cases hiv : i = v
    · rw [if_pos hiv] at hf; cases hf
    · rw [if_neg hiv] at hf ⊢; exact h.unreached Xne i hi hf
  · intro i hi p hp
    show p ∈ X ∧ s(p, i) ∈ E ∧ h'.value i = w s(p, i)
    simp only [upd_apply] at hp
    rw [hval i hi]
    by_cases hiv : i = v
    · rw [if_pos hiv] at hp ⊢; cases hp; subst hiv; exact ⟨huX, hE, hwuv⟩
    · rw [if_neg hiv] at hp ⊢; exact h.fat i hi p hp
  · intro i hi x hx hxi hs
    show h'.value i ≤ w s(x, i)
    rw [hval i hi]
    have old : i ≠ v ∨ x ≠ u → s.heap.value i ≤ w s(x, i) := by
      intro hor
      refine h.bound i hi x hx hxi ?_
      rcases hs with hs | hs
      · exact Or.inl hs
      · rcases List.mem_append.1 hs with hs | hs
        · exact Or.inr hs
        · simp at hs
          rcases hor with ho | ho
          · exact absurd hs ho
          · exact Or.inl ho
    by_cases hiv : i = v
    · subst hiv
      rw [if_pos rfl]
      by_cases hxu : x = u
      · subst hxu; rw [hwuv]
      · exact hlt.le.trans (old (Or.inr hxu))
    · rw [if_neg hiv]; exact old (Or.inl hiv)
  · intro i hi p hp
    have : (upd s.fathers v (some u)) i = some p := hp
    rw [hfX i hi] at this; exact h.fin i hi p this
  · show Acyclic (fatherEdges X (upd s.fathers v (some u)))
    rw [hfe]; exact h.acyc
  · show Promising w V E (fatherEdges X (upd s.fathers v (some u)))
    rw [hfe]; exact h.prom
  · show (fatherEdges X (upd s.fathers v (some u))).card = _
    rw [hfe, h.card]
    congr 1
    apply Finset.filter_congr
    intro i hi; rw [← hfX i hi]
  · intro hsm hc
    have := h.roots hsm hc
    refine le_trans (le_of_eq ?_) this
    congr 1
    apply Finset.filter_congr
    intro i hi; rw [← hfX i hi]
  · intro i hi hiV
    show (upd s.fathers v (some u)) i = none
    rw [upd_ne]
    · exact h.out i hi hiV
    · rintro rfl; exact hiV hvV

omit [Rounding] in
theorem relaxAll_ok (ctx : PrimCtx g allow V E w big) {X : Finset Nat} {u : Nat} (huX : u ∈ X) : ∀ (todo done : List Nat) (s : PState),
    PInv V E w big val0 g.numNodes X (fun x i => x ≠ u ∨ i ∈ done) s → (∀ v ∈ todo, v ∈ (g.nodes u).list) →
    ∃ s', forList (relax g allow u) todo s = .ok s' ∧ PInv V E w big val0 g.numNodes X (fun x i => x ≠ u ∨ i ∈ done ++ todo) s' := by
  intro todo
  induction todo with
  | nil => intro done s h _; exact ⟨s, rfl, by simpa using h⟩
  | cons v todo ih =>
    intro done s h hl
    obtain ⟨s1, e1, h1⟩ := relax_ok ctx huX h (hl v (by simp))
    obtain ⟨s2, e2, h2⟩ := ih (done ++ [v]) s1 h1 (fun x hx => hl x (by simp [hx]))
    refine ⟨s2, ?_, by simpa using h2⟩
    rw [forList, e1, ok_bind, e2]

/-- hypotheses on the initial values: all at most `big`, at most one below -/
structure Init (V : Finset Nat) (big : ℚ) (val0 : Nat → ℚ) : Prop where
  le : ∀ i ∈ V, val0 i ≤ big
  one : ∀ i ∈ V, ∀ j ∈ V, val0 i < big → val0 j < big → i = j

omit [Rounding] in
/-- moving the extracted node to `X` -/
theorem extract_ok (ctx : PrimCtx g allow V E w big) (hi0 : Init V big val0) {X : Finset Nat} {s : PState}
    (h : PInv V E w big val0 g.numNodes X (fun _ _ => True) s) (hne : s.heap.numNodes ≠ 0) :
    (Fib.extractMin s.heap = .error (.oobAt .degreeList) ∧ 56 ≤ V.card) ∨
    ∃ u h', u ∈ V \ X ∧ Fib.extractMin s.heap = .ok (some u, h') ∧
      PInv V E w big val0 g.numNodes (insert u X) (fun x i => x ≠ u ∨ i ∈ ([] : List Nat))
        { s with heap := h', inHeap := upd s.inHeap u false } := by
  obtain ⟨bag, hr, hbag⟩ := h.bag
  have hsz := (Fib.C11_empty_and_counter hr).2.2
  have hnemp : ¬ bag.Empty := by
    intro he
    obtain ⟨l, -, hl, hlen⟩ := hsz
    cases l with
    | nil => simp at hlen; omega
    | cons a l => exact (hl a).1 (by simp) (he a)
  rcases Fib.C10_extract_min_returns_minimum hr hsz hnemp with ⟨e, h56⟩ | ⟨x, k, h', e, ⟨wv, hx, hmin⟩, hr'⟩
  · left
    refine ⟨e, ?_⟩
    obtain ⟨l, nd, hl, hlen⟩ := hsz
    have hle : l.length ≤ (V \ X).card := by
      rw [← List.toFinset_card_of_nodup nd]
      apply Finset.card_le_card
      intro a ha
      rw [List.mem_toFinset, hl, hbag] at ha
      by_contra hna
      rw [if_neg hna] at ha; exact ha rfl
    have := Finset.card_le_card (Finset.sdiff_subset (s := V) (t := X))
    omega
  · right
    have hxVX : x ∈ V \ X := by
      by_contra hna
      rw [hbag, if_neg hna] at hx; cases hx
    have hx' := hx
    rw [hbag, if_pos hxVX] at hx'
    have hkx : k = x := by simp at hx'; exact hx'.1.symm
    have hwv : wv = s.heap.value x := by simp at hx'; exact hx'.2.symm
    subst hkx hwv
    clear hx'
    have hmin' : ∀ i ∈ V \ X, s.heap.value k ≤ s.heap.value i := fun i hi => hmin i i _ (by rw [hbag, if_pos hi])
    obtain ⟨hkV, hkX⟩ := Finset.mem_sdiff.1 hxVX
    have hdiff : ∀ i, i ∈ V \ insert k X ↔ i ∈ V \ X ∧ i ≠ k := by
      intro i; simp only [Finset.mem_sdiff, Finset.mem_insert]; tauto
    have hval : ∀ i ∈ V \ insert k X, h'.value i = s.heap.value i := by
      intro i hi
      obtain ⟨h1, h2⟩ := (hdiff i).1 hi
      exact (Fib.C10_contents hr' (x := i) (k := i) (by rw [upd_ne _ _ h2, hbag, if_pos h1])).2
    -- at the first extraction every other node has value `big`
    have hbig : ∀ i ∈ V \ insert k X, s.fathers i = none → s.heap.value i = big := by
      intro i hi hf
      obtain ⟨h1, h2⟩ := (hdiff i).1 hi
      by_cases hX : X.Nonempty
      · exact h.unreached hX i h1 hf
      · have hXe := Finset.not_nonempty_iff_eq_empty.1 hX
        have hvi := (h.start hXe i (Finset.mem_sdiff.1 h1).1).2
        have hvk := (h.start hXe k hkV).2
        have hle := hi0.le i (Finset.mem_sdiff.1 h1).1
        rw [hvi]
        rcases lt_or_eq_of_le hle with hlt | heq
        · have := hmin' i h1
          rw [hvi, hvk] at this
          exact absurd (hi0.one i (Finset.mem_sdiff.1 h1).1 k hkV hlt (lt_of_le_of_lt this hlt)) h2
        · exact heq
    have hins : ∀ i, i ∈ insert k X ↔ i = k ∨ i ∈ X := fun i => Finset.mem_insert
    -- the new set of father edges
    have hfe : fatherEdges (insert k X) s.fathers = match s.fathers k with
        | none => fatherEdges X s.fathers
        | some p => insert s(p, k) (fatherEdges X s.fathers) := by
      ext ed
      rw [mem_fatherEdges]
      cases hfk : s.fathers k with
      | none =>
        simp only [mem_fatherEdges, hins]
        constructor
        · rintro ⟨i, rfl | hi, p, hp, rfl⟩
          · rw [hfk] at hp; cases hp
          · exact ⟨i, hi, p, hp, rfl⟩
        · rintro ⟨i, hi, p, hp, rfl⟩; exact ⟨i, Or.inr hi, p, hp, rfl⟩
      | some q =>
        simp only [Finset.mem_insert, mem_fatherEdges]
        constructor
        · rintro ⟨i, rfl | hi, p, hp, rfl⟩
          · rw [hfk] at hp; cases hp; exact Or.inl rfl
          · exact Or.inr ⟨i, hi, p, hp, rfl⟩
        · rintro (rfl | ⟨i, hi, p, hp, rfl⟩)
          · exact ⟨k, Or.inl rfl, q, hfk, rfl⟩
          · exact ⟨i, Or.inr hi, p, hp, rfl⟩
    have hFX : ∀ a b, s(a, b) ∈ fatherEdges X s.fathers → a ∈ X ∧ b ∈ X := by
      intro a b hab
      obtain ⟨i, hi, p, hp, heq⟩ := mem_fatherEdges.1 hab
      have := (h.fin i hi p hp).1
      rw [Sym2.eq_iff] at heq
      rcases heq with ⟨rfl, rfl⟩ | ⟨rfl, rfl⟩
      · exact ⟨this, hi⟩
      · exact ⟨hi, this⟩
    refine ⟨k, h', hxVX, e, ?_⟩
    constructor
    · exact Finset.insert_subset hkV h.xsub
    · refine ⟨_, hr', fun i => ?_⟩
      rw [upd_apply]
      by_cases hik : i = k
      · subst hik; rw [if_pos rfl, if_neg]; rw [hdiff]; simp
      · rw [if_neg hik, hbag]
        by_cases hi : i ∈ V \ X
        · have hi' := (hdiff i).2 ⟨hi, hik⟩
          rw [if_pos hi, if_pos hi', hval i hi']
        · rw [if_neg hi, if_neg]; rw [hdiff]; tauto
    · intro i hi
      show upd s.inHeap k false i = true ↔ _
      rw [upd_apply, hdiff]
      by_cases hik : i = k
      · simp [hik]
      · rw [if_neg hik, h.inh i hi]; tauto
    · intro hemp; exact absurd hemp (Finset.insert_ne_empty _ _)
    · intro _ i hi hf
      show h'.value i = big
      rw [hval i hi]; exact hbig i hi hf
    · intro i hi p hp
      show _ ∧ _ ∧ h'.value i = _
      rw [hval i hi]
      obtain ⟨h1, h2, h3⟩ := h.fat i ((hdiff i).1 hi).1 p hp
      exact ⟨Finset.mem_insert_of_mem h1, h2, h3⟩
    · intro i hi x hx hxi hs
      show h'.value i ≤ _
      rw [hval i hi]
      simp only [List.not_mem_nil, or_false] at hs
      exact h.bound i ((hdiff i).1 hi).1 x (((hins x).1 hx).resolve_left hs) hxi trivial
    · intro i hi p hp
      rcases (hins i).1 hi with rfl | hi
      · obtain ⟨h1, h2, -⟩ := h.fat i hxVX p hp
        exact ⟨Finset.mem_insert_of_mem h1, h2⟩
      · obtain ⟨h1, h2⟩ := h.fin i hi p hp
        exact ⟨Finset.mem_insert_of_mem h1, h2⟩
    · show Acyclic (fatherEdges (insert k X) s.fathers)
      rw [hfe]
      cases hfk : s.fathers k with
      | none => exact h.acyc
      | some p =>
        refine h.acyc.insert ?_
        intro hc
        have hp := (h.fat k hxVX p hfk).1
        exact hkX (Conn.closed (C := fun z => z ∈ X) (fun a b hab _ => (hFX a b hab).2) hc hp)
    · show Promising w V E (fatherEdges (insert k X) s.fathers)
      rw [hfe]
      cases hfk : s.fathers k with
      | none => exact h.prom
      | some p =>
        obtain ⟨h1, h2, h3⟩ := h.fat k hxVX p hfk
        refine h.prom.insert (fun z => z ∈ X) (h.xsub h1) hkV h1 hkX h2 (fun a b hab _ => (hFX a b hab).2) ?_
        intro a b hab ha hb
        have hbV := (ctx.within a b hab).2
        have hbVX := Finset.mem_sdiff.2 ⟨hbV, hb⟩
        rw [← h3]
        exact (hmin' b hbVX).trans (h.bound b hbVX a ha hab trivial)
    · show (fatherEdges (insert k X) s.fathers).card = ((insert k X).filter _).card
      rw [hfe, Finset.filter_insert]
      cases hfk : s.fathers k with
      | none => simp only [ne_eq, not_true_eq_false, ↓reduceIte]; exact h.card
      | some p =>
        simp only [ne_eq, reduceCtorEq, not_false_eq_true, ↓reduceIte]
        rw [Finset.card_insert_of_notMem, Finset.card_insert_of_notMem, h.card]
        · intro hm; exact hkX (Finset.mem_filter.1 hm).1
        · intro hm; exact hkX (hFX p k hm).2
    · intro hsm hc
      show ((insert k X).filter (fun i => s.fathers i = none)).card ≤ 1
      rw [Finset.filter_insert]
      cases hfk : s.fathers k with
      | some p => simpa using h.roots hsm hc
      | none =>
        simp only [↓reduceIte]
        by_cases hX : X.Nonempty
        · -- all remaining nodes are unreached: `E` is not connected
          exfalso
          have hkb := h.unreached hX k hxVX hfk
          obtain ⟨x0, hx0⟩ := hX
          have hcl := Conn.closed (E := E) (C := fun z => z ∈ X) (fun a b hab ha => by
            by_contra hb
            have hbVX := Finset.mem_sdiff.2 ⟨(ctx.within a b hab).2, hb⟩
            have h1 := hmin' b hbVX
            have h2 := h.bound b hbVX a ha hab trivial
            have h3 := hsm _ hab
            rw [hkb] at h1
            linarith) (hc x0 (h.xsub hx0) k hkV) hx0
          exact hkX hcl
        · rw [Finset.not_nonempty_iff_eq_empty.1 hX]; simp
    · exact h.out

omit [Rounding] in
/-- Prim's main loop -/
theorem primLoop_ok (ctx : PrimCtx g allow V E w big) (hi0 : Init V big val0) : ∀ (fuel : Nat) (X : Finset Nat) (s : PState),
    PInv V E w big val0 g.numNodes X (fun _ _ => True) s → (V \ X).card < fuel →
    (primLoop g allow fuel s = .error (.oobAt .degreeList) ∧ 56 ≤ V.card) ∨
    ∃ s', primLoop g allow fuel s = .ok s' ∧ PInv V E w big val0 g.numNodes V (fun _ _ => True) s' := by
  intro fuel
  induction fuel with
  | zero => intro X s _ hf; omega
  | succ fuel ih =>
    intro X s h hf
    rw [primLoop]
    by_cases hne : s.heap.numNodes = 0
    · right
      rw [if_neg (by simpa using hne)]
      obtain ⟨bag, hr, hbag⟩ := h.bag
      obtain ⟨l, -, hl, hlen⟩ := (Fib.C11_empty_and_counter hr).2.2
      rw [hne] at hlen
      have hl0 : l = [] := List.length_eq_zero_iff.1 hlen
      subst hl0
      have hVX : V \ X = ∅ := by
        rw [Finset.eq_empty_iff_forall_notMem]
        intro i hi
        have := (hl i).2 (by rw [hbag, if_pos hi]; simp)
        simp at this
      have : X = V := Finset.Subset.antisymm h.xsub (Finset.sdiff_eq_empty_iff_subset.1 hVX)
      subst this
      exact ⟨s, rfl, h⟩
    · rw [if_pos hne]
      rcases extract_ok ctx hi0 h hne with ⟨e, h56⟩ | ⟨u, h', hu, e, h1⟩
      · left; rw [e]; exact ⟨rfl, h56⟩
      · obtain ⟨huV, huX⟩ := Finset.mem_sdiff.1 hu
        have hlt : ¬ u ≥ g.numNodes := by have := ctx.vlt u huV; omega
        obtain ⟨s2, e2, h2⟩ := relaxAll_ok ctx (Finset.mem_insert_self u X) (g.nodes u).list [] _ h1 (fun _ hv => hv)
        have h3 : PInv V E w big val0 g.numNodes (insert u X) (fun _ _ => True) s2 := by
          refine { h2 with bound := ?_ }
          intro i hi x hx hxi _
          by_cases hxu : x = u
          · subst hxu
            have hiV := (Finset.mem_sdiff.1 hi).1
            have hne : x ≠ i := by rintro rfl; exact ctx.noloop _ hxi
            exact h2.bound i hi x hx hxi (Or.inr (by simpa using ((ctx.edge x huV i hiV hne).1 hxi).1))
          · exact h2.bound i hi x hx hxi (Or.inl hxu)
        have hcard : (V \ insert u X).card < fuel := by
          have : V \ insert u X = (V \ X).erase u := by ext i; simp only [Finset.mem_sdiff, Finset.mem_insert, Finset.mem_erase]; tauto
          rw [this, Finset.card_erase_of_mem hu]
          have := Finset.card_pos.2 ⟨u, hu⟩
          omega
        simp only [e, ok_bind, if_neg hlt, e2]
        exact ih _ s2 h3 hcard
end

/-- the edges added by the final loop -/
def fatherList (g : Graph) (f : Nat → Option Nat) (n : Nat) : List Edge :=
  (List.range n).filterMap fun i => (f i).map (g.mat i)

theorem forList_addFather (c : Cfg) (g : Graph) (f : Nat → Option Nat) : ∀ (l : List Nat) (t : MST),
    forList (addFather c g f) l t = forList (addEdge c) (l.filterMap fun i => (f i).map (g.mat i)) t := by
  intro l
  induction l with
  | nil => intro t; rfl
  | cons i l ih =>
    intro t
    rw [forList]
    unfold addFather
    cases h : f i with
    | none => simp only [pure_eq_ok, ok_bind]; rw [List.filterMap_cons_none (by simp [h])]; exact ih t
    | some p =>
      rw [List.filterMap_cons_some (b := g.mat i p) (by simp [h]), forList]
      congr 1
      funext t'
      exact ih t'

omit [Rounding] in
theorem mem_fatherList {g : Graph} {f : Nat → Option Nat} {n : Nat} {e : Edge} :
    e ∈ fatherList g f n ↔ ∃ i < n, ∃ p, f i = some p ∧ e = g.mat i p := by
  simp only [fatherList, List.mem_filterMap, List.mem_range, Option.map_eq_some_iff]
  constructor
  · rintro ⟨i, hi, p, hp, rfl⟩; exact ⟨i, hi, p, hp, rfl⟩
  · rintro ⟨i, hi, p, hp, rfl⟩; exact ⟨i, hi, p, hp, rfl⟩

omit [Rounding] in
theorem fatherList_length {g : Graph} {f : Nat → Option Nat} {n : Nat} {V : Finset Nat} (hV : ∀ i ∈ V, i < n)
    (hout : ∀ i < n, i ∉ V → f i = none) : (fatherList g f n).length = (V.filter (fun i => f i ≠ none)).card := by
  have h1 : ∀ l : List Nat, (l.filterMap fun i => (f i).map (g.mat i)).length = (l.filter (fun i => (f i).isSome)).length := by
    intro l
    induction l with
    | nil => rfl
    | cons i l ih => cases h : f i <;> simp [h, ih]
  rw [fatherList, h1, ← List.toFinset_card_of_nodup (List.nodup_range.filter _)]
  congr 1
  ext i
  simp only [List.mem_toFinset, List.mem_filter, List.mem_range, Finset.mem_filter, Option.isSome_iff_ne_none]
  constructor
  · rintro ⟨hi, hf⟩
    exact ⟨by by_contra hn; exact hf (hout i hi hn), hf⟩
  · rintro ⟨hi, hf⟩; exact ⟨hV i hi, hf⟩

/-- the tree built from the fathers at the end of the loop -/
theorem fathers_tree {c : Cfg} {g : Graph} {V : Finset Nat} {E : EdgeSet} {w : Sym2 Nat → ℚ} {big : ℚ} {val0 : Nat → ℚ} {n : Nat} {s : PState}
    (hV : ∀ i ∈ V, i < n) (hn : n ≤ c.maxV) (hw : Within V E) (h : PInv V E w big val0 n V (fun _ _ => True) s)
    (hmat : ∀ i p, s(p, i) ∈ E → epair (g.mat i p) = s(p, i)) {t : MST} (ht : TreeRep c t n []) :
    ∃ t', forList (addFather c g s.fathers) (List.range n) t = .ok t' ∧ TreeRep c t' n (fatherList g s.fathers n) ∧
      SimpleList n (fatherList g s.fathers n) ∧ pairs (fatherList g s.fathers n) = fatherEdges V s.fathers ∧
      pairs (fatherList g s.fathers n) ⊆ E ∧
      (∀ e ∈ fatherList g s.fathers n, ∃ i p, s(p, i) ∈ E ∧ e = g.mat i p) := by
  set L := fatherList g s.fathers n with hL
  have hmem : ∀ e ∈ L, ∃ i ∈ V, ∃ p, s.fathers i = some p ∧ s(p, i) ∈ E ∧ e = g.mat i p := by
    intro e he
    obtain ⟨i, hi, p, hp, rfl⟩ := mem_fatherList.1 he
    have hiV : i ∈ V := by by_contra hn'; rw [h.out i hi hn'] at hp; cases hp
    exact ⟨i, hiV, p, hp, (h.fin i hiV p hp).2, rfl⟩
  have hpairs : pairs L = fatherEdges V s.fathers := by
    ext e
    rw [mem_pairs, mem_fatherEdges]
    constructor
    · rintro ⟨e', he', rfl⟩
      obtain ⟨i, hi, p, hp, hE, rfl⟩ := hmem e' he'
      exact ⟨i, hi, p, hp, hmat i p hE⟩
    · rintro ⟨i, hi, p, hp, rfl⟩
      exact ⟨g.mat i p, mem_fatherList.2 ⟨i, hV i hi, p, hp, rfl⟩, hmat i p (h.fin i hi p hp).2⟩
  have hsub : pairs L ⊆ E := by
    intro e he
    obtain ⟨e', he', rfl⟩ := mem_pairs.1 he
    obtain ⟨i, hi, p, hp, hE, rfl⟩ := hmem e' he'
    rw [hmat i p hE]; exact hE
  have hlen : L.length = (pairs L).card := by rw [hpairs, h.card]; exact fatherList_length hV h.out
  have hnd : (L.map epair).Nodup := by
    have : (L.map epair).toFinset.card = (L.map epair).length := by rw [List.length_map, hlen]; rfl
    exact Multiset.coe_nodup.1 ((Multiset.toFinset_card_eq_card_iff_nodup (m := (L.map epair : Multiset (Sym2 Nat)))).1 this)
  have hac : Acyclic (pairs L) := by rw [hpairs]; exact h.acyc
  have hsimple : SimpleList n L := by
    refine ⟨?_, ?_⟩
    · intro e he
      obtain ⟨i, hi, p, hp, hE, heq⟩ := hmem e he
      have h1 : epair e = s(p, i) := by rw [heq]; exact hmat i p hE
      have hin := hsub (mem_pairs.2 ⟨e, he, rfl⟩)
      have := hw e.src e.dest hin
      refine ⟨hV _ this.1, hV _ this.2, ?_⟩
      intro hsd
      have := hac e.src e.dest (mem_pairs.2 ⟨e, he, rfl⟩)
      rw [hsd] at this; exact this (Conn.refl' _ _)
    · have := hnd; rw [List.Nodup, List.pairwise_map] at this; exact this
  have hends : ∀ e ∈ L, e.src < n ∧ e.dest < n := fun e he => ⟨(hsimple.1 e he).1, (hsimple.1 e he).2.1⟩
  have hlenV : L.length ≤ c.maxV := by
    have hcV : V.card ≤ n := by
      have := Finset.card_le_card (show V ⊆ Finset.range n from fun i hi => Finset.mem_range.2 (hV i hi)); simpa using this
    have h1 : L.length ≤ V.card := by
      rw [hlen, hpairs, h.card]; exact Finset.card_filter_le _ _
    omega
  obtain ⟨t', e1, hrep⟩ := addAll_ok hn L ht hends (by simpa using hlenV) (by
    intro u hu
    have := nbrs_length_le hsimple hu
    simp only [List.nil_append]; omega)
  refine ⟨t', ?_, by simpa using hrep, hsimple, hpairs, hsub, ?_⟩
  · rw [forList_addFather]; exact e1
  · intro e he
    obtain ⟨i, hi, p, hp, hE, rfl⟩ := hmem e he
    exact ⟨i, p, hE, rfl⟩

omit [Rounding] in
/-- number of edges at the end: one less than nodes iff the graph is connected -/
theorem PInv.full_iff {V : Finset Nat} {E : EdgeSet} {w : Sym2 Nat → ℚ} {big : ℚ} {val0 : Nat → ℚ} {n : Nat} {s : PState}
    (hne : V.Nonempty) (hw : Within V E) (h : PInv V E w big val0 n V (fun _ _ => True) s) :
    ((fatherEdges V s.fathers).card + 1 = V.card → Connected V E) ∧
    ((∀ e ∈ E, w e < big) → Connected V E → (fatherEdges V s.fathers).card + 1 = V.card) := by
  have hsub : fatherEdges V s.fathers ⊆ E := by
    intro e he
    obtain ⟨i, hi, p, hp, rfl⟩ := mem_fatherEdges.1 he
    exact (h.fin i hi p hp).2
  constructor
  · intro hc u hu v hv
    exact (h.acyc.connected_of_card (hw.subset hsub) hc u hu v hv).mono hsub
  · intro hsm hc
    have h1 := h.roots hsm hc
    have h2 := h.acyc.card_lt (hw.subset hsub) hne
    have h3 := Finset.card_filter_add_card_filter_not (s := V) (fun i => s.fathers i = none)
    rw [h.card] at h2 ⊢
    simp only [ne_eq] at *
    omega

end Verif
