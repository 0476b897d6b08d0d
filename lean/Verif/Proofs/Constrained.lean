import Verif.Spec.Constraints
import Verif.Proofs.Swap
import Verif.Props.Prim

/-!
# constrained_prim: main lemma
-/
namespace Verif
open Verif.Spec
set_option autoImplicit false

variable [Rounding]

omit [Rounding] in
theorem forList_append {α β : Type} (f : β → α → Res β) : ∀ (l l' : List α) (b : β),
    forList f (l ++ l') b = forList f l b >>= forList f l' := by
  intro l
  induction l with
  | nil => intro l' b; rfl
  | cons a l ih =>
    intro l' b
    rw [List.cons_append, forList, forList]
    cases f b a with
    | error e => rfl
    | ok b' => simp only [ok_bind]; exact ih l' b'

omit [Rounding] in
theorem forList_snoc {α β : Type} (f : β → α → Res β) (l : List α) (a : α) (b : β) :
    forList f (l ++ [a]) b = forList f l b >>= fun b' => f b' a := by
  rw [forList_append]
  congr 1
  funext b'
  rw [forList]
  cases f b' a <;> rfl

omit [Rounding] in
theorem mem_others {g : Graph} {cand i : Nat} : i ∈ others g cand ↔ i < g.numNodes ∧ i ≠ cand := by
  simp [others, and_comm]

omit [Rounding] in
theorem mem_away {cand : Nat} {E : EdgeSet} {e : Sym2 Nat} : e ∈ away cand E ↔ e ∈ E ∧ cand ∉ e := by simp [away]

omit [Rounding] in
theorem mem_usable {g : Graph} {cand : Nat} {F : EdgeSet} {e : Sym2 Nat} :
    e ∈ usable g cand F ↔ e ∈ edgeSet g ∧ e ∉ F ∧ cand ∉ e := by simp [usable, mem_away, and_assoc]

omit [Rounding] in
theorem notMem_pair {cand u v : Nat} : cand ∉ s(u, v) ↔ u ≠ cand ∧ v ≠ cand := by
  rw [Sym2.mem_iff]
  constructor
  · intro h; exact ⟨fun h' => h (Or.inl h'.symm), fun h' => h (Or.inr h'.symm)⟩
  · rintro ⟨h1, h2⟩ (h | h)
    · exact h1 h.symm
    · exact h2 h.symm

/-- the first `k` recorded mandatory edges that do not touch the candidate -/
def listed (sp : SubProblem) (cand k : Nat) : EdgeSet :=
  away cand ((Finset.range k).image fun i => s((sp.mandatory i).1, (sp.mandatory i).2))

omit [Rounding] in
theorem mem_listed {sp : SubProblem} {cand k : Nat} {e : Sym2 Nat} :
    e ∈ listed sp cand k ↔ (∃ i < k, s((sp.mandatory i).1, (sp.mandatory i).2) = e) ∧ cand ∉ e := by
  simp [listed, mem_away]

omit [Rounding] in
/-- the loop over the mandatory edges: only weights change -/
theorem cprimMand_all {c : Cfg} {pn : Nat} {g : Graph} {sp : SubProblem} {cand : Nat} : ∀ (k : Nat), k ≤ c.maxV →
    (∀ i < k, (sp.mandatory i).1 < c.maxV ∧ (sp.mandatory i).2 < c.maxV ∧
      ((sp.mandatory i).1 ≠ cand ∧ (sp.mandatory i).2 ≠ cand → (g.mat (sp.mandatory i).1 (sp.mandatory i).2).pos < c.maxE)) →
    ∃ copy, forList (cprimMand c pn g sp cand) (List.range k) g = .ok copy ∧ copy.numNodes = g.numNodes ∧ copy.nodes = g.nodes ∧
      ∀ u v, (copy.mat u v).weight = if s(u, v) ∈ listed sp cand k then -(pn : ℚ) else (g.mat u v).weight := by
  intro k
  induction k with
  | zero => intro _ _; exact ⟨g, rfl, rfl, rfl, fun u v => by simp [mem_listed]⟩
  | succ k ih =>
    intro hk h
    obtain ⟨copy, e, h1, h2, h3⟩ := ih (by omega) (fun i hi => h i (by omega))
    obtain ⟨ha, hb, hp⟩ := h k (by omega)
    rw [List.range_succ, forList_snoc, e, ok_bind]
    unfold cprimMand
    rw [if_neg (by omega)]
    have hlist : ∀ e, e ∈ listed sp cand (k + 1) ↔ e ∈ listed sp cand k ∨ (s((sp.mandatory k).1, (sp.mandatory k).2) = e ∧ cand ∉ e) := by
      intro e
      simp only [mem_listed]
      constructor
      · rintro ⟨⟨i, hi, rfl⟩, hc⟩
        by_cases hik : i = k
        · subst hik; exact Or.inr ⟨rfl, hc⟩
        · exact Or.inl ⟨⟨i, by omega, rfl⟩, hc⟩
      · rintro (⟨⟨i, hi, rfl⟩, hc⟩ | ⟨rfl, hc⟩)
        · exact ⟨⟨i, by omega, rfl⟩, hc⟩
        · exact ⟨⟨k, by omega, rfl⟩, hc⟩
    by_cases hc : (sp.mandatory k).1 ≠ cand ∧ (sp.mandatory k).2 ≠ cand
    · simp only [if_pos hc]
      rw [if_neg (by have := hp hc; omega)]
      refine ⟨_, rfl, h1, h2, ?_⟩
      intro u v
      have hcond : s(u, v) ∈ listed sp cand (k + 1) ↔ s(u, v) ∈ listed sp cand k ∨
          ((u = (sp.mandatory k).1 ∧ v = (sp.mandatory k).2) ∨ (u = (sp.mandatory k).2 ∧ v = (sp.mandatory k).1)) := by
        rw [hlist]
        refine or_congr_right ?_
        constructor
        · rintro ⟨h', -⟩
          rw [Sym2.eq_iff] at h'
          rcases h' with ⟨h1, h2⟩ | ⟨h1, h2⟩
          · exact Or.inl ⟨h1.symm, h2.symm⟩
          · exact Or.inr ⟨h2.symm, h1.symm⟩
        · intro h'
          have : s((sp.mandatory k).1, (sp.mandatory k).2) = s(u, v) := by
            rw [Sym2.eq_iff]
            rcases h' with ⟨h1, h2⟩ | ⟨h1, h2⟩
            · exact Or.inl ⟨h1.symm, h2.symm⟩
            · exact Or.inr ⟨h2.symm, h1.symm⟩
          exact ⟨this, by rw [← this, notMem_pair]; exact hc⟩
      simp only [upd2_apply]
      rw [if_congr hcond rfl rfl]
      have := h3 u v
      by_cases q1 : u = (sp.mandatory k).2 ∧ v = (sp.mandatory k).1
      · rw [if_pos q1, if_pos (Or.inr (Or.inr q1))]
      · rw [if_neg q1]
        by_cases q2 : u = (sp.mandatory k).1 ∧ v = (sp.mandatory k).2
        · rw [if_pos q2, if_pos (Or.inr (Or.inl q2))]
        · rw [if_neg q2, this]
          refine if_congr ?_ rfl rfl
          constructor
          · exact Or.inl
          · rintro (h | h | h)
            · exact h
            · exact absurd h q2
            · exact absurd h q1
    · rw [if_neg hc]
      refine ⟨copy, rfl, h1, h2, ?_⟩
      intro u v
      rw [h3]
      refine if_congr ?_ rfl rfl
      rw [hlist]
      constructor
      · exact Or.inl
      · rintro (h | ⟨h, h'⟩)
        · exact h
        · rw [← h, notMem_pair] at h'; exact absurd h' hc

omit [Rounding] in
theorem cprimInit_all : ∀ (k : Nat) (s0 : PState), ∃ s1, forList cprimInit (List.range k) s0 = .ok s1 ∧ s1.heap = s0.heap ∧
    ∀ i < k, s1.inHeap i = false ∧ s1.fathers i = none := by
  intro k s0
  induction k with
  | zero => exact ⟨s0, rfl, rfl, by intro i hi; omega⟩
  | succ k ih =>
    obtain ⟨s1, e, h1, h2⟩ := ih
    rw [List.range_succ, forList_snoc, e, ok_bind]
    refine ⟨_, rfl, h1, ?_⟩
    intro i hi
    by_cases hik : i = k
    · subst hik; simp [upd_self]
    · simp only [upd_apply, if_neg hik]; exact h2 i (by omega)

omit [Rounding] in
theorem cprimInsert_all (cand : Nat) : ∀ (k : Nat) (s0 : PState), s0.heap = Fib.createHeap s0.heap →
    (∀ i < k, s0.inHeap i = false ∧ s0.fathers i = none) → ∀ h0, s0.heap = Fib.createHeap h0 →
    ∃ s1 bag, forList (cprimInsert cand) (List.range k) s0 = .ok s1 ∧
    Fib.Reach s1.heap bag ∧ (∀ i, bag i = if i < k ∧ i ≠ cand then some (i, cprimValue i) else none) ∧
    (∀ i < k, s1.inHeap i = decide (i ≠ cand)) ∧ s1.fathers = s0.fathers ∧ (∀ i, k ≤ i → s1.inHeap i = s0.inHeap i) := by
  intro k s0 _ hs h0 hh0
  induction k with
  | zero => exact ⟨s0, _, rfl, by rw [hh0]; exact Fib.Reach.create _, by simp, by intro i hi; omega, rfl, fun _ _ => rfl⟩
  | succ k ih =>
    obtain ⟨s1, bag, e1, hr, hb, hin, hf, hout⟩ := ih (fun i hi => hs i (by omega))
    rw [List.range_succ, forList_snoc, e1, ok_bind]
    unfold cprimInsert
    by_cases hk : k = cand
    · rw [if_neg (by simpa using hk)]
      refine ⟨s1, bag, rfl, hr, ?_, ?_, hf, fun i hi => hout i (by omega)⟩
      · intro i
        rw [hb]
        refine if_congr ?_ rfl rfl
        constructor
        · rintro ⟨a, b⟩; exact ⟨by omega, b⟩
        · rintro ⟨a, b⟩; exact ⟨by omega, b⟩
      · intro i hi
        by_cases hik : i = k
        · rw [hik, hout k (le_refl _), (hs k (by omega)).1]; simp [hk]
        · exact hin i (by omega)
    · rw [if_pos hk]
      obtain ⟨h', e2, hr'⟩ := Fib.C10_insert_succeeds hr (x := k) (k := k) (cprimValue k) (by rw [hb, if_neg (by omega)]) (by
        intro y k' w hy
        rw [hb] at hy
        split at hy
        · simp at hy; omega
        · cases hy)
      rw [e2, ok_bind]
      refine ⟨_, _, rfl, hr', ?_, ?_, hf, ?_⟩
      · intro i
        rw [upd_apply, hb]
        by_cases hik : i = k
        · subst hik; simp [hk]
        · rw [if_neg hik]
          refine if_congr ?_ rfl rfl
          constructor
          · rintro ⟨a, b⟩; exact ⟨by omega, b⟩
          · rintro ⟨a, b⟩; exact ⟨by omega, b⟩
      · intro i hi
        simp only [upd_apply]
        by_cases hik : i = k
        · simp [hik, hk]
        · rw [if_neg hik]; exact hin i (by omega)
      · intro i hi
        simp only [upd_apply]
        rw [if_neg (by omega)]; exact hout i (by omega)

omit [Rounding] in
theorem init_cprim (V : Finset Nat) : Init V FLT_MAX cprimValue where
  le := by
    intro i _; unfold cprimValue; split
    · decide +kernel
    · exact le_refl _
  one := by
    intro i _ j _ hi hj
    unfold cprimValue at hi hj
    split at hi
    · split at hj
      · omega
      · exact absurd hj (lt_irrefl _)
    · exact absurd hi (lt_irrefl _)

theorem addEdge_nodepos {c : Cfg} {a b : MST} {e : Edge} (h1 : addEdge c a e = .ok b) (i : Nat) : (b.nodes i).pos = (a.nodes i).pos := by
  unfold addEdge at h1
  simp only at h1
  have key : ∀ (f : Nat → Node) u v, ((upd f u ((f u).push v)) i).pos = (f i).pos := by
    intro f u v
    rw [upd_apply]; split
    · next h => subst h; rfl
    · rfl
  split at h1
  · cases h1
  · split at h1
    · cases h1
    · split at h1
      · cases h1
      · simp only [Except.ok.injEq] at h1
        rw [← h1]
        split
        · split
          · exact (key _ _ _).trans (key _ _ _)
          · exact (key _ _ _).trans (key _ _ _)
        · exact (key _ _ _).trans (key _ _ _)

theorem addAll_nodepos {c : Cfg} : ∀ (l : List Edge) {a b : MST}, forList (addEdge c) l a = .ok b → ∀ i, (b.nodes i).pos = (a.nodes i).pos := by
  intro l
  induction l with
  | nil => intro a b h i; simp [forList] at h; rw [h]
  | cons e l ih =>
    intro a b h i
    rw [forList, bind_eq_ok] at h
    obtain ⟨a', h1, h2⟩ := h
    rw [ih h2, addEdge_nodepos h1]

/-- what `constrained_prim` and `constrained_kruskal` need of the graph and the subproblem -/
structure CReady (c : Cfg) (g : Graph) (sp : SubProblem) (cand : Nat) (M F : EdgeSet) : Prop where
  stored : Stored g
  positions : Positions g
  nodes : g.numNodes ≤ c.maxV
  edges : g.numEdges ≤ c.maxE
  two : 2 ≤ g.numNodes
  cand : cand < g.numNodes
  desc : Describes g.numNodes sp M F
  room : sp.numMandatory ≤ c.maxV
  real : ∀ k < sp.numMandatory, s((sp.mandatory k).1, (sp.mandatory k).2) ∈ edgeSet g

omit [Rounding] in
theorem Spec.Describes.notForbidden {n : Nat} {sp : SubProblem} {M F : EdgeSet} (h : Describes n sp M F) {u v : Nat} (hu : u < n) (hv : v < n) (hne : u ≠ v) :
    sp.notForbidden u v = true ↔ s(u, v) ∉ F := by
  rw [h.forb u hu v hv hne]
  unfold SubProblem.notForbidden
  simp only [Bool.or_eq_true, decide_eq_true_eq, not_and_or, gt_iff_lt, not_lt, Nat.le_zero]

omit [Rounding] in
theorem usable_within {g : Graph} (h : Stored g) (cand : Nat) (F : EdgeSet) : Within (others g cand) (usable g cand F) := by
  intro u v huv
  rw [mem_usable, notMem_pair] at huv
  have := h.within u v huv.1
  simp only [Finset.mem_range] at this
  exact ⟨mem_others.2 ⟨this.1, huv.2.2.1⟩, mem_others.2 ⟨this.2, huv.2.2.2⟩⟩

omit [Rounding] in
theorem card_others {g : Graph} {cand : Nat} (h : cand < g.numNodes) : (others g cand).card + 1 = g.numNodes := by
  unfold others
  rw [Finset.card_erase_of_mem (Finset.mem_range.2 h), Finset.card_range]; omega

/-- the weights `constrained_prim` works with -/
def cweight (pn : Nat) (g : Graph) (sp : SubProblem) (cand : Nat) : Sym2 Nat → ℚ :=
  forced (weight g) (listed sp cand sp.numMandatory) (-(pn : ℚ))

theorem constrainedPrim_main {c : Cfg} {pn : Nat} {g : Graph} {sp : SubProblem} {cand : Nat} {M F : EdgeSet}
    (h : CReady c g sp cand M F) (loc : PState) :
    (constrainedPrim c pn g sp cand loc = .error (.oobAt .degreeList) ∧ 57 ≤ g.numNodes) ∨
    ∃ t L, constrainedPrim c pn g sp cand loc = .ok { sp with oneTree := t } ∧ TreeRep c t g.numNodes L ∧ SimpleList g.numNodes L ∧
      Acyclic (pairs L) ∧ pairs L ⊆ usable g cand F ∧ (∀ e ∈ L, weight g (epair e) = e.weight) ∧
      (∀ e ∈ L, ∃ u v, s(u, v) ∈ edgeSet g ∧ e = g.mat u v) ∧
      Promising (cweight pn g sp cand) (others g cand) (usable g cand F) (pairs L) ∧
      (t.isValid = true ↔ L.length + 2 = g.numNodes) ∧
      ((∀ e ∈ usable g cand F, weight g e < FLT_MAX) → (t.isValid = true ↔ Connected (others g cand) (usable g cand F))) ∧ (∀ i < g.numNodes, (t.nodes i).pos = (g.nodes i).pos) := by
  have hst := h.stored
  -- the copy of the graph
  obtain ⟨copy, ec, cn, cnodes, cw⟩ := cprimMand_all (c := c) (pn := pn) (g := g) (sp := sp) (cand := cand) sp.numMandatory h.room (by
    intro i hi
    obtain ⟨h1, h2, h3, -⟩ := h.desc.list i hi
    refine ⟨by have := h.nodes; omega, by have := h.nodes; omega, fun _ => ?_⟩
    obtain ⟨j, hj, hjo⟩ := mem_edgeSet_adj.1 (h.real i hi)
    have hp := h.positions j hj
    have : (g.mat (sp.mandatory i).1 (sp.mandatory i).2).pos = j := by
      rcases hjo with ⟨q1, q2⟩ | ⟨q1, q2⟩
      · rw [← q1, ← q2]; exact hp.2.1
      · rw [← q1, ← q2]; exact hp.2.2
    rw [this]; have := h.edges; omega)
  -- the heap
  obtain ⟨s1, e1, hh1, hf1⟩ := cprimInit_all g.numNodes { loc with heap := Fib.createHeap loc.heap }
  obtain ⟨s2, bag, e2, hr, hb, hin, hf2, -⟩ := cprimInsert_all cand g.numNodes s1 (by rw [hh1]; rfl) hf1 loc.heap hh1
  have hne : (others g cand).Nonempty := by
    rw [← Finset.card_pos]; have := card_others h.cand; have := h.two; omega
  have ctx : PrimCtx copy sp.notForbidden (others g cand) (usable g cand F) (cweight pn g sp cand) FLT_MAX := by
    constructor
    · intro i hi; rw [cn]; exact (mem_others.1 hi).1
    · intro u hu v hv
      rw [cnodes] at hv
      have := (hst.nbr u (mem_others.1 hu).1 v).1 hv
      rw [cn]
      exact Finset.mem_range.1 (hst.within u v (mem_edgeSet_adj.2 this)).2
    · exact usable_within hst cand F
    · intro u hu v hv huv
      obtain ⟨hu1, hu2⟩ := mem_others.1 hu
      obtain ⟨hv1, hv2⟩ := mem_others.1 hv
      rw [cnodes, hst.nbr u hu1 v, mem_usable, mem_edgeSet_adj, h.desc.notForbidden hu1 hv1 huv, notMem_pair]
      tauto
    · intro u hu
      exact hst.noloop u (mem_usable.1 hu).1
    · intro u v huv
      have := (hst.mat_weight (mem_usable.1 huv).1).1
      rw [cw, this]; rfl
  have hvals : ∀ i ∈ others g cand, s2.heap.value i = cprimValue i := by
    intro i hi
    exact (Fib.C10_contents hr (x := i) (k := i) (by rw [hb, if_pos (mem_others.1 hi)])).2
  have hfat : ∀ i < g.numNodes, s2.fathers i = none := by intro i hi; rw [hf2]; exact (hf1 i hi).2
  have hfe : fatherEdges ∅ s2.fathers = ∅ := by simp [fatherEdges]
  have hinv : PInv (others g cand) (usable g cand F) (cweight pn g sp cand) FLT_MAX cprimValue copy.numNodes ∅ (fun _ _ => True) s2 := by
    constructor
    · simp
    · refine ⟨bag, hr, ?_⟩
      intro i
      rw [hb, Finset.sdiff_empty]
      by_cases hi : i < g.numNodes ∧ i ≠ cand
      · rw [if_pos hi, if_pos (mem_others.2 hi), hvals i (mem_others.2 hi)]
      · rw [if_neg hi, if_neg (fun h' => hi (mem_others.1 h'))]
    · intro i hi
      rw [cn] at hi
      rw [hin i hi, Finset.sdiff_empty, mem_others]; simp [hi]
    · intro _ i hi; exact ⟨hfat i (mem_others.1 hi).1, hvals i hi⟩
    · intro hX; simp at hX
    · intro i hi p hp
      rw [Finset.sdiff_empty] at hi
      rw [hfat i (mem_others.1 hi).1] at hp; cases hp
    · intro i _ x hx; simp at hx
    · intro i hi; simp at hi
    · rw [hfe]; exact acyclic_empty
    · rw [hfe]; exact promising_empty _ _ _
    · rw [hfe]; simp
    · intro _ _; simp
    · intro i hi _; rw [cn] at hi; exact hfat i hi
  unfold constrainedPrim
  simp only [e1, ok_bind, ec, cn, e2]
  have hcardV : (others g cand).card + 1 = g.numNodes := card_others h.cand
  have hloop := primLoop_ok ctx (init_cprim _) (g.numNodes + 1) ∅ s2 hinv (by rw [Finset.sdiff_empty]; omega)
  rcases hloop with ⟨e3, h56⟩ | ⟨s3, e3, h3⟩
  · left; rw [e3]; exact ⟨rfl, by omega⟩
  right
  rw [cn] at h3
  obtain ⟨t1, e4, rep, hsim, hpairs, hsub, hmem⟩ := fathers_tree (c := c) (g := g) (fun i hi => (mem_others.1 hi).1) h.nodes
    (usable_within hst cand F) h3
    (fun i p hE => by
      have hE := (mem_usable.1 hE).1
      rw [Sym2.eq_swap] at hE
      rw [(hst.mat_weight hE).2, Sym2.eq_swap]) (treeRep_create c sp.oneTree g.nodes g.numNodes)
  have hfull : (∀ e ∈ usable g cand F, weight g e < FLT_MAX) → (_ ↔ Connected (others g cand) (usable g cand F)) := fun hsmall =>
    ⟨(h3.full_iff hne (usable_within hst cand F)).1, (h3.full_iff hne (usable_within hst cand F)).2 (by
      intro e he
      unfold cweight forced
      split
      · have : (0:ℚ) ≤ pn := Nat.cast_nonneg pn
        have h2 : (0:ℚ) < FLT_MAX := by decide +kernel
        linarith
      · exact hsmall e he)⟩
  rw [← hpairs, SimpleList.card hsim] at hfull
  simp only [e3, ok_bind, e4]
  have hw : ∀ e ∈ fatherList g s3.fathers g.numNodes, weight g (epair e) = e.weight := by
    intro e he
    obtain ⟨i, p, hE, rfl⟩ := hmem e he
    have hE := (mem_usable.1 hE).1
    rw [Sym2.eq_swap] at hE
    rw [(hst.mat_weight hE).2, (hst.mat_weight hE).1]
  have hreal : ∀ e ∈ fatherList g s3.fathers g.numNodes, ∃ u v, s(u, v) ∈ edgeSet g ∧ e = g.mat u v := by
    intro e he
    obtain ⟨i, p, hE, rfl⟩ := hmem e he
    exact ⟨i, p, by rw [Sym2.eq_swap]; exact (mem_usable.1 hE).1, rfl⟩
  have hac : Acyclic (pairs (fatherList g s3.fathers g.numNodes)) := by rw [hpairs]; exact h3.acyc
  have hpr : Promising (cweight pn g sp cand) (others g cand) (usable g cand F) (pairs (fatherList g s3.fathers g.numNodes)) := by
    rw [hpairs]; exact h3.prom
  have hnum := rep.num
  have hnp : ∀ i < g.numNodes, (t1.nodes i).pos = (g.nodes i).pos := by
    intro i hi
    rw [forList_addFather] at e4
    rw [addAll_nodepos _ e4]
    simp [createMst, hi]
  by_cases hv : (t1.numEdges : Int) = (g.numNodes : Int) - 2
  · rw [if_pos hv]
    have hL : (fatherList g s3.fathers g.numNodes).length + 2 = g.numNodes := by omega
    exact ⟨_, _, rfl, rep.setValid true, hsim, hac, hsub, hw, hreal, hpr, by simp [hL], fun hsm => by rw [← hfull hsm]; simp; omega, hnp⟩
  · rw [if_neg hv]
    have hL : ¬ (fatherList g s3.fathers g.numNodes).length + 2 = g.numNodes := by omega
    exact ⟨_, _, rfl, rep.setValid false, hsim, hac, hsub, hw, hreal, hpr, by simp [hL], fun hsm => by rw [← hfull hsm]; simp; omega, hnp⟩

omit [Rounding] in
theorem Spec.Describes.disjoint {n : Nat} {sp : SubProblem} {M F : EdgeSet} (h : Describes n sp M F) {e : Sym2 Nat} (hM : e ∈ M) : e ∉ F := by
  induction e using Sym2.ind with
  | _ u v =>
    intro hF
    obtain ⟨hu, hv, hne⟩ := h.within u v (Finset.mem_union_left _ hM)
    have h1 := ((h.mand u hu v hv hne).1 hM).2
    have h2 := ((h.forb u hu v hv hne).1 hF).2
    rw [h1] at h2; cases h2

omit [Rounding] in
theorem CReady.mand_sub {c : Cfg} {g : Graph} {sp : SubProblem} {cand : Nat} {M F : EdgeSet} (h : CReady c g sp cand M F) : M ⊆ edgeSet g := by
  intro e he
  obtain ⟨k, hk, rfl⟩ := h.desc.recorded e he
  exact h.real k hk

omit [Rounding] in
theorem CReady.mand_usable {c : Cfg} {g : Graph} {sp : SubProblem} {cand : Nat} {M F : EdgeSet} (h : CReady c g sp cand M F) :
    away cand M ⊆ usable g cand F := by
  intro e he
  rw [mem_away] at he
  exact mem_usable.2 ⟨h.mand_sub he.1, h.desc.disjoint he.1, he.2⟩

omit [Rounding] in
theorem CReady.cweight_eq {c : Cfg} {g : Graph} {sp : SubProblem} {cand : Nat} {M F : EdgeSet} (h : CReady c g sp cand M F) (pn : Nat)
    {e : Sym2 Nat} (he : e ∈ usable g cand F) : cweight pn g sp cand e = forced (weight g) (away cand M) (-(pn : ℚ)) e := by
  unfold cweight forced
  refine if_congr ?_ rfl rfl
  rw [mem_listed, mem_away]
  refine and_congr_left fun _ => ?_
  constructor
  · rintro ⟨k, hk, rfl⟩
    rcases Finset.mem_union.1 (h.desc.list k hk).2.2.2 with hm | hf
    · exact hm
    · exact absurd hf (mem_usable.1 he).2.1
  · intro hm; exact h.desc.recorded e hm

omit [Rounding] in
theorem total_congr {w w' : Sym2 Nat → ℚ} {S : EdgeSet} (h : ∀ e ∈ S, w e = w' e) : total w S = total w' S := Finset.sum_congr rfl h

omit [Rounding] in
theorem Promising.congr {w w' : Sym2 Nat → ℚ} {V : Finset Nat} {E F : EdgeSet} (h : ∀ e ∈ E, w e = w' e) (hp : Promising w V E F) :
    Promising w' V E F := by
  intro S hS
  obtain ⟨S', h1, h2, h3⟩ := hp S hS
  refine ⟨S', h1, h2, ?_⟩
  rw [← total_congr (fun e he => h e (h1.sub he)), ← total_congr (fun e he => h e (hS.sub he))]
  exact h3

end Verif
