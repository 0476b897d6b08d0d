import Verif.Proofs.Prim
import Verif.Props.Kruskal

/-!
# Properties C20–C22: Prim's algorithm
-/
namespace Verif
open Verif.Spec
set_option autoImplicit false

variable [Rounding]

omit [Rounding] in
theorem Spec.Stored.mat_weight {g : Graph} (h : Stored g) {u v : Nat} (huv : s(u, v) ∈ edgeSet g) :
    (g.mat u v).weight = weight g s(u, v) ∧ epair (g.mat u v) = s(u, v) := by
  obtain ⟨i, hi, hj⟩ := mem_edgeSet_adj.1 huv
  have h1 := h.mat i hi u v hj
  simp only [content, Prod.mk.injEq] at h1
  refine ⟨?_, ?_⟩
  · rw [h1.2.2.2.1, ← joins_iff.1 hj]; exact (h.weight_eq hi).symm
  · unfold epair; rw [h1.1, h1.2.1]; exact joins_iff.1 hj

omit [Rounding] in
theorem Spec.Stored.noloop {g : Graph} (h : Stored g) (u : Nat) : s(u, u) ∉ edgeSet g := by
  intro hu
  obtain ⟨i, hi, hj⟩ := mem_edgeSet_adj.1 hu
  have := (h.ends i hi).2.2
  rcases hj with ⟨h1, h2⟩ | ⟨h1, h2⟩ <;> exact this (h1.trans h2.symm)

omit [Rounding] in
theorem Spec.Stored.primCtx {g : Graph} (h : Stored g) :
    PrimCtx g (fun _ _ => true) (Finset.range g.numNodes) (edgeSet g) (weight g) DBL_MAX where
  vlt := fun i hi => Finset.mem_range.1 hi
  nlt := by
    intro u hu v hv
    have := (h.nbr u (Finset.mem_range.1 hu) v).1 hv
    exact Finset.mem_range.1 (h.within u v (mem_edgeSet_adj.2 this)).2
  within := h.within
  edge := by
    intro u hu v _ _
    rw [mem_edgeSet_adj, h.nbr u (Finset.mem_range.1 hu) v]; simp
  noloop := h.noloop
  wt := fun u v huv => (h.mat_weight huv).1

/-- value with which `prim` inserts node `i` -/
def primVal (i : Nat) : ℚ := if i = 0 then 0 else DBL_MAX

omit [Rounding] in
theorem primInsert_all : ∀ (k : Nat) (s0 : PState), ∃ s1 bag, forList primInsert (List.range k) ({ s0 with heap := Fib.createHeap s0.heap }, true) = .ok (s1, decide (k = 0)) ∧
    Fib.Reach s1.heap bag ∧ (∀ i, bag i = if i < k then some (i, primVal i) else none) ∧ (∀ i < k, s1.inHeap i = true ∧ s1.fathers i = none) := by
  intro k s0
  induction k with
  | zero => exact ⟨_, _, rfl, Fib.Reach.create _, by simp, by intro i hi; omega⟩
  | succ k ih =>
    obtain ⟨s1, bag, e1, hr, hb, hf⟩ := ih
    obtain ⟨h', e2, hr'⟩ := Fib.C10_insert_succeeds hr (x := k) (k := k) (if decide (k = 0) then 0 else DBL_MAX) (by rw [hb, if_neg (by omega)]) (by
      intro y k' w hy
      rw [hb] at hy
      split at hy
      · simp at hy; omega
      · cases hy)
    refine ⟨{ s1 with heap := h', inHeap := upd s1.inHeap k true, fathers := upd s1.fathers k none }, _, ?_, hr', ?_, ?_⟩
    · rw [List.range_succ]
      have app : ∀ (l : List Nat) (a b : PState × Bool) (x : Nat), forList primInsert l a = .ok b → forList primInsert (l ++ [x]) a = primInsert b x := by
        intro l
        induction l with
        | nil => intro a b x h; simp [forList] at h; subst h; simp [forList]; cases primInsert a x <;> rfl
        | cons y l ih =>
          intro a b x h
          rw [forList, bind_eq_ok] at h
          obtain ⟨a', h1, h2⟩ := h
          rw [List.cons_append, forList, h1, ok_bind]; exact ih a' b x h2
      rw [app _ _ _ _ e1]
      unfold primInsert
      simp only [e2, ok_bind, pure_eq_ok]
      simp
    · intro i
      rw [upd_apply, hb]
      by_cases hik : i = k
      · subst hik; simp [primVal]
      · rw [if_neg hik]
        by_cases hlt : i < k
        · rw [if_pos hlt, if_pos (by omega)]
        · rw [if_neg hlt, if_neg (by omega)]
    · intro i hi
      simp only [upd_apply]
      by_cases hik : i = k
      · simp [hik]
      · simp only [hik, ↓reduceIte]; exact hf i (by omega)

omit [Rounding] in
theorem init_prim (n : Nat) : Init (Finset.range n) DBL_MAX primVal where
  le := by
    intro i _; unfold primVal; split
    · decide +kernel
    · exact le_refl _
  one := by
    intro i _ j _ hi hj
    unfold primVal at hi hj
    split at hi
    · split at hj
      · omega
      · exact absurd hj (lt_irrefl _)
    · exact absurd hi (lt_irrefl _)

theorem prim_main {c : Cfg} {g : Graph} (hst : Stored g) (hn : g.numNodes ≤ c.maxV) (h1 : 1 ≤ g.numNodes)
    (hsmall : ∀ e ∈ edgeSet g, weight g e < DBL_MAX) (mem : MST) (loc : PState) :
    (prim c g mem loc = .error (.oobAt .degreeList) ∧ 56 ≤ g.numNodes) ∨
    ∃ t L, prim c g mem loc = .ok t ∧ TreeRep c t g.numNodes L ∧ SimpleList g.numNodes L ∧ Acyclic (pairs L) ∧ pairs L ⊆ edgeSet g ∧
      (∀ e ∈ L, weight g (epair e) = e.weight) ∧ Promising (weight g) (Finset.range g.numNodes) (edgeSet g) (pairs L) ∧
      (t.isValid = true ↔ L.length + 1 = g.numNodes) ∧
      (t.isValid = true ↔ Connected (Finset.range g.numNodes) (edgeSet g)) := by
  obtain ⟨s1, bag, e1, hr, hb, hf⟩ := primInsert_all g.numNodes loc
  have ctx := hst.primCtx
  have hne : (Finset.range g.numNodes).Nonempty := ⟨0, Finset.mem_range.2 (by omega)⟩
  have hinv : PInv (Finset.range g.numNodes) (edgeSet g) (weight g) DBL_MAX primVal g.numNodes ∅ (fun _ _ => True) s1 := by
    have hval : ∀ i < g.numNodes, s1.heap.value i = primVal i := fun i hi => (Fib.C10_contents hr (x := i) (k := i) (by rw [hb, if_pos hi])).2
    have hfe : fatherEdges ∅ s1.fathers = ∅ := by simp [fatherEdges]
    constructor
    · simp
    · refine ⟨bag, hr, fun i => ?_⟩
      rw [hb]
      by_cases hi : i < g.numNodes
      · rw [if_pos hi, if_pos (by simpa using hi), hval i hi]
      · rw [if_neg hi, if_neg (by simpa using hi)]
    · intro i hi; simp [hi, (hf i hi).1]
    · intro _ i hi
      have hi' := Finset.mem_range.1 hi
      exact ⟨(hf i hi').2, hval i hi'⟩
    · intro h; simp at h
    · intro i hi p hp
      rw [(hf i (by simpa using hi)).2] at hp; cases hp
    · intro i _ x hx; simp at hx
    · intro i hi; simp at hi
    · rw [hfe]; exact acyclic_empty
    · rw [hfe]; exact promising_empty _ _ _
    · rw [hfe]; simp
    · intro _; simp
    · intro i hi hni; exact absurd (Finset.mem_range.2 hi) hni
  unfold prim
  simp only [e1, ok_bind]
  rcases primLoop_ok ctx (init_prim g.numNodes) (g.numNodes + 1) ∅ s1 hinv (by simp) with ⟨e2, h56⟩ | ⟨s2, e2, h2⟩
  · left; rw [e2]; exact ⟨rfl, by simpa using h56⟩
  right
  obtain ⟨t1, e3, rep, hsim, hpairs, hsub, hmem⟩ := fathers_tree (c := c) (g := g) ctx.vlt hn ctx.within h2
    (fun i p hE => by
      rw [Sym2.eq_swap] at hE
      rw [(hst.mat_weight hE).2, Sym2.eq_swap]) (treeRep_create c mem g.nodes g.numNodes)
  have hfull : _ ↔ Connected _ _ := ⟨(h2.full_iff hne ctx.within).1, (h2.full_iff hne ctx.within).2 hsmall⟩
  rw [← hpairs, SimpleList.card hsim, Finset.card_range] at hfull
  simp only [e2, ok_bind, e3]
  have hw : ∀ e ∈ fatherList g s2.fathers g.numNodes, weight g (epair e) = e.weight := by
    intro e he
    obtain ⟨i, p, hE, rfl⟩ := hmem e he
    rw [Sym2.eq_swap] at hE
    rw [(hst.mat_weight hE).2, (hst.mat_weight hE).1]
  have hac : Acyclic (pairs (fatherList g s2.fathers g.numNodes)) := by rw [hpairs]; exact h2.acyc
  have hpr : Promising (weight g) (Finset.range g.numNodes) (edgeSet g) (pairs (fatherList g s2.fathers g.numNodes)) := by
    rw [hpairs]; exact h2.prom
  have hnum := rep.num
  by_cases hv : (t1.numEdges : Int) = (g.numNodes : Int) - 1
  · rw [if_pos hv]
    have hL : (fatherList g s2.fathers g.numNodes).length + 1 = g.numNodes := by omega
    exact ⟨_, _, rfl, rep.setValid true, hsim, hac, hsub, hw, hpr, by simp [hL], by simp [← hfull, hL]⟩
  · rw [if_neg hv]
    have hL : ¬ (fatherList g s2.fathers g.numNodes).length + 1 = g.numNodes := by omega
    exact ⟨_, _, rfl, rep.setValid false, hsim, hac, hsub, hw, hpr, by simp [hL], by simp [← hfull, hL]⟩

/-- C20. `prim` on a stored simple graph with weights below `DBL_MAX`: the tree's edges are distinct graph edges without a
cycle, the tree is flagged valid iff the graph is connected, and then it is a spanning tree. The only other outcome is the
heap's degree table overflow (C13), which needs at least 56 nodes. -/
theorem C20_spanning {c : Cfg} {g : Graph} (hst : Stored g) (hn : g.numNodes ≤ c.maxV) (h1 : 1 ≤ g.numNodes)
    (hsmall : ∀ e ∈ edgeSet g, weight g e < DBL_MAX) (mem : MST) (loc : PState) :
    (prim c g mem loc = .error (.oobAt .degreeList) ∧ 56 ≤ g.numNodes) ∨
    ∃ t, prim c g mem loc = .ok t ∧ treeEdges t ⊆ edgeSet g ∧ (treeEdges t).card = t.numEdges ∧ Acyclic (treeEdges t) ∧
      (t.isValid = true ↔ Connected (Finset.range g.numNodes) (edgeSet g)) ∧
      (t.isValid = true → SpanningTree (Finset.range g.numNodes) (edgeSet g) (treeEdges t)) := by
  rcases prim_main hst hn h1 hsmall mem loc with h | ⟨t, L, e, rep, hs, hac, hsub, -, -, hv, hc⟩
  · exact Or.inl h
  · right
    have hte := rep.treeEdges
    refine ⟨t, e, by rw [hte]; exact hsub, by rw [hte, SimpleList.card hs, rep.num], by rw [hte]; exact hac, hc, ?_⟩
    intro htrue
    rw [hte]
    exact ⟨hsub, hac.connected_of_card (hst.within.subset hsub) (by rw [SimpleList.card hs, Finset.card_range]; exact hv.1 htrue), hac⟩

/-- C21. When `prim`'s result is valid its cost is the weight of its edges as the machine adds them up, and no spanning tree has a smaller total weight. -/
theorem C21_minimum {c : Cfg} {g : Graph} (hst : Stored g) (hn : g.numNodes ≤ c.maxV) (h1 : 1 ≤ g.numNodes)
    (hsmall : ∀ e ∈ edgeSet g, weight g e < DBL_MAX) {mem t : MST} {loc : PState} (e : prim c g mem loc = .ok t)
    (hv : t.isValid = true) : AddsUp (weight g) (treeEdges t) t.cost ∧
      ∀ T, SpanningTree (Finset.range g.numNodes) (edgeSet g) T → total (weight g) (treeEdges t) ≤ total (weight g) T := by
  rcases prim_main hst hn h1 hsmall mem loc with ⟨h, _⟩ | ⟨t1, L, e1, rep, hs, hac, hsub, hw, hp, hv1, -⟩
  · rw [h] at e; cases e
  rw [e] at e1; cases e1
  have hne : (Finset.range g.numNodes).Nonempty := ⟨0, Finset.mem_range.2 (by omega)⟩
  rw [rep.treeEdges]
  refine ⟨rep.addsUp hs hw, fun T hT => ?_⟩
  exact hp.minimum (by rw [SimpleList.card hs, Finset.card_range]; exact hv1.1 hv) (hT.span hst.within hne)

/-- C22. `prim` and `kruskal` agree: same validity flag, and when valid the same total weight; without rounding, the same cost. -/
theorem C22_agree {c : Cfg} {cap : Nat} {g g' : Graph} (h : KruskalReady c cap g) (hsmall : ∀ e ∈ edgeSet g, weight g e < DBL_MAX)
    {mem mem' t t' : MST} {loc : PState} (e : prim c g mem loc = .ok t) (e' : kruskal c cap g mem' = .ok (g', t')) :
    t.isValid = t'.isValid ∧ (t.isValid = true → total (weight g) (treeEdges t) = total (weight g) (treeEdges t') ∧ (Exact → t.cost = t'.cost)) := by
  have h1 : 1 ≤ g.numNodes := by have := (h.stored.ends 0 h.someEdge).1; omega
  have hP : ∃ t, prim c g mem loc = .ok t ∧ _ := (C20_spanning h.stored h.nodes h1 hsmall mem loc).resolve_left (by rintro ⟨h', _⟩; rw [h'] at e; cases e)
  obtain ⟨t1, e1, -, -, -, hv1, hs1⟩ := hP
  rw [e] at e1; cases e1
  obtain ⟨g2, t2, e2, -, -, -, -, hv2, hs2, -⟩ := C18_spanning h mem'
  rw [e'] at e2; cases e2
  have hiff : t.isValid = true ↔ t'.isValid = true := hv1.trans hv2.symm
  refine ⟨Bool.eq_iff_iff.2 hiff, fun hv => ?_⟩
  obtain ⟨c1, m1⟩ := C21_minimum h.stored h.nodes h1 hsmall e hv
  obtain ⟨c2, m2⟩ := C19_minimum h mem' e' (hiff.1 hv)
  have heq := le_antisymm (m1 _ (hs2 (hiff.1 hv))) (m2 _ (hs1 hv))
  exact ⟨heq, fun hx => by rw [c1.exact hx, c2.exact hx, heq]⟩

/-! ### Non-vacuity: the complete graph on three nodes -/

example (mem : Graph) (c : Cfg) (hc : c.maxV = 4) :
    ∃ g, createEuclideanGraph c (fun a b => a.pos + b.pos) mem threeNodes = .ok g ∧ Stored g ∧ g.numNodes ≤ c.maxV ∧ 1 ≤ g.numNodes ∧
      (∀ e ∈ edgeSet g, weight g e < DBL_MAX) ∧ KruskalReady c 6 g := by
  obtain ⟨g, e, st, ps, ho, hn, hm, hadj, hw, -⟩ := C52_complete (c := c) (mem := mem) (dist := fun a b => a.pos + b.pos) (l := threeNodes) (by decide) (by rw [hc]; decide)
  have h3 : threeNodes.length = 3 := rfl
  rw [h3] at hn hm hadj
  have hm' : g.numEdges = 3 := by omega
  refine ⟨g, e, st, by omega, by omega, ?_, ⟨st, ps, by omega, by omega, by omega, by omega, by simp [ho]⟩⟩
  have main : ∀ u v, u < v → s(u, v) ∈ edgeSet g → weight g s(u, v) < DBL_MAX := by
    intro u v huv hE
    have hv := Finset.mem_range.1 (st.within u v hE).2
    rw [hn] at hv
    have := hw u (by rw [h3]; omega) v (by rw [h3]; omega) huv
    rw [← (st.mat_weight hE).1, this]
    have : ∀ u (hu : u < 3), ∀ v (hv : v < 3), ((threeNodes[u].pos : ℚ) + (threeNodes[v].pos : ℚ)) < DBL_MAX := by decide +kernel
    exact this u (by omega) v hv
  intro e he
  induction e using Sym2.ind with
  | _ u v =>
    rcases Nat.lt_trichotomy u v with h | h | h
    · exact main u v h he
    · subst h; exact absurd he (st.noloop u)
    · rw [Sym2.eq_swap] at he ⊢; exact main v u h he

end Verif
