import Verif.Model.Kruskal
import Verif.Spec.MachineSum
import Verif.Proofs.Tree
import Verif.Proofs.Mst
import Verif.Proofs.Mfset
import Verif.Props.Graph
import Verif.Props.Sort

/-!
# Kruskal's loop: invariant
-/
namespace Verif
open Verif.Spec
set_option autoImplicit false

variable [Rounding]

/-- the unordered pair joined by an edge -/
abbrev epair (e : Edge) : Sym2 Nat := s(e.src, e.dest)

/-- edges of a list as unordered pairs -/
def pairs (L : List Edge) : EdgeSet := (L.map epair).toFinset

omit [Rounding] in
theorem mem_pairs {L : List Edge} {p : Sym2 Nat} : p ∈ pairs L ↔ ∃ e ∈ L, epair e = p := by simp [pairs]

omit [Rounding] in
theorem pairs_append (L : List Edge) (e : Edge) : pairs (L ++ [e]) = insert (epair e) (pairs L) := by
  ext p; simp only [mem_pairs, Finset.mem_insert, List.mem_append, List.mem_singleton]
  constructor
  · rintro ⟨a, h | rfl, rfl⟩
    · exact Or.inr ⟨a, h, rfl⟩
    · exact Or.inl rfl
  · rintro (rfl | ⟨a, h, rfl⟩)
    · exact ⟨e, Or.inr rfl, rfl⟩
    · exact ⟨a, Or.inl h, rfl⟩

omit [Rounding] in
theorem SimpleList.nodup {n : Nat} {L : List Edge} (h : SimpleList n L) : (L.map epair).Nodup := by
  rw [List.Nodup, List.pairwise_map]; exact h.2

omit [Rounding] in
theorem SimpleList.card {n : Nat} {L : List Edge} (h : SimpleList n L) : (pairs L).card = L.length := by
  rw [pairs, List.toFinset_card_of_nodup (SimpleList.nodup h), List.length_map]

omit [Rounding] in
theorem SimpleList.append {n : Nat} {L : List Edge} (h : SimpleList n L) {e : Edge} (hs : e.src < n) (hd : e.dest < n)
    (hne : e.src ≠ e.dest) (hni : epair e ∉ pairs L) : SimpleList n (L ++ [e]) := by
  refine ⟨?_, ?_⟩
  · intro a ha
    rcases List.mem_append.1 ha with h1 | h1
    · exact h.1 a h1
    · simp at h1; subst h1; exact ⟨hs, hd, hne⟩
  · rw [List.pairwise_append]
    refine ⟨h.2, by simp, ?_⟩
    intro a ha b hb heq
    simp at hb; subst hb
    exact hni (mem_pairs.2 ⟨a, ha, heq⟩)

omit [Rounding] in
theorem simpleList_nil (n : Nat) : SimpleList n [] := ⟨by simp, by simp⟩

omit [Rounding] in
/-- the weights of a simple list, as a sum over its pairs -/
theorem SimpleList.total {n : Nat} {L : List Edge} (h : SimpleList n L) {w : Sym2 Nat → ℚ} (hw : ∀ e ∈ L, w (epair e) = e.weight) :
    totalWeight L = Spec.total w (pairs L) := by
  unfold totalWeight Spec.total pairs
  rw [List.sum_toFinset _ (SimpleList.nodup h), List.map_map]
  congr 1
  apply List.map_congr_left
  intro e he; exact (hw e he).symm

theorem TreeRep.treeEdges {c : Cfg} {t : MST} {n : Nat} {L : List Edge} (h : TreeRep c t n L) : treeEdges t = pairs L := by
  ext p
  simp only [Spec.treeEdges, Finset.mem_image, Finset.mem_range, mem_pairs, h.num]
  constructor
  · rintro ⟨i, hi, rfl⟩
    exact ⟨L[i], List.getElem_mem hi, by rw [h.edges i hi]⟩
  · rintro ⟨e, he, rfl⟩
    obtain ⟨i, hi, rfl⟩ := List.getElem_of_mem he
    exact ⟨i, hi, by rw [h.edges i hi]⟩

/-- in exact arithmetic the machine's sum is the sum -/
theorem Spec.AddsUp.exact {w : Sym2 Nat → ℚ} {S : EdgeSet} {x : ℚ} (h : AddsUp w S x) (hx : Exact) : x = Spec.total w S := by
  obtain ⟨l, hn, hS, e⟩ := h
  rw [e, flSum_exact hx, ← hS]
  unfold Spec.total
  rw [List.sum_toFinset _ hn]

theorem TreeRep.addsUp {c : Cfg} {t : MST} {n : Nat} {L : List Edge} (h : TreeRep c t n L) (hs : SimpleList n L) {w : Sym2 Nat → ℚ} (hw : ∀ e ∈ L, w (epair e) = e.weight) :
    AddsUp w (pairs L) t.cost := by
  refine ⟨L.map epair, SimpleList.nodup hs, rfl, ?_⟩
  rw [h.sum, List.map_map]
  congr 1
  apply List.map_congr_left
  intro e he; exact (hw e he).symm

theorem TreeRep.setValid {c : Cfg} {t : MST} {n : Nat} {L : List Edge} (h : TreeRep c t n L) (b : Bool) :
    TreeRep c { t with isValid := b } n L := by
  cases h; constructor <;> assumption

/-- invariant of the Kruskal loops on the nodes `V`: `L` is the list of edges added so far -/
structure KInv (c : Cfg) (n : Nat) (V : Finset Nat) (s : KState) (L : List Edge) : Prop where
  rep : TreeRep c s.tree n L
  forest : ∃ ρ, Mf.Rep s.forest V ρ ∧ ∀ u ∈ V, ∀ v ∈ V, (ρ u = ρ v ↔ Conn (pairs L) u v)
  acyc : Acyclic (pairs L)
  simple : SimpleList n L
  within : Within V (pairs L)
  count : s.inMST = L.length

theorem joinEdge_ok {c : Cfg} {n : Nat} {V : Finset Nat} {s : KState} {L : List Edge} {e : Edge} {k : Nat} (h : KInv c n V s L)
    (hn : n ≤ c.maxV) (hV : V ⊆ Finset.range n) (hs : e.src ∈ V) (hd : e.dest ∈ V) (hk : n + 1 ≤ k) :
    ∃ s', joinEdge c k s e = .ok s' ∧
      ((Conn (pairs L) e.src e.dest ∧ KInv c n V s' L) ∨ (¬ Conn (pairs L) e.src e.dest ∧ KInv c n V s' (L ++ [e]))) := by
  obtain ⟨ρ, hρ, hc⟩ := h.forest
  have hcard : V.card ≤ n := by have := Finset.card_le_card hV; simpa using this
  have hlog : Nat.log 2 V.card + 1 ≤ k := by have := Nat.log_le_self 2 V.card; omega
  obtain ⟨f1, e1, r1, -, -⟩ := Mf.find_ok hρ hs hlog
  obtain ⟨f2, e2, r2, -, -⟩ := Mf.find_ok r1 hd hlog
  obtain ⟨a, ha, na⟩ := r2.dom _ (r2.root_mem hs)
  obtain ⟨b, hb, nb⟩ := r2.dom _ (r2.root_mem hd)
  have hsn : e.src < n := Finset.mem_range.1 (hV hs)
  have hdn : e.dest < n := Finset.mem_range.1 (hV hd)
  simp only [joinEdge, e1, e2, ha, hb, deref_some, ok_bind, na, nb]
  by_cases heq : ρ e.src = ρ e.dest
  · simp only [heq, ne_eq, not_true_eq_false, ↓reduceIte, pure_eq_ok, Except.ok.injEq, exists_eq_left']
    exact Or.inl ⟨(hc _ hs _ hd).1 heq, ⟨h.rep, ⟨ρ, r2, hc⟩, h.acyc, h.simple, h.within, h.count⟩⟩
  · have hnc : ¬ Conn (pairs L) e.src e.dest := fun h' => heq ((hc _ hs _ hd).2 h')
    have hne : e.src ≠ e.dest := fun h' => hnc (by rw [h']; exact Conn.refl' _ _)
    have hni : epair e ∉ pairs L := fun h' => hnc (Conn.edge h')
    obtain ⟨f3, ρ', e3, r3, -, hlink⟩ := Mf.merge_ok r2 (r2.root_mem hs) (r2.root_mem hd) hlog
    rw [r2.root_root hs, r2.root_root hd] at hlink
    have hsimple := SimpleList.append h.simple hsn hdn hne hni
    have hac : Acyclic (pairs (L ++ [e])) := by rw [pairs_append]; exact h.acyc.insert hnc
    have hwith : Within V (pairs (L ++ [e])) := by
      rw [pairs_append]
      intro u v huv
      rcases Finset.mem_insert.1 huv with h' | h'
      · rw [Sym2.eq_iff] at h'
        rcases h' with ⟨rfl, rfl⟩ | ⟨rfl, rfl⟩
        · exact ⟨hs, hd⟩
        · exact ⟨hd, hs⟩
      · exact h.within u v h'
    have hlen : (L ++ [e]).length + 1 ≤ V.card := by
      rw [← SimpleList.card hsimple]; exact hac.card_lt hwith ⟨_, hs⟩
    simp only [List.length_append, List.length_singleton] at hlen
    obtain ⟨t', e4⟩ := add_ok h.rep hn hsn hdn (by omega) (fun u hu => by
      have := nbrs_length_le hsimple hu; omega)
    simp only [ne_eq, heq, not_false_eq_true, ↓reduceIte, e3, ok_bind, e4, pure_eq_ok, Except.ok.injEq, exists_eq_left']
    refine Or.inr ⟨hnc, ⟨treeRep_add h.rep hsn hdn e4, ⟨ρ', r3, ?_⟩, hac, hsimple, hwith, ?_⟩⟩
    · intro u hu v hv
      have hl : (ρ' = Mf.link ρ (ρ e.src) (ρ e.dest) ∨ ρ' = Mf.link ρ (ρ e.dest) (ρ e.src)) := by
        rcases hlink with ⟨_, h'⟩ | ⟨_, h'⟩
        · exact absurd h' heq
        · exact h'
      rw [pairs_append, conn_insert, ← hc u hu v hv, ← hc u hu _ hs, ← hc _ hd v hv, ← hc u hu _ hd, ← hc _ hs v hv]
      rcases hl with rfl | rfl
      · unfold Mf.link
        by_cases p : ρ u = ρ e.dest <;> by_cases q : ρ v = ρ e.dest <;> simp only [p, q, ↓reduceIte]
        · simp
        · constructor
          · intro h'; exact Or.inr (Or.inr ⟨trivial, h'⟩)
          · rintro (h' | ⟨h', _⟩ | ⟨_, h'⟩)
            · exact absurd h'.symm q
            · exact absurd h'.symm heq
            · exact h'
        · constructor
          · intro h'; exact Or.inr (Or.inl ⟨h', trivial⟩)
          · rintro (h' | ⟨h', _⟩ | ⟨h', _⟩)
            · exact h'.elim
            · exact h'
            · exact h'.elim
        · constructor
          · intro h'; exact Or.inl h'
          · rintro (h' | ⟨_, h'⟩ | ⟨h', _⟩)
            · exact h'
            · exact absurd h'.symm q
            · exact h'.elim
      · unfold Mf.link
        by_cases p : ρ u = ρ e.src <;> by_cases q : ρ v = ρ e.src <;> simp only [p, q, ↓reduceIte]
        · simp
        · constructor
          · intro h'; exact Or.inr (Or.inl ⟨trivial, h'⟩)
          · rintro (h' | ⟨_, h'⟩ | ⟨h', _⟩)
            · exact absurd h'.symm q
            · exact h'
            · exact absurd h' heq
        · constructor
          · intro h'; exact Or.inr (Or.inr ⟨h', trivial⟩)
          · rintro (h' | ⟨h', _⟩ | ⟨h', _⟩)
            · exact h'.elim
            · exact h'.elim
            · exact h'
        · constructor
          · intro h'; exact Or.inl h'
          · rintro (h' | ⟨h', _⟩ | ⟨_, h'⟩)
            · exact h'
            · exact h'.elim
            · exact absurd h'.symm q
    · simp [h.count]

theorem addEdge_valid {c : Cfg} {a b : MST} {e : Edge} (h1 : addEdge c a e = .ok b) : b.isValid = a.isValid := by
  unfold addEdge at h1
  simp only at h1
  split at h1
  · cases h1
  · split at h1
    · cases h1
    · split at h1
      · cases h1
      · simp only [Except.ok.injEq] at h1
        subst h1
        split
        · split <;> rfl
        · rfl

theorem joinEdge_valid {c : Cfg} {k : Nat} {a b : KState} {e : Edge} (h : joinEdge c k a e = .ok b) : b.tree.isValid = a.tree.isValid := by
  unfold joinEdge at h
  simp only [bind_eq_ok] at h
  obtain ⟨_, _, _, _, _, _, _, _, h⟩ := h
  split at h
  · rw [bind_eq_ok] at h
    obtain ⟨_, _, h⟩ := h
    rw [bind_eq_ok] at h
    obtain ⟨t, ht, h⟩ := h
    simp at h; subst h; exact addEdge_valid ht
  · simp at h; subst h; rfl

theorem KInv.start (c : Cfg) (n : Nat) (mem : MST) (nodes : Nat → Node) {f : Mf.Forest} {V : Finset Nat} (hf : Mf.Rep f V id) :
    KInv c n V { forest := f, tree := createMst mem nodes n, inMST := 0 } [] := by
  refine ⟨treeRep_create c mem nodes n, ⟨id, hf, ?_⟩, ?_, simpleList_nil n, ?_, rfl⟩
  · intro u _ v _
    constructor
    · intro h; rw [show u = v from h]; exact Conn.refl' _ _
    · intro h
      induction h with
      | refl => rfl
      | tail _ e _ => simp [pairs] at e
  · simpa [pairs] using acyclic_empty
  · intro u v h; simp [pairs] at h

/-- one greedy step: the edge is connected afterwards, connections are kept, and the set stays promising if no lighter edge
joins two components -/
theorem join_greedy {c : Cfg} {n : Nat} {V : Finset Nat} {E : EdgeSet} {w : Sym2 Nat → ℚ} {s : KState} {L : List Edge} {e : Edge} {k : Nat}
    (h : KInv c n V s L) (hn : n ≤ c.maxV) (hV : V ⊆ Finset.range n) (hs : e.src ∈ V) (hd : e.dest ∈ V) (hk : n + 1 ≤ k)
    (hE : epair e ∈ E) (hsub : pairs L ⊆ E) (hp : Promising w V E (pairs L))
    (hmin : ∀ x y, s(x, y) ∈ E → ¬ Conn (pairs L) x y → w (epair e) ≤ w s(x, y)) :
    ∃ s' L', joinEdge c k s e = .ok s' ∧ KInv c n V s' L' ∧ (L' = L ∨ L' = L ++ [e]) ∧ pairs L' ⊆ E ∧ Promising w V E (pairs L') ∧
      Conn (pairs L') e.src e.dest ∧ pairs L ⊆ pairs L' := by
  obtain ⟨s', es, ⟨hc, hi⟩ | ⟨hnc, hi⟩⟩ := joinEdge_ok h hn hV hs hd hk
  · exact ⟨s', L, es, hi, Or.inl rfl, hsub, hp, hc, Finset.Subset.refl _⟩
  · refine ⟨s', L ++ [e], es, hi, Or.inr rfl, ?_, ?_, ?_, ?_⟩
    · rw [pairs_append]; exact Finset.insert_subset hE hsub
    · rw [pairs_append]
      refine hp.insert (fun z => Conn (pairs L) e.src z) hs hd (Conn.refl' _ _) hnc hE ?_ ?_
      · intro x y hxy hx; exact hx.trans' (Conn.edge hxy)
      · intro x y hxy hx hy; exact hmin x y hxy (fun h' => hy (hx.trans' h'))
    · rw [pairs_append]; exact Conn.edge (Finset.mem_insert_self _ _)
    · rw [pairs_append]; exact Finset.subset_insert _ _

omit [Rounding] in
theorem mem_edgeSet {g : Graph} {p : Sym2 Nat} : p ∈ edgeSet g ↔ ∃ i < g.numEdges, epair (g.edges i) = p := by
  simp [edgeSet]

omit [Rounding] in
theorem mem_edgeSet_adj {g : Graph} {u v : Nat} : s(u, v) ∈ edgeSet g ↔ Adj g u v := by
  rw [mem_edgeSet]; unfold Adj
  refine exists_congr fun i => and_congr_right fun _ => ?_
  rw [joins_iff]

omit [Rounding] in
theorem Spec.Stored.weight_eq {g : Graph} (h : Stored g) {i : Nat} (hi : i < g.numEdges) : weight g (epair (g.edges i)) = (g.edges i).weight := by
  unfold weight
  have : Joins (g.edges i) (epair (g.edges i)).inf (epair (g.edges i)).sup := by
    unfold Joins epair
    rcases le_total (g.edges i).src (g.edges i).dest with h1 | h1
    · left; simp [Sym2.inf_mk, Sym2.sup_mk, h1]
    · right; simp [Sym2.inf_mk, Sym2.sup_mk, h1]
  have := h.mat i hi _ _ this
  simp only [content, Prod.mk.injEq] at this
  exact this.2.2.2.1

omit [Rounding] in
theorem Spec.Stored.within {g : Graph} (h : Stored g) : Within (Finset.range g.numNodes) (edgeSet g) := by
  intro u v huv
  obtain ⟨i, hi, hj⟩ := mem_edgeSet_adj.1 huv
  have := h.ends i hi
  rcases hj with ⟨rfl, rfl⟩ | ⟨rfl, rfl⟩
  · simpa using ⟨this.1, this.2.1⟩
  · simpa using ⟨this.2.1, this.1⟩

omit [Rounding] in
/-- sorting does not change the graph that is stored -/
theorem Spec.Stored.sorted {hy : Bool} {cap : Nat} {g g' : Graph} (h1 : 1 ≤ g.numEdges) (h2 : g.numEdges < cap) (h3 : g.numEdges ≤ 65535)
    (hs : Stored g) (hp : Positions g) (ho : g.ordered = true → (edgeList g).Pairwise (Before hy)) (e : Sort.wrapQuickSort hy cap g = .ok g') :
    Stored g' ∧ Positions g' ∧ edgeSet g' = edgeSet g ∧ (∀ p, weight g' p = weight g p) ∧ (edgeList g').Pairwise (Before hy) ∧
      g'.numNodes = g.numNodes ∧ g'.numEdges = g.numEdges ∧ g'.nodes = g.nodes ∧ g'.ordered = true := by
  cases hog : g.ordered with
  | true =>
    rw [(Sort.C14_sorts (hy := hy) h1 h2 h3).1 hog] at e; cases e
    exact ⟨hs, hp, rfl, fun _ => rfl, ho hog, rfl, rfl, rfl, hog⟩
  | false =>
    obtain ⟨g1, e1, o1, o2, o3, o4, o5, o6, o7, o8, o9⟩ := (Sort.C14_sorts (hy := hy) h1 h2 h3).2 hog
    rw [e1] at e; cases e
    obtain ⟨hsim, hpos⟩ := Sort.C15_positions_consistent h1 h2 h3 hs.simple hp e1
    have cont : ∀ i < g'.numEdges, ∃ j < g.numEdges, content (g'.edges i) = content (g.edges j) := by
      intro i hi
      have : content (g'.edges i) ∈ (edgeList g').map content :=
        List.mem_map_of_mem (List.mem_map_of_mem (List.mem_range.2 hi))
      rw [o3.mem_iff] at this
      simp only [edgeList, List.map_map, List.mem_map, List.mem_range, Function.comp] at this
      obtain ⟨j, hj, hc⟩ := this
      exact ⟨j, hj, hc.symm⟩
    have cont' : ∀ j < g.numEdges, ∃ i < g'.numEdges, content (g'.edges i) = content (g.edges j) := by
      intro i hi
      have : content (g.edges i) ∈ (edgeList g).map content :=
        List.mem_map_of_mem (List.mem_map_of_mem (List.mem_range.2 hi))
      rw [← o3.mem_iff] at this
      simp only [edgeList, List.map_map, List.mem_map, List.mem_range, Function.comp] at this
      obtain ⟨j, hj, hc⟩ := this
      exact ⟨j, hj, hc⟩
    have hjoin : ∀ {a b : Edge} {u v : Nat}, content a = content b → (Joins a u v ↔ Joins b u v) := by
      intro a b u v h
      simp only [content, Prod.mk.injEq] at h
      unfold Joins; rw [h.1, h.2.1]
    have hadj : ∀ u v, Adj g' u v ↔ Adj g u v := by
      intro u v
      constructor
      · rintro ⟨i, hi, hj⟩
        obtain ⟨j, hj', hc⟩ := cont i hi
        exact ⟨j, hj', (hjoin hc).1 hj⟩
      · rintro ⟨i, hi, hj⟩
        obtain ⟨j, hj', hc⟩ := cont' i hi
        exact ⟨j, hj', (hjoin hc).2 hj⟩
    refine ⟨⟨?_, hsim, ?_, ?_, ?_⟩, hpos, ?_, ?_, o2, o5, o4, o6, o1⟩
    · intro i hi
      obtain ⟨j, hj, hc⟩ := cont i hi
      simp only [content, Prod.mk.injEq] at hc
      rw [hc.1, hc.2.1, o5]; exact hs.ends j hj
    · intro u hu; rw [o6]; exact hs.nodup u (by rw [← o5]; exact hu)
    · intro u hu v; rw [o6, hadj]; exact hs.nbr u (by rw [← o5]; exact hu) v
    · intro i hi u v hj
      obtain ⟨j, hj', hc⟩ := cont i hi
      rw [o8, hc]; exact hs.mat j hj' u v ((hjoin hc).1 hj)
    · ext p
      induction p using Sym2.ind with
      | _ u v => rw [mem_edgeSet_adj, mem_edgeSet_adj]; exact hadj u v
    · intro p
      unfold weight
      have := o8 p.inf p.sup
      simp only [content, Prod.mk.injEq] at this
      exact this.2.2.2.1

/-- Kruskal's loop from index `iG` -/
theorem kruskalLoop_ok {c : Cfg} {g : Graph} (hn : g.numNodes ≤ c.maxV) (hst : Stored g) {hy : Bool}
    (hso : (edgeList g).Pairwise (Before hy)) : ∀ (fuel iG : Nat) (s : KState) (L : List Edge),
    KInv c g.numNodes (Finset.range g.numNodes) s L → iG ≤ g.numEdges → g.numEdges - iG < fuel → pairs L ⊆ edgeSet g →
    (∀ e ∈ L, ∃ i < g.numEdges, e = g.edges i) →
    Promising (weight g) (Finset.range g.numNodes) (edgeSet g) (pairs L) →
    (∀ j < iG, Conn (pairs L) (g.edges j).src (g.edges j).dest) →
    ∃ s' L', kruskalLoop c g fuel iG s = .ok s' ∧ KInv c g.numNodes (Finset.range g.numNodes) s' L' ∧ pairs L' ⊆ edgeSet g ∧
      (∀ e ∈ L', ∃ i < g.numEdges, e = g.edges i) ∧
      Promising (weight g) (Finset.range g.numNodes) (edgeSet g) (pairs L') ∧
      ((L'.length : Int) < (g.numNodes : Int) - 1 → ∀ j < g.numEdges, Conn (pairs L') (g.edges j).src (g.edges j).dest) := by
  intro fuel
  induction fuel with
  | zero => intro iG s L _ _ hf; omega
  | succ fuel ih =>
    intro iG s L hi hle hf hsub hmem hp hconn
    rw [kruskalLoop]
    by_cases hcond : iG < g.numEdges ∧ (s.inMST : Int) < (g.numNodes : Int) - 1
    · rw [if_pos hcond]
      have hends := hst.ends iG hcond.1
      have hmin : ∀ x y, s(x, y) ∈ edgeSet g → ¬ Conn (pairs L) x y → weight g (epair (g.edges iG)) ≤ weight g s(x, y) := by
        intro x y hxy hnc
        obtain ⟨j, hj, hjn⟩ := mem_edgeSet.1 hxy
        rw [← hjn, hst.weight_eq hcond.1, hst.weight_eq hj]
        have hij : iG ≤ j := by
          by_contra hlt
          have := hconn j (by omega)
          rw [Sym2.eq_iff] at hjn
          rcases hjn with ⟨rfl, rfl⟩ | ⟨rfl, rfl⟩
          · exact hnc this
          · exact hnc this.symm'
        rcases Nat.lt_or_ge iG j with h1 | h1
        · unfold edgeList at hso
          rw [List.pairwise_map] at hso
          have := List.pairwise_iff_getElem.1 hso iG j (by simpa using hcond.1) (by simpa using hj) h1
          simp only [List.getElem_range] at this
          rcases this with h2 | h2
          · exact h2.le
          · exact h2.1.le
        · rw [show iG = j by omega]
      obtain ⟨s', L', e1, hi', hL', hsub', hp', hc', hmono⟩ := join_greedy hi hn (Finset.Subset.refl _)
        (by simpa using hends.1) (by simpa using hends.2.1) (le_refl _) (mem_edgeSet.2 ⟨iG, hcond.1, rfl⟩) hsub hp hmin
      rw [e1, ok_bind]
      refine ih (iG + 1) s' L' hi' hcond.1 (by omega) hsub' ?_ hp' ?_
      · rcases hL' with rfl | rfl
        · exact hmem
        · intro e he
          rcases List.mem_append.1 he with h1 | h1
          · exact hmem e h1
          · simp at h1; exact ⟨iG, hcond.1, h1⟩
      · intro j hj
        rcases Nat.lt_or_ge j iG with h1 | h1
        · exact (hconn j h1).mono hmono
        · rw [show j = iG by omega]; exact hc'
    · rw [if_neg hcond]
      refine ⟨s, L, rfl, hi, hsub, hmem, hp, ?_⟩
      intro hlt j hj
      refine hconn j ?_
      rw [hi.count] at hcond
      by_contra h1
      exact hcond ⟨by omega, hlt⟩

end Verif
