import Verif.Proofs.Kruskal

/-!
# Properties C18, C19: Kruskal's algorithm

The graph must have at least one edge (C16_empty_graph) and the edge array one readable cell after the last edge
(C16_reads_past_the_end); `ordered` may only be set on a sorted array, as in the program.
-/
namespace Verif
open Verif.Spec
set_option autoImplicit false

variable [Rounding]

/-- a graph structure ready for Kruskal's algorithm -/
structure KruskalReady (c : Cfg) (cap : Nat) (g : Graph) : Prop where
  stored : Stored g
  positions : Positions g
  nodes : g.numNodes ≤ c.maxV
  someEdge : 1 ≤ g.numEdges
  room : g.numEdges < cap
  short : g.numEdges ≤ 65535
  ordered : g.ordered = true → (edgeList g).Pairwise (Before c.hybrid)

theorem kruskal_main {c : Cfg} {cap : Nat} {g : Graph} (h : KruskalReady c cap g) (mem : MST) :
    ∃ g' t L, kruskal c cap g mem = .ok (g', t) ∧ KruskalReady c cap g' ∧ edgeSet g' = edgeSet g ∧ weight g' = weight g ∧
      TreeRep c t g.numNodes L ∧ SimpleList g.numNodes L ∧ Acyclic (pairs L) ∧ pairs L ⊆ edgeSet g ∧
      (∀ e ∈ L, weight g (epair e) = e.weight) ∧ Promising (weight g) (Finset.range g.numNodes) (edgeSet g) (pairs L) ∧
      (t.isValid = true ↔ L.length + 1 = g.numNodes) ∧
      ((L.length : Int) < (g.numNodes : Int) - 1 → ∀ u v, Conn (edgeSet g) u v → Conn (pairs L) u v) := by
  obtain ⟨g1, e1⟩ := Sort.C16_in_bounds_partial (hy := c.hybrid) h.someEdge h.room h.short
  obtain ⟨st, ps, hE, hw, hso, hnn, hne, hnodes, hord⟩ := h.stored.sorted h.someEdge h.room h.short h.positions h.ordered e1
  have hw' : weight g1 = weight g := funext hw
  have hn1 : g1.numNodes ≤ c.maxV := by rw [hnn]; exact h.nodes
  have hstart := KInv.start c g1.numNodes mem g.nodes (Mf.rep_create g1.numNodes)
  obtain ⟨s, L, e2, hi, hsub, hmem, hp, hcon⟩ := kruskalLoop_ok hn1 st hso (g1.numEdges + 1) 0 _ [] hstart (by omega) (by omega)
    (by simp [pairs]) (by simp) (by simpa [pairs] using promising_empty _ _ _) (by intro j hj; omega)
  have hready : KruskalReady c cap g1 := ⟨st, ps, hn1, by rw [hne]; exact h.someEdge, by rw [hne]; exact h.room,
    by rw [hne]; exact h.short, fun _ => hso⟩
  have hwt : ∀ e ∈ L, weight g (epair e) = e.weight := by
    intro e he
    obtain ⟨i, hi', rfl⟩ := hmem e he
    rw [← hw']; exact st.weight_eq hi'
  have hconn : ((L.length : Int) < (g.numNodes : Int) - 1 → ∀ u v, Conn (edgeSet g) u v → Conn (pairs L) u v) := by
    intro hlt u v huv
    rw [← hE] at huv
    refine Conn.lift ?_ huv
    intro x y hxy
    obtain ⟨i, hi', hj⟩ := mem_edgeSet_adj.1 hxy
    have := hcon (by rw [hnn]; exact hlt) i hi'
    rcases hj with ⟨rfl, rfl⟩ | ⟨rfl, rfl⟩
    · exact this
    · exact this.symm'
  have hfalse : s.tree.isValid = false := by
    have key : ∀ fuel iG (a b : KState), kruskalLoop c g1 fuel iG a = .ok b → b.tree.isValid = a.tree.isValid := by
      intro fuel
      induction fuel with
      | zero => intro iG a b h; simp [kruskalLoop] at h
      | succ fuel ih =>
        intro iG a b h
        rw [kruskalLoop] at h
        split at h
        · rw [bind_eq_ok] at h
          obtain ⟨a', h1, h2⟩ := h
          rw [ih _ _ _ h2]
          exact joinEdge_valid h1
        · simp at h; rw [h]
    rw [key _ _ _ _ e2]; rfl
  rw [hnn] at e2
  simp only [hnn, hE, hw'] at hi hsub hp
  unfold kruskal
  simp only [e1, ok_bind, e2, hnn]
  by_cases hv : (s.inMST : Int) = (g.numNodes : Int) - 1
  · rw [if_pos hv]
    rw [hi.count] at hv
    exact ⟨g1, _, L, rfl, hready, hE, hw', hi.rep.setValid true, hi.simple, hi.acyc, hsub, hwt, hp,
      by simp; omega, hconn⟩
  · rw [if_neg hv]
    rw [hi.count] at hv
    refine ⟨g1, _, L, rfl, hready, hE, hw', hi.rep, hi.simple, hi.acyc, hsub, hwt, hp, ?_, hconn⟩
    simp only [hfalse, Bool.false_eq_true, false_iff]; omega

/-- C18. `kruskal` ends normally; the tree's edges are distinct graph edges without a cycle, they connect exactly the nodes that
the graph connects, and the tree is flagged valid iff the graph is connected. The graph itself is unchanged but for the order
of its edges. -/
theorem C18_spanning {c : Cfg} {cap : Nat} {g : Graph} (h : KruskalReady c cap g) (mem : MST) :
    ∃ g' t, kruskal c cap g mem = .ok (g', t) ∧
      treeEdges t ⊆ edgeSet g ∧ (treeEdges t).card = t.numEdges ∧ Acyclic (treeEdges t) ∧
      (∀ u < g.numNodes, ∀ v < g.numNodes, Conn (treeEdges t) u v ↔ Conn (edgeSet g) u v) ∧
      (t.isValid = true ↔ Connected (Finset.range g.numNodes) (edgeSet g)) ∧
      (t.isValid = true → SpanningTree (Finset.range g.numNodes) (edgeSet g) (treeEdges t)) ∧
      KruskalReady c cap g' ∧ edgeSet g' = edgeSet g ∧ weight g' = weight g := by
  obtain ⟨g', t, L, e, hr, hE, hw, rep, hs, hac, hsub, -, -, hv, hcon⟩ := kruskal_main h mem
  have hte := rep.treeEdges
  have hwi : Within (Finset.range g.numNodes) (pairs L) := h.stored.within.subset hsub
  have hne : (Finset.range g.numNodes).Nonempty := by
    have := h.stored.ends 0 h.someEdge
    exact ⟨_, Finset.mem_range.2 this.1⟩
  have hlt := hac.card_lt hwi hne
  rw [SimpleList.card hs, Finset.card_range] at hlt
  have hconn : ∀ u < g.numNodes, ∀ v < g.numNodes, Conn (pairs L) u v ↔ Conn (edgeSet g) u v := by
    intro u hu v hv'
    refine ⟨fun h' => h'.mono hsub, fun h' => ?_⟩
    by_cases hfull : L.length + 1 = g.numNodes
    · exact hac.connected_of_card hwi (by rw [SimpleList.card hs, Finset.card_range]; exact hfull) u (by simpa using hu) v (by simpa using hv')
    · exact hcon (by omega) u v h'
  have hvalid : t.isValid = true ↔ Connected (Finset.range g.numNodes) (edgeSet g) := by
    rw [hv]
    constructor
    · intro hfull u hu v hv'
      exact (hconn u (by simpa using hu) v (by simpa using hv')).1
        (hac.connected_of_card hwi (by rw [SimpleList.card hs, Finset.card_range]; exact hfull) u hu v hv')
    · intro hcn
      have : Connected (Finset.range g.numNodes) (pairs L) := fun u hu v hv' =>
        (hconn u (by simpa using hu) v (by simpa using hv')).2 (hcn u hu v hv')
      have := hac.card_of_connected hwi hne this
      rwa [SimpleList.card hs, Finset.card_range] at this
  refine ⟨g', t, e, by rw [hte]; exact hsub, by rw [hte, SimpleList.card hs, rep.num], by rw [hte]; exact hac,
    by rw [hte]; exact hconn, hvalid, ?_, hr, hE, hw⟩
  intro htrue
  rw [hte]
  exact ⟨hsub, hac.connected_of_card hwi (by rw [SimpleList.card hs, Finset.card_range]; exact hv.1 htrue), hac⟩

/-- C19. When the result is valid, its cost is the weight of its edges as the machine adds them up (`AddsUp.exact`: without rounding, their total weight), and no spanning tree has a smaller total weight. -/
theorem C19_minimum {c : Cfg} {cap : Nat} {g : Graph} (h : KruskalReady c cap g) (mem : MST) {g' : Graph} {t : MST}
    (e : kruskal c cap g mem = .ok (g', t)) (hv : t.isValid = true) :
    AddsUp (weight g) (treeEdges t) t.cost ∧
    ∀ T, SpanningTree (Finset.range g.numNodes) (edgeSet g) T → total (weight g) (treeEdges t) ≤ total (weight g) T := by
  obtain ⟨g1, t1, L, e1, -, -, -, rep, hs, hac, hsub, hwt, hp, hv1, -⟩ := kruskal_main h mem
  rw [e] at e1; cases e1
  have hne : (Finset.range g.numNodes).Nonempty := ⟨_, Finset.mem_range.2 (h.stored.ends 0 h.someEdge).1⟩
  rw [rep.treeEdges]
  refine ⟨rep.addsUp hs hwt, fun T hT => ?_⟩
  exact hp.minimum (by rw [SimpleList.card hs, Finset.card_range]; exact hv1.1 hv) (hT.span h.stored.within hne)

/-! ### Non-vacuity: the complete graph on three nodes, read as four nodes' worth of memory -/

def threeNodes : List ListNode := [⟨0, 0, 0⟩, ⟨1, 3, 4⟩, ⟨2, 0, 1⟩]

example (mem : Graph) (dist : ListNode → ListNode → ℚ) (c : Cfg) (hc : c.maxV = 4) :
    ∃ g, createEuclideanGraph c dist mem threeNodes = .ok g ∧ KruskalReady c 6 g ∧ Connected (Finset.range g.numNodes) (edgeSet g) := by
  obtain ⟨g, e, st, ps, ho, hn, hm, hadj, -, -⟩ := C52_complete (c := c) (mem := mem) (dist := dist) (l := threeNodes) (by decide) (by rw [hc]; decide)
  have h3 : threeNodes.length = 3 := rfl
  rw [h3] at hn hm hadj
  have hm' : g.numEdges = 3 := by omega
  refine ⟨g, e, ⟨st, ps, by omega, by omega, by omega, by omega, by simp [ho]⟩, ?_⟩
  intro u hu v hv
  rw [hn, Finset.mem_range] at hu hv
  by_cases h : u = v
  · rw [h]; exact Conn.refl' _ _
  · exact Conn.edge (mem_edgeSet_adj.2 (hadj u hu v hv h))

end Verif
