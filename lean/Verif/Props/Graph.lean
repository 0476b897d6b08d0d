import Verif.Proofs.Graph
import Verif.Spec.GraphSpec

/-!
# Properties C51, C52: building graphs
-/
namespace Verif
open Verif.Spec
set_option autoImplicit false

variable [Rounding]

omit [Rounding] in
theorem joins_iff {e : Edge} {u v : Nat} : Joins e u v ↔ s(e.src, e.dest) = s(u, v) := by
  unfold Joins; rw [Sym2.eq_iff]

omit [Rounding] in
theorem joins_comm {e : Edge} {u v : Nat} : Joins e u v ↔ Joins e v u := by unfold Joins; tauto

omit [Rounding] in
theorem mem_nbrs {L : List Edge} {u v : Nat} : v ∈ nbrs L u ↔ ∃ e ∈ L, Joins e u v := by
  unfold nbrs Joins
  rw [List.mem_flatMap]
  refine exists_congr fun e => and_congr_right fun _ => ?_
  rw [List.mem_append]
  refine or_congr ?_ ?_
  · by_cases h : e.src = u <;> simp [h, eq_comm]
  · by_cases h : e.dest = u <;> simp [h, eq_comm]

omit [Rounding] in
theorem nbrs_nodup {n : Nat} {L : List Edge} (h : SimpleList n L) (u : Nat) : (nbrs L u).Nodup := by
  obtain ⟨h1, h2⟩ := h
  induction L with
  | nil => simp [nbrs]
  | cons e L ih =>
    rw [List.pairwise_cons] at h2
    have hsd := (h1 e (by simp)).2.2
    have : nbrs (e :: L) u = ((if e.src = u then [e.dest] else []) ++ (if e.dest = u then [e.src] else [])) ++ nbrs L u := by
      simp [nbrs]
    rw [this, List.nodup_append]
    refine ⟨?_, ih (fun e' he' => h1 e' (by simp [he'])) h2.2, ?_⟩
    · by_cases a : e.src = u <;> by_cases b : e.dest = u <;> simp [a, b]
      exact hsd (a.trans b.symm)
    · intro a ha b hb hab
      subst hab
      obtain ⟨e', he', hj⟩ := mem_nbrs.1 hb
      have hj2 : Joins e u a := by
        have : a ∈ nbrs [e] u := by simpa [nbrs] using ha
        obtain ⟨e2, he2, hj2⟩ := mem_nbrs.1 this
        simp at he2; subst he2; exact hj2
      exact h2.1 e' he' (by rw [joins_iff.1 hj2, joins_iff.1 hj])

omit [Rounding] in
theorem nbrs_length_le {n : Nat} {L : List Edge} (h : SimpleList n L) {u : Nat} (hu : u < n) : (nbrs L u).length ≤ n - 1 := by
  have hsub : nbrs L u ⊆ (List.range n).erase u := by
    intro v hv
    obtain ⟨e, he, hj⟩ := mem_nbrs.1 hv
    obtain ⟨a, b, hne⟩ := h.1 e he
    rw [List.nodup_range.mem_erase_iff, List.mem_range]
    rcases hj with ⟨rfl, rfl⟩ | ⟨rfl, rfl⟩
    · exact ⟨hne.symm, b⟩
    · exact ⟨hne, a⟩
  have := ((nbrs_nodup h u).subperm hsub).length_le
  rwa [List.length_erase_of_mem (List.mem_range.2 hu), List.length_range] at this

omit [Rounding] in
/-- the last edge of a simple list joining a pair is the only one -/
theorem simple_split {n : Nat} {L : List Edge} (h : SimpleList n L) {i : Nat} (hi : i < L.length) {u v : Nat}
    (hj : Joins L[i] u v) : ∃ A B, L = A ++ L[i] :: B ∧ A.length = i ∧ ∀ e' ∈ B, ¬ Joins e' u v := by
  refine ⟨L.take i, L.drop (i + 1), ?_, by simp; omega, ?_⟩
  · rw [← List.drop_eq_getElem_cons hi, List.take_append_drop]
  · intro e' he' hj'
    have hp := h.2
    rw [← List.take_append_drop i L, List.drop_eq_getElem_cons hi, List.pairwise_append, List.pairwise_cons] at hp
    exact hp.2.1.1 e' he' (by rw [joins_iff.1 hj, joins_iff.1 hj'])

/-- the graph built from a simple edge list stores it -/
theorem GraphRep.stored {g : Graph} {xs : List (ℚ × ℚ)} {L : List Edge} (h : GraphRep g xs L) (hL : SimpleList xs.length L) :
    Stored g ∧ Positions g := by
  have hadj : ∀ u v, Adj g u v ↔ ∃ e ∈ L, Joins e u v := by
    intro u v
    unfold Adj
    constructor
    · rintro ⟨i, hi, hj⟩
      rw [h.num] at hi
      rw [h.edges i hi] at hj
      exact ⟨L[i], List.getElem_mem _, hj⟩
    · rintro ⟨e, he, hj⟩
      obtain ⟨i, hi, rfl⟩ := List.getElem_of_mem he
      exact ⟨i, by rw [h.num]; exact hi, by rw [h.edges i hi]; exact hj⟩
  have hmat : ∀ i (hi : i < L.length), ∀ u v, Joins L[i] u v → g.mat u v = { L[i] with pos := i } := by
    intro i hi u v hj
    obtain ⟨A, B, e1, e2, e3⟩ := simple_split hL hi hj
    rw [h.last u v A B L[i] e1 hj e3, e2]
  refine ⟨⟨?_, ?_, ?_, ?_, ?_⟩, ?_⟩
  · intro i hi
    rw [h.num] at hi
    rw [h.edges i hi, h.nn]
    have := hL.1 _ (List.getElem_mem hi)
    exact ⟨this.1, this.2.1, this.2.2⟩
  · intro i hi j hj he
    rw [h.num] at hi hj
    rw [h.edges i hi, h.edges j hj] at he
    by_contra hne
    have hp := List.pairwise_iff_getElem.1 hL.2
    rcases Nat.lt_or_gt_of_ne hne with hlt | hlt
    · exact hp i j hi hj hlt he
    · exact hp j i hj hi hlt he.symm
  · intro u hu
    rw [h.nn] at hu
    rw [h.nodes u hu]; exact nbrs_nodup hL u
  · intro u hu v
    rw [h.nn] at hu
    rw [h.nodes u hu, mem_nbrs, hadj]
  · intro i hi u v hj
    rw [h.num] at hi
    rw [h.edges i hi] at hj
    rw [hmat i hi u v hj, h.edges i hi]
  · intro i hi
    rw [h.num] at hi
    rw [h.edges i hi]
    exact ⟨rfl, by rw [hmat i hi _ _ (Or.inl ⟨rfl, rfl⟩)], by rw [hmat i hi _ _ (Or.inr ⟨rfl, rfl⟩)]⟩

/-- C51. `create_graph` on a list of nodes and a list of edges between them: nodes and edges in list order with
positions 0, 1, …; each node's neighbours are the other end points of its edges; both matrix entries of a pair hold the
last edge listed between them; the cost is the sum of the weights, added up by the machine in list order. -/
theorem C51_create_graph {c : Cfg} {mem g : Graph} {xs : List (ℚ × ℚ)} {L : List Edge}
    (hL : ∀ e ∈ L, e.src < xs.length ∧ e.dest < xs.length) (h : createGraph c mem xs L = .ok g) :
    g.numNodes = xs.length ∧ g.numEdges = L.length ∧ g.ordered = false ∧ g.cost = flSum (L.map (·.weight)) ∧ (Exact → g.cost = totalWeight L) ∧
    (∀ i (hi : i < L.length), g.edges i = { L[i] with pos := i }) ∧
    (∀ u (hu : u < xs.length), (g.nodes u).pos = u ∧ (g.nodes u).x = xs[u].1 ∧ (g.nodes u).y = xs[u].2) ∧
    (∀ u < xs.length, (g.nodes u).list = nbrs L u) ∧
    (∀ u v A B e, L = A ++ e :: B → Joins e u v → (∀ e' ∈ B, ¬ Joins e' u v) →
      g.mat u v = { e with pos := A.length } ∧ g.mat v u = g.mat u v) := by
  have r := (createGraph_rep hL).2 g h
  refine ⟨r.nn, r.num, r.ord, r.sum, r.cost, r.edges, r.coord, r.nodes, ?_⟩
  intro u v A B e e1 hj hB
  have h1 := r.last u v A B e e1 hj hB
  have h2 := r.last v u A B e e1 (joins_comm.1 hj) (fun e' he' hj' => hB e' he' (joins_comm.1 hj'))
  exact ⟨h1, by rw [h1, h2]⟩

/-- C51. On a simple edge list that fits (at most `MAX_VERTEX_NUM` nodes) the call never leaves the arrays, and the result
stores that simple graph with consistent positions. -/
theorem C51_create_graph_simple {c : Cfg} {mem : Graph} {xs : List (ℚ × ℚ)} {L : List Edge} (hn : xs.length ≤ c.maxV)
    (hL : SimpleList xs.length L) (hm : L.length ≤ c.maxE) :
    ∃ g, createGraph c mem xs L = .ok g ∧ Stored g ∧ Positions g := by
  have hends : ∀ e ∈ L, e.src < xs.length ∧ e.dest < xs.length := fun e he => ⟨(hL.1 e he).1, (hL.1 e he).2.1⟩
  obtain ⟨g, e⟩ := (createGraph_rep (c := c) (g := mem) hends).1 hn hm (by
    intro u hu; have := nbrs_length_le hL hu; omega)
  exact ⟨g, e, ((createGraph_rep hends).2 g e).stored hL⟩

omit [Rounding] in
/-- edges of `euclList`: pairs `i < j` of the nodes, each once, symbols and positions consecutive -/
theorem euclList_spec (dist : ListNode → ListNode → ℚ) : ∀ (l : List ListNode) (z k : Nat),
    (∀ i (hi : i < l.length), l[i].pos = k + i) →
    (∀ e ∈ euclList dist z l, k ≤ e.src ∧ e.src < e.dest ∧ e.dest < k + l.length) ∧
    (euclList dist z l).Pairwise (fun a b => (a.src, a.dest) ≠ (b.src, b.dest)) ∧
    (∀ i (hi : i < (euclList dist z l).length), (euclList dist z l)[i].symbol = z + i + 1 ∧ (euclList dist z l)[i].pos = z + i) ∧
    (∀ i j (hi : i < l.length) (hj : j < l.length), i < j → ∃ e ∈ euclList dist z l, e.src = k + i ∧ e.dest = k + j ∧ e.weight = dist l[i] l[j]) := by
  intro l
  induction l with
  | nil => intro z k _; simp [euclList]
  | cons s rest ih =>
    intro z k hpos
    have hs : s.pos = k := hpos 0 (Nat.succ_pos _)
    have hrest : ∀ i (hi : i < rest.length), rest[i].pos = k + 1 + i := by
      intro i hi; have := hpos (i + 1) (by simp; omega); simp at this; omega
    obtain ⟨r1, r2, r3, r4⟩ := ih (z + rest.length) (k + 1) hrest
    simp only [euclList]
    set row := rest.mapIdx fun i d =>
      ({ src := s.pos, dest := d.pos, symbol := z + i + 1, pos := z + i, prob := 0, weight := dist s d } : Edge) with hrow
    have hrl : row.length = rest.length := by simp [hrow]
    have hmem : ∀ e ∈ row, ∃ i, ∃ hi : i < rest.length, e.src = k ∧ e.dest = k + 1 + i ∧ e.weight = dist s rest[i] := by
      intro e he
      obtain ⟨i, hi, rfl⟩ := List.getElem_of_mem he
      rw [hrl] at hi
      refine ⟨i, hi, ?_, ?_, ?_⟩
      · simp [hrow, hs]
      · simp [hrow, hrest i hi]
      · simp [hrow]
    refine ⟨?_, ?_, ?_, ?_⟩
    · intro e he
      rcases List.mem_append.1 he with h | h
      · obtain ⟨i, hi, h1, h2, _⟩ := hmem e h
        simp only [List.length_cons]; omega
      · have := r1 e h; simp only [List.length_cons]; omega
    · rw [List.pairwise_append]
      refine ⟨?_, r2, ?_⟩
      · rw [List.pairwise_iff_getElem]
        intro i j hi hj hij heq
        rw [hrl] at hi hj
        simp only [hrow, List.getElem_mapIdx, Prod.mk.injEq, hrest i hi, hrest j hj] at heq
        omega
      · intro a ha b hb heq
        obtain ⟨i, hi, h1, _⟩ := hmem a ha
        have := (r1 b hb).1
        simp only [Prod.mk.injEq] at heq; omega
    · intro i hi
      have hlen : (row ++ euclList dist (z + rest.length) rest).length = rest.length + (euclList dist (z + rest.length) rest).length := by
        rw [List.length_append, hrl]
      have hi' : i < rest.length + (euclList dist (z + rest.length) rest).length := by rw [← hlen]; exact hi
      by_cases hir : i < rest.length
      · rw [List.getElem_append_left (by rw [← hrl] at hir; exact hir)]; simp
      · have hir' : row.length ≤ i := by omega
        have := r3 (i - row.length) (by omega)
        rw [List.getElem_append_right hir']
        exact ⟨this.1.trans (by omega), this.2.trans (by omega)⟩
    · intro i j hi hj hij
      cases i with
      | zero =>
        cases j with
        | zero => omega
        | succ j =>
          have hj' : j < rest.length := by simpa using hj
          refine ⟨row[j]'(by omega), List.mem_append_left _ (List.getElem_mem _), ?_, ?_, ?_⟩
          · simp [hrow, hs]
          · simp [hrow, hrest j hj']; omega
          · simp [hrow]
      | succ i =>
        cases j with
        | zero => omega
        | succ j =>
          obtain ⟨e, he, h1, h2, h3⟩ := r4 i j (by simpa using hi) (by simpa using hj) (by omega)
          exact ⟨e, List.mem_append_right _ he, by omega, by omega, by simpa using h3⟩

/-- C52. `create_euclidean_graph` on `n ≤ MAX_VERTEX_NUM` nodes (numbered in list order): it stays inside its arrays and
yields the complete graph: `n(n-1)/2` edges, one for each pair, with the distance as weight, symbols 1, 2, … and
positions 0, 1, …. -/
theorem C52_complete {c : Cfg} {mem : Graph} {dist : ListNode → ListNode → ℚ} {l : List ListNode}
    (hpos : ∀ i (hi : i < l.length), l[i].pos = i) (hn : l.length ≤ c.maxV) :
    ∃ g, createEuclideanGraph c dist mem l = .ok g ∧ Stored g ∧ Positions g ∧ g.ordered = false ∧ g.numNodes = l.length ∧
      2 * g.numEdges = l.length * (l.length - 1) ∧
      (∀ u < l.length, ∀ v < l.length, u ≠ v → Adj g u v) ∧
      (∀ i (hi : i < l.length) j (hj : j < l.length), i < j → (g.mat i j).weight = dist l[i] l[j]) ∧
      (∀ k < g.numEdges, (g.edges k).symbol = k + 1 ∧ (g.edges k).pos = k) ∧
      (∀ u (hu : u < l.length), (g.nodes u).pos = u ∧ (g.nodes u).x = l[u].x ∧ (g.nodes u).y = l[u].y) := by
  have hlen := euclList_length dist l 0
  have hcap : (euclList dist 0 l).length ≤ c.maxE := by
    unfold Cfg.maxE
    rw [Nat.le_div_iff_mul_le (by omega), mul_comm, hlen]
    exact Nat.mul_le_mul hn (by omega)
  obtain ⟨r1, r2, r3, r4⟩ := euclList_spec dist l 0 0 (by simpa using hpos)
  have hsimple : SimpleList (l.map fun v => (v.x, v.y)).length (euclList dist 0 l) := by
    refine ⟨?_, ?_⟩
    · intro e he; have := r1 e he; simp; omega
    · refine r2.imp_of_mem ?_
      intro a b ha hb hab heq
      have h1 := r1 a ha
      have h2 := r1 b hb
      rw [Sym2.eq_iff] at heq
      rcases heq with ⟨e1, e2⟩ | ⟨e1, e2⟩
      · exact hab (by rw [e1, e2])
      · omega
  have hends : ∀ e ∈ euclList dist 0 l, e.src < (l.map fun v => (v.x, v.y)).length ∧ e.dest < (l.map fun v => (v.x, v.y)).length :=
    fun e he => ⟨(hsimple.1 e he).1, (hsimple.1 e he).2.1⟩
  obtain ⟨g, e, st, ps⟩ := C51_create_graph_simple (c := c) (mem := mem) (by simpa using hn) hsimple hcap
  have r := (createGraph_rep hends).2 g e
  have hjoin : ∀ i (hi : i < l.length) j (hj : j < l.length), i < j → ∃ k, ∃ hk : k < (euclList dist 0 l).length,
      Joins (euclList dist 0 l)[k] i j ∧ (euclList dist 0 l)[k].weight = dist l[i] l[j] := by
    intro i hi j hj hij
    obtain ⟨e', he', h1, h2, h3⟩ := r4 i j hi hj hij
    obtain ⟨k, hk, rfl⟩ := List.getElem_of_mem he'
    exact ⟨k, hk, Or.inl ⟨by omega, by omega⟩, h3⟩
  refine ⟨g, ?_, st, ps, r.ord, by simpa using r.nn, by rw [r.num, hlen], ?_, ?_, ?_, fun u hu => by
    have := r.coord u (by rw [List.length_map]; exact hu)
    rw [List.getElem_map] at this; exact this⟩
  · unfold createEuclideanGraph
    rw [euclOuter_eq c dist l [] (by simpa using hcap)]
    simpa using e
  · have main : ∀ u v, u < l.length → v < l.length → u < v → Adj g u v := by
      intro u v hu hv huv
      obtain ⟨k, hk, hj, _⟩ := hjoin u hu v hv huv
      exact ⟨k, by rw [r.num]; exact hk, by rw [r.edges k hk]; exact hj⟩
    intro u hu v hv huv
    rcases Nat.lt_or_gt_of_ne huv with h | h
    · exact main u v hu hv h
    · obtain ⟨k, hk, hj⟩ := main v u hv hu h
      exact ⟨k, hk, joins_comm.1 hj⟩
  · intro i hi j hj hij
    obtain ⟨k, hk, hjn, hw⟩ := hjoin i hi j hj hij
    have hkg : k < g.numEdges := by rw [r.num]; exact hk
    have := st.mat k hkg i j (by rw [r.edges k hk]; exact hjn)
    simp only [content, Prod.mk.injEq] at this
    rw [this.2.2.2.1, r.edges k hk]; exact hw
  · intro k hk
    rw [r.num] at hk
    rw [r.edges k hk]
    exact ⟨by have := (r3 k hk).1; simpa using this, rfl⟩

/-! ### Non-vacuity -/

example : SimpleList 3 [⟨0, 1, 1, 2, 0, 0⟩, ⟨1, 2, 3, 5, 0, 1⟩] := by
  refine ⟨by decide, ?_⟩
  simp [Sym2.eq_iff]

example : let l : List ListNode := [⟨0, 0, 0⟩, ⟨1, 3, 4⟩, ⟨2, 0, 1⟩]; ∀ i (hi : i < l.length), l[i].pos = i := by
  decide

end Verif
