import Verif.Proofs.Reader
import Verif.Proofs.CsvText
import Verif.Spec.Instance
import Verif.Props.Graph
import Verif.Proofs.Kruskal

/-!
# Properties C48 – C50, C56: the input files
-/
namespace Verif
open Verif.Spec
set_option autoImplicit false

variable [Rounding] {c : Cfg} {mem g : Graph} {num : List Char → Option (ℚ × List Char)} {text : List Char} {xs : List (ℚ × ℚ)} {w pr : Nat → Nat → ℚ}

/-- C48 (partial). On every matrix file with at most `MAX_VERTEX_NUM` and at most 362 cities, in both modes, whatever the memory held, `read_tsp_csv_file` builds the graph of the matrix.
Missing: from 363 cities on the 16-bit counters wrap (`C48_fails_from_363`). -/
theorem C48_csv_partial (hf : CsvFile num text xs w pr) (hn : xs.length ≤ c.maxV) (h362 : xs.length ≤ 362) : ∃ g, readCsv c num mem text = .ok g ∧ IsCsvGraph c mem xs w pr g :=
  readCsv_ok hf hn h362

omit [Rounding] in
theorem mem_csvPairs {n : Nat} {q : Nat × Nat} : q ∈ csvPairs w n ↔ q.1 < q.2 ∧ q.2 < n ∧ 0 < w q.1 q.2 := by
  unfold csvPairs
  rw [List.mem_flatMap]
  constructor
  · rintro ⟨i, hi, h⟩
    obtain ⟨j, hj, rfl⟩ := List.mem_map.1 h
    have := of_decide_eq_true (List.mem_filter.1 hj).2
    exact ⟨this.1, List.mem_range.1 (List.mem_filter.1 hj).1, this.2⟩
  · rintro ⟨h1, h2, h3⟩
    exact ⟨q.1, List.mem_range.2 (by omega), List.mem_map.2 ⟨q.2, List.mem_filter.2 ⟨List.mem_range.2 h2, by simp [h1, h3]⟩, rfl⟩⟩

omit [Rounding] in
theorem csvPairs_nodup (w : Nat → Nat → ℚ) (n : Nat) : (csvPairs w n).Nodup := by
  rw [← csvE_all]
  exact (cellsTo_nodup n n).filter _

theorem Spec.IsCsvGraph.joins (h : IsCsvGraph c mem xs w pr g) {u v : Nat} : Adj g u v ↔ (u, v) ∈ csvPairs w xs.length ∨ (v, u) ∈ csvPairs w xs.length := by
  unfold Adj Joins
  rw [h.edges]
  constructor
  · rintro ⟨k, hk, hj⟩
    rw [h.edge k hk] at hj
    unfold csvEdge at hj
    rcases hj with ⟨rfl, rfl⟩ | ⟨rfl, rfl⟩
    · exact Or.inl (List.getElem_mem hk)
    · exact Or.inr (List.getElem_mem hk)
  · rintro (h' | h')
    · obtain ⟨k, hk, e⟩ := List.getElem_of_mem h'
      exact ⟨k, hk, by rw [h.edge k hk, e]; exact Or.inl ⟨rfl, rfl⟩⟩
    · obtain ⟨k, hk, e⟩ := List.getElem_of_mem h'
      exact ⟨k, hk, by rw [h.edge k hk, e]; exact Or.inr ⟨rfl, rfl⟩⟩

/-- C48, for a matrix whose positive entries are symmetric: the graph structure stores a simple graph, every edge records its position, and two cities are adjacent iff their entry is positive. -/
theorem C48_stored (h : IsCsvGraph c mem xs w pr g) (hsym : ∀ i < xs.length, ∀ j < xs.length, 0 < w i j → 0 < w j i) :
    Stored g ∧ Positions g ∧ (∀ u v, Adj g u v ↔ u < xs.length ∧ v < xs.length ∧ u ≠ v ∧ 0 < w u v) ∧
    ∀ u v, u < v → v < xs.length → 0 < w u v → (g.mat u v).weight = w u v ∧ (g.mat v u).weight = w u v := by
  have hadj : ∀ u v, Adj g u v ↔ u < xs.length ∧ v < xs.length ∧ u ≠ v ∧ 0 < w u v := by
    intro u v
    rw [h.joins, mem_csvPairs, mem_csvPairs]
    simp only
    constructor
    · rintro (⟨h1, h2, h3⟩ | ⟨h1, h2, h3⟩)
      · exact ⟨by omega, h2, by omega, h3⟩
      · exact ⟨h2, by omega, by omega, hsym _ (by omega) _ h2 h3⟩
    · rintro ⟨h1, h2, h3, h4⟩
      rcases Nat.lt_or_gt_of_ne h3 with h' | h'
      · exact Or.inl ⟨h', h2, h4⟩
      · exact Or.inr ⟨h', h1, hsym _ h1 _ h2 h4⟩
  have hq : ∀ k (hk : k < (csvPairs w xs.length).length), (csvPairs w xs.length)[k].1 < (csvPairs w xs.length)[k].2 ∧ (csvPairs w xs.length)[k].2 < xs.length := by
    intro k hk
    have := mem_csvPairs.1 (List.getElem_mem hk)
    exact ⟨this.1, this.2.1⟩
  have hmat : ∀ k (hk : k < (csvPairs w xs.length).length), g.mat (csvPairs w xs.length)[k].1 (csvPairs w xs.length)[k].2 = g.edges k ∧
      g.mat (csvPairs w xs.length)[k].2 (csvPairs w xs.length)[k].1 = g.edges k := fun k hk => h.matrix k hk _ _ rfl
  refine ⟨⟨?_, ?_, ?_, ?_, ?_⟩, ?_, hadj, ?_⟩
  · intro k hk
    rw [h.edges] at hk
    rw [h.edge k hk, h.nodes]
    have := hq k hk
    unfold csvEdge; simp only; omega
  · intro a ha b hb hab
    rw [h.edges] at ha hb
    rw [h.edge a ha, h.edge b hb] at hab
    unfold csvEdge at hab
    simp only at hab
    have h1 := hq a ha
    have h2 := hq b hb
    rw [Sym2.eq_iff] at hab
    rcases hab with ⟨e1, e2⟩ | ⟨e1, e2⟩
    · exact (List.Nodup.getElem_inj_iff (csvPairs_nodup w xs.length)).1 (Prod.ext e1 e2)
    · omega
  · intro u hu
    rw [h.nodes] at hu
    rw [h.nbrs u hu]
    exact List.nodup_range.filter _
  · intro u hu v
    rw [h.nodes] at hu
    rw [h.nbrs u hu, List.mem_filter, List.mem_range, hadj]
    simp only [decide_eq_true_eq]
    constructor
    · rintro ⟨h1, h2, h3⟩; exact ⟨hu, h1, Ne.symm h2, h3⟩
    · rintro ⟨-, h1, h2, h3⟩; exact ⟨h1, Ne.symm h2, h3⟩
  · intro k hk u v hj
    rw [h.edges] at hk
    have hm := hmat k hk
    unfold Joins at hj
    rw [h.edge k hk] at hj
    unfold csvEdge at hj
    simp only at hj
    rcases hj with ⟨rfl, rfl⟩ | ⟨rfl, rfl⟩
    · rw [hm.1]
    · rw [hm.2]
  · intro k hk
    rw [h.edges] at hk
    have hm := hmat k hk
    have he := h.edge k hk
    have e1 : (g.edges k).src = (csvPairs w xs.length)[k].1 := by rw [he]; rfl
    have e2 : (g.edges k).dest = (csvPairs w xs.length)[k].2 := by rw [he]; rfl
    have e3 : (g.edges k).pos = k := by rw [he]; rfl
    rw [e1, e2, hm.1, hm.2]
    exact ⟨e3, e3, e3⟩
  · intro u v huv hv hw
    obtain ⟨k, hk, e⟩ := List.getElem_of_mem ((mem_csvPairs (w := w) (n := xs.length) (q := (u, v))).2 ⟨huv, hv, hw⟩)
    obtain ⟨h1, h2⟩ := h.matrix k hk u v e
    rw [h1, h2, h.edge k hk, e]
    exact ⟨rfl, rfl⟩

/-- C48: a matrix of `n = MAX_VERTEX_NUM` cities that is symmetric and positive off the diagonal gives the complete graph the search is built for. -/
theorem C48_instance (h : IsCsvGraph c mem xs w pr g) (hn : xs.length = c.maxV) (h3 : 3 ≤ c.maxV) (hsym : ∀ i < c.maxV, ∀ j < c.maxV, w i j = w j i)
    (hpos : ∀ i < c.maxV, ∀ j < c.maxV, i ≠ j → 0 < w i j ∧ w i j < FLT_MAX) {p : Problem} (hp : p.graph = g) (hc : p.cand < c.maxV) :
    Instance c p ∧ ∀ i < c.maxV, ∀ j < c.maxV, i ≠ j → weight p.graph s(i, j) = w i j := by
  subst hp
  obtain ⟨st, ps, hadj, hmat⟩ := C48_stored h (by rw [hn]; intro i hi j hj h'; rw [← hsym i hi j hj]; exact h')
  have hE : ∀ u v, s(u, v) ∈ edgeSet p.graph ↔ u < c.maxV ∧ v < c.maxV ∧ u ≠ v := by
    intro u v
    rw [mem_edgeSet_adj]
    rw [hadj u v, hn]
    constructor
    · rintro ⟨h1, h2, h4, -⟩; exact ⟨h1, h2, h4⟩
    · rintro ⟨h1, h2, h4⟩; exact ⟨h1, h2, h4, (hpos u h1 v h2 h4).1⟩
  have hw : ∀ i < c.maxV, ∀ j < c.maxV, i ≠ j → weight p.graph s(i, j) = w i j := by
    intro i hi j hj hij
    unfold weight
    rcases Nat.lt_or_gt_of_ne hij with h' | h'
    · have := (hmat i j h' (by omega) (hpos i hi j hj hij).1).1
      simp only [Sym2.inf_mk, Sym2.sup_mk, Nat.min_eq_left h'.le, Nat.max_eq_right h'.le, inf_eq_left.2 h'.le, sup_eq_right.2 h'.le]
      exact this
    · have := (hmat j i h' (by omega) (hpos j hj i hi (Ne.symm hij)).1).1
      simp only [Sym2.inf_mk, Sym2.sup_mk, inf_eq_right.2 h'.le, sup_eq_left.2 h'.le]
      rw [this, hsym j hj i hi]
  refine ⟨⟨st, ps, by rw [h.nodes, hn], ?_, h3, hc, fun i hi => (h.cities i (by omega)).1, fun u hu v hv huv => (hE u v).2 ⟨hu, hv, huv⟩, ?_, ?_⟩, hw⟩
  · rw [h.edges, ← csvE_all]
    have := csvE_length (w := w) (n := xs.length) (cellsTo_nodup xs.length xs.length) (fun q hq => mem_cellsTo.1 hq)
    unfold Cfg.maxE
    rw [Nat.le_div_iff_mul_le (by omega), ← hn]
    omega
  · intro e he
    induction e using Sym2.ind with
    | _ u v =>
      obtain ⟨h1, h2, h4⟩ := (hE u v).1 he
      rw [hw u h1 v h2 h4]; exact (hpos u h1 v h2 h4).1.le
  · intro e he
    induction e using Sym2.ind with
    | _ u v =>
      obtain ⟨h1, h2, h4⟩ := (hE u v).1 he
      rw [hw u h1 v h2 h4]; exact (hpos u h1 v h2 h4).2

theorem csvLine_small : ∀ (ls : List (List Char)) (s s' : Graph × Nat × Nat), forList (csvLine c num) ls s = .ok s' → s.1.numEdges < 65536 → s'.1.numEdges < 65536 := by
  have hcell : ∀ (i : Nat) (ts : List (List Char)) (s s' : Graph × Nat × Nat), forList (csvCell c num i) ts s = .ok s' → s.1.numEdges < 65536 → s'.1.numEdges < 65536 := by
    intro i ts
    induction ts with
    | nil => intro s s' e h; cases e; exact h
    | cons t ts ih =>
      intro s s' e h
      obtain ⟨s1, e1, e2⟩ := bind_eq_ok.1 e
      refine ih s1 s' e2 ?_
      unfold csvCell at e1
      simp only at e1
      split at e1
      · split at e1
        · cases e1
        · split at e1
          · split at e1
            · cases e1
            · split at e1
              · split at e1
                · cases e1
                · cases e1; exact Nat.mod_lt _ (by omega)
              · cases e1; exact h
          · cases e1; exact h
      · cases e1; exact h
  intro ls
  induction ls with
  | nil => intro s s' e h; cases e; exact h
  | cons l ls ih =>
    intro s s' e h
    obtain ⟨s1, e1, e2⟩ := bind_eq_ok.1 e
    refine ih s1 s' e2 ?_
    unfold csvLine at e1
    obtain ⟨r, e3, e4⟩ := bind_eq_ok.1 e1
    cases e4
    exact hcell _ _ _ r e3 h

/-- The property C48 fails for every file with 363 cities or more and positive distances: the number of edges is kept in 16 bits, and the graph would need at least 65703 of them. -/
theorem C48_fails_from_363 (h363 : 363 ≤ xs.length) (hpos : ∀ i < xs.length, ∀ j < xs.length, i ≠ j → 0 < w i j) (e : readCsv c num mem text = .ok g) : ¬ IsCsvGraph c mem xs w pr g := by
  intro h
  have hsmall : g.numEdges < 65536 := by
    unfold readCsv at e
    simp only at e
    split at e
    · cases e; norm_num
    · obtain ⟨r, e1, e⟩ := bind_eq_ok.1 e
      obtain ⟨s, e2, e⟩ := bind_eq_ok.1 e
      cases e
      refine csvLine_small _ _ _ e2 ?_
      have : ∀ (ts : List (List Char)) (a b : Graph × Nat), forList (csvCity c num) ts a = .ok b → b.1.numEdges = a.1.numEdges := by
        intro ts
        induction ts with
        | nil => intro a b e; cases e; rfl
        | cons t ts ih =>
          intro a b e
          obtain ⟨s1, e3, e4⟩ := bind_eq_ok.1 e
          rw [ih s1 b e4]
          unfold csvCity at e3
          split at e3
          · cases e3
          · split at e3
            · cases e3
            · cases e3; rfl
      rw [this _ _ _ e1]; norm_num
  rw [h.edges] at hsmall
  have hsub : ((Finset.range xs.length ×ˢ Finset.range xs.length).filter fun q => q.1 < q.2) ⊆ (csvPairs w xs.length).toFinset := by
    intro q hq
    rw [Finset.mem_filter, Finset.mem_product, Finset.mem_range, Finset.mem_range] at hq
    rw [List.mem_toFinset, mem_csvPairs]
    exact ⟨hq.2, by omega, hpos _ (by omega) _ (by omega) (by omega)⟩
  have h1 := Finset.card_le_card hsub
  rw [List.toFinset_card_of_nodup (csvPairs_nodup w xs.length)] at h1
  have h2 : ∀ n, 2 * ((Finset.range n ×ˢ Finset.range n).filter fun q => q.1 < q.2).card = n * (n - 1) := by
    intro n
    have hd : Disjoint ((Finset.range n ×ˢ Finset.range n).filter fun q => q.1 < q.2) (((Finset.range n ×ˢ Finset.range n).filter fun q => q.1 < q.2).image Prod.swap) := by
      rw [Finset.disjoint_left]
      intro q hq hq'
      obtain ⟨r, hr, rfl⟩ := Finset.mem_image.1 hq'
      simp only [Finset.mem_filter, Prod.fst_swap, Prod.snd_swap] at hq hr
      omega
    have hu : ((Finset.range n ×ˢ Finset.range n).filter fun q => q.1 < q.2) ∪ (((Finset.range n ×ˢ Finset.range n).filter fun q => q.1 < q.2).image Prod.swap) = (Finset.range n).offDiag := by
      ext q
      rw [Finset.mem_union, Finset.mem_offDiag, Finset.mem_filter, Finset.mem_product, Finset.mem_image]
      constructor
      · rintro (⟨⟨h1, h2⟩, h3⟩ | ⟨r, hr, rfl⟩)
        · exact ⟨h1, h2, by omega⟩
        · rw [Finset.mem_filter, Finset.mem_product] at hr
          exact ⟨hr.1.2, hr.1.1, by simp only [Prod.fst_swap, Prod.snd_swap]; omega⟩
      · rintro ⟨h1, h2, h3⟩
        rcases Nat.lt_or_gt_of_ne h3 with h' | h'
        · exact Or.inl ⟨⟨h1, h2⟩, h'⟩
        · exact Or.inr ⟨q.swap, by rw [Finset.mem_filter, Finset.mem_product]; exact ⟨⟨h2, h1⟩, h'⟩, Prod.swap_swap q⟩
    have := Finset.card_union_of_disjoint hd
    rw [hu, Finset.offDiag_card, Finset.card_image_of_injective _ Prod.swap_injective, Finset.card_range] at this
    rw [Nat.mul_sub, Nat.mul_one]
    omega
  have h3 := h2 xs.length
  have h4 := Nat.mul_le_mul h363 (Nat.sub_le_sub_right h363 1)
  omega

/-! ### C49 -/

omit [Rounding] in
theorem adjacencyMatrix_symm (dist : ℚ × ℚ → ℚ × ℚ → ℚ) (xs : List (ℚ × ℚ)) (i j : Nat) : adjacencyMatrix dist xs i j = adjacencyMatrix dist xs j i := by
  unfold adjacencyMatrix
  rcases Nat.lt_trichotomy i j with h | rfl | h
  · rw [if_pos h, if_neg (by omega), if_pos h]
  · rfl
  · rw [if_neg (by omega), if_pos h, if_pos h]

/-- C49. What the driver writes in classic mode is what the C program reads: the number of cities, their coordinates and, for every pair, its distance, in both directions (the memory of the problem
is static, so zero where no edge is written: coincident cities have the distance 0 but no edge). For every distance function, every number format that the C library reads back exactly,
and up to 362 cities. -/
theorem C49_classic {fmt : ℚ → List Char} {dist : ℚ × ℚ → ℚ × ℚ → ℚ} (hn : xs.length ≤ c.maxV) (h362 : xs.length ≤ 362)
    (hz : ReadsAs num ['0'] 0) (hx : ∀ q ∈ xs, ReadsAs num (fmt q.1) q.1 ∧ ReadsAs num (fmt q.2) q.2)
    (ha : ∀ i < xs.length, ∀ j < xs.length, ReadsAs num (fmt (adjacencyMatrix dist xs i j)) (adjacencyMatrix dist xs i j))
    (hd : ∀ i < xs.length, ∀ j < xs.length, 0 ≤ adjacencyMatrix dist xs i j) (hmem : ∀ u v, (mem.mat u v).weight = 0) :
    ∃ g, readCsv c num mem (classicText fmt xs (adjacencyMatrix dist xs)) = .ok g ∧ g.numNodes = xs.length ∧
      (∀ i (hi : i < xs.length), (g.nodes i).x = xs[i].1 ∧ (g.nodes i).y = xs[i].2) ∧
      (∀ i < xs.length, ∀ j < xs.length, i ≠ j → (g.mat i j).weight = adjacencyMatrix dist xs i j) ∧
      (∀ i j, Adj g i j ↔ i < xs.length ∧ j < xs.length ∧ i ≠ j ∧ adjacencyMatrix dist xs i j ≠ 0) ∧
      Stored g ∧ Positions g ∧ ∀ k < g.numEdges, (g.edges k).prob = 0 := by
  have hf : CsvFile num (classicText fmt xs (adjacencyMatrix dist xs)) xs (adjacencyMatrix dist xs) (fun _ _ => 0) := by
    unfold classicText
    have := csvText_file (num := num) (xs := xs) (ct := xs.map fun q => (fmt q.1, fmt q.2)) (rt := fun i j => (fmt (adjacencyMatrix dist xs i j), ['0']))
      (w := adjacencyMatrix dist xs) (pr := fun _ _ => 0) (by simp) (by
        intro i hi
        simp only [List.getElem_map]
        exact hx _ (List.getElem_mem _)) (fun i hi j hj => ⟨ha i hi j hj, hz⟩)
    rw [List.map_map] at this
    exact this
  obtain ⟨g, e, hg⟩ := C48_csv_partial (mem := mem) hf hn h362
  obtain ⟨st, ps, hadj, hmat⟩ := C48_stored hg (fun i hi j hj h => by rw [adjacencyMatrix_symm]; exact h)
  refine ⟨g, e, hg.nodes, fun i hi => (hg.cities i hi).2, ?_, ?_, st, ps, ?_⟩
  · intro i hi j hj hij
    rcases (hd i hi j hj).lt_or_eq with h | h
    · rcases Nat.lt_or_gt_of_ne hij with h' | h'
      · exact (hmat i j h' hj h).1
      · rw [adjacencyMatrix_symm] at h ⊢
        exact (hmat j i h' hi h).2
    · rw [← h, hg.other i j, hmem]
      · rw [mem_csvPairs]; rintro ⟨-, -, h'⟩; simp only at h'; rw [← h] at h'; exact lt_irrefl _ h'
      · rw [mem_csvPairs]; rintro ⟨-, -, h'⟩; simp only at h'; rw [adjacencyMatrix_symm, ← h] at h'; exact lt_irrefl _ h'
  · intro i j
    rw [hadj]
    constructor
    · rintro ⟨h1, h2, h3, h4⟩; exact ⟨h1, h2, h3, h4.ne'⟩
    · rintro ⟨h1, h2, h3, h4⟩; exact ⟨h1, h2, h3, lt_of_le_of_ne (hd i h1 j h2) (Ne.symm h4)⟩
  · intro k hk
    rw [hg.edges] at hk
    rw [hg.edge k hk]
    unfold csvEdge
    simp

/-- C49, hybrid mode: when the instance has the size of the model, the file that the network driver writes gives back the cities, the distances and the probabilities (those of the upper triangle). -/
theorem C49_hybrid {fmt : ℚ → List Char} {s : Nat → Nat → List Char × List Char} (hh : c.hybrid = true) (hn : xs.length ≤ c.maxV) (h362 : xs.length ≤ 362)
    (hx : ∀ q ∈ xs, ReadsAs num (fmt q.1) q.1 ∧ ReadsAs num (fmt q.2) q.2)
    (hs : ∀ i < xs.length, ∀ j < xs.length, ReadsAs num (s i j).1 (w i j) ∧ ReadsAs num (s i j).2 (pr i j))
    (hsym : ∀ i < xs.length, ∀ j < xs.length, 0 < w i j → 0 < w j i) :
    ∃ g, readCsv c num mem (hybridText fmt xs s) = .ok g ∧ g.numNodes = xs.length ∧
      (∀ i (hi : i < xs.length), (g.nodes i).x = xs[i].1 ∧ (g.nodes i).y = xs[i].2) ∧
      (∀ i j, Adj g i j ↔ i < xs.length ∧ j < xs.length ∧ i ≠ j ∧ 0 < w i j) ∧
      (∀ i j, i < j → j < xs.length → 0 < w i j → (g.mat i j).weight = w i j ∧ (g.mat j i).weight = w i j ∧ (g.mat i j).prob = pr i j ∧ (g.mat j i).prob = pr i j) ∧
      Stored g ∧ Positions g := by
  have hf : CsvFile num (hybridText fmt xs s) xs w pr := by
    unfold hybridText
    have := csvText_file (num := num) (xs := xs) (ct := xs.map fun q => (fmt q.1, fmt q.2)) (rt := s) (w := w) (pr := pr) (by simp) (by
        intro i hi
        simp only [List.getElem_map]
        exact hx _ (List.getElem_mem _)) hs
    rw [List.map_map] at this
    exact this
  obtain ⟨g, e, hg⟩ := C48_csv_partial (mem := mem) hf hn h362
  obtain ⟨st, ps, hadj, hmat⟩ := C48_stored hg hsym
  refine ⟨g, e, hg.nodes, fun i hi => (hg.cities i hi).2, hadj, ?_, st, ps⟩
  intro i j hij hj hw
  obtain ⟨h1, h2⟩ := hmat i j hij hj hw
  refine ⟨h1, h2, ?_⟩
  obtain ⟨k, hk, e⟩ := List.getElem_of_mem ((mem_csvPairs (w := w) (n := xs.length) (q := (i, j))).2 ⟨hij, hj, hw⟩)
  obtain ⟨h3, h4⟩ := hg.matrix k hk i j e
  rw [h3, h4, hg.edge k hk, e]
  unfold csvEdge
  rw [if_pos hh]
  exact ⟨rfl, rfl⟩

end Verif
