import Verif.Proofs.Search3

/-!
# Properties C41 – C43, C45: the search
-/
namespace Verif
open Verif.Spec
set_option autoImplicit false

variable [Rounding] {c : Cfg} {env : Env} {p p1 : Problem} {cand : Nat}

omit [Rounding] in
/-- a complete graph is accepted -/
theorem Spec.Instance.feasible (h : Instance c p) : checkFeasibility p.graph = true := by
  rw [C46_min_degree h.stored, h.nodes]
  intro u hu
  have h3 := h.three
  obtain ⟨v, hv, w, hw, h1, h2, h4⟩ : ∃ v < c.maxV, ∃ w < c.maxV, v ≠ w ∧ u ≠ v ∧ u ≠ w := by
    rcases u with _ | _ | u
    · exact ⟨1, by omega, 2, by omega, by omega, by omega, by omega⟩
    · exact ⟨0, by omega, 2, by omega, by omega, by omega, by omega⟩
    · exact ⟨0, by omega, 1, by omega, by omega, by omega, by omega⟩
  exact ⟨v, w, h1, h.complete u hu v hv h2, h.complete u hu w hw h4⟩

/-- C41. At every point of the main loop, whatever the clock and the memory, the best value is the value recorded in the best solution, which records a tour of that length,
and no later best value is larger. -/
theorem C41_best_matches (h : Instance c p) (hp : ProbsAbove c p) (heps : 0 ≤ c.eps) (hn : c.maxV ≤ 65535)
    (e : findCandidate c env { p with bestValue := INFINITE } = .ok (p1, cand))
    {k : Nat} {p2 : Problem} {o2 m2 : List SubProblem} (hr : Run c env (bbStart p1 cand) [bbRoot c env] k p2 o2 m2) :
    p2.best.value = p2.bestValue ∧ (∃ t, Solution c.maxV (weight p.graph) p2.best t) ∧
    ∀ k3 p3 o3 m3, k ≤ k3 → Run c env (bbStart p1 cand) [bbRoot c env] k3 p3 o3 m3 → p3.bestValue ≤ p2.bestValue := by
  obtain ⟨h0, hg, -⟩ := start_inv h hp heps hn e
  have hs := SInv.run heps h0 hr
  refine ⟨hs.value, ?_, fun k3 p3 o3 m3 hk hr3 => hr3.falls heps h0 hk hr⟩
  have := hs.best
  have hgg : (bbStart p1 cand).graph = p.graph := hg
  rw [hgg] at this
  exact this

/-- C41, before the main loop: `find_candidate_node` leaves a best value that is the length of the tour it records, and at every node it only lowers the best value. -/
theorem C41_before (h : Instance c p) (hp : ProbsAbove c p) (heps : 0 ≤ c.eps) (hn : c.maxV ≤ 65535)
    (e : findCandidate c env { p with bestValue := INFINITE } = .ok (p1, cand)) :
    p1.bestValue < INFINITE ∧ p1.best.value = p1.bestValue ∧ ∃ t, Solution c.maxV (weight p.graph) p1.best t := by
  obtain ⟨h0, hg, -, hb⟩ := start_inv h hp heps hn e
  have hgg : (bbStart p1 cand).graph = p.graph := hg
  have hbest := h0.best
  rw [hgg] at hbest
  obtain ⟨t, ht⟩ := hbest
  have hv : p1.best.value = p1.bestValue := h0.value
  have hsol : Solution c.maxV (weight p.graph) p1.best t := ⟨ht.tour, ht.value, ht.cycle, ht.tree⟩
  refine ⟨?_, hv, t, hsol⟩
  rw [← hv]
  exact tourLength_lt_infinite h hn hsol.tour hsol.value

/-- C42. Whatever the clock does, when `branch_and_bound` returns on a complete graph, the best solution is a tour whose length is the best value. It is at most as long as a nearest neighbour tour
from every start node (in hybrid mode also as one that follows the most probable edges). `interrupted` is set iff the last check of the clock
said so; if subproblems are left open, the clock had said so before. -/
theorem C42_interrupted (h : Instance c p) (hp : ProbsAbove c p) (heps : 0 ≤ c.eps) (hn : c.maxV ≤ 65535)
    {fuel : Nat} {p' : Problem} {o' : List SubProblem} (e : branchAndBound c env fuel p = .ok (p', o')) :
    p'.best.value = p'.bestValue ∧ (∃ t, Solution c.maxV (weight p.graph) p'.best t) ∧ (∀ s < c.maxV, BeatsNearest c p.graph p'.bestValue s) ∧
    ∃ k, (o' ≠ [] → env.clk k = true) ∧ p'.interrupted = env.clk (if o' = [] then k else k + 1) := by
  obtain ⟨p1, cand, k, p2, made, e1, hr, hp', ho⟩ := branchAndBound_run e h.feasible
  obtain ⟨h0, hg, -, hb⟩ := start_inv h hp heps hn e1
  have hs := SInv.run heps h0 hr
  have hgg : (bbStart p1 cand).graph = p.graph := hg
  have hbest := hs.best
  rw [hgg] at hbest
  have hlow : p2.bestValue ≤ p1.bestValue := hs.lower
  have hint : p2.interrupted = false := hs.interrupted
  have hp2 : p'.best = p2.best ∧ p'.bestValue = p2.bestValue := by rw [hp']; exact ⟨rfl, rfl⟩
  rw [hp2.1, hp2.2]
  refine ⟨hs.value, hbest, fun s hs' => (hb s hs').mono hlow, k, ho, ?_⟩
  rw [hp']
  simp [hint]

/-- C43 on the machine (partial). When `branch_and_bound` ends with an empty open list, no tour is shorter than the best value by more than `EPSILON` and what rounding errors can hide: `(5 n + 6) ε`, if `ε`
bounds the error of one operation. Missing: the weights must be small for the number of nodes (`Fits`, for the best value that the nearest neighbour heuristic found). -/
theorem C43_rounding_partial (h : Instance c p) (hp : ProbsAbove c p) (heps : 0 ≤ c.eps) (hn : c.maxV ≤ 65535) {z : Scale}
    (hz : ∀ p1 cand, findCandidate c env { p with bestValue := INFINITE } = .ok (p1, cand) → Fits z c p1)
    {fuel : Nat} {p' : Problem} (e : branchAndBound c env fuel p = .ok (p', [])) :
    ∀ t, IsTour c.maxV t → p'.bestValue - c.eps - z.slack c.maxV ≤ tourCost (weight p.graph) t := by
  obtain ⟨p1, cand, k, p2, made, e1, hr, hp', ho⟩ := branchAndBound_run e h.feasible
  obtain ⟨h0, hgr, -, hb⟩ := start_inv h hp heps hn e1
  have hs := SInv.run heps h0 hr
  have hgg : (bbStart p1 cand).graph = p.graph := hgr
  have hp2 : p'.bestValue = p2.bestValue := by rw [hp']
  intro t ht
  by_contra hcon
  push Not at hcon
  obtain ⟨x, hx, -⟩ := hs.cover z ((hz p1 cand e1).mono rfl (le_refl _)) t ht (by rw [hgg, ← hp2]; exact hcon)
  cases hx

/-- C43 (partial). When `branch_and_bound` ends with an empty open list, no tour is shorter than the best value by more than `EPSILON`.
Missing: the weights must be small for the number of nodes (`Gentle`, for the best value that the nearest neighbour heuristic found). -/
theorem C43_optimal_partial (hx : Exact) (h : Instance c p) (hp : ProbsAbove c p) (heps : 0 ≤ c.eps) (hn : c.maxV ≤ 65535)
    (hg : ∀ p1 cand, findCandidate c env { p with bestValue := INFINITE } = .ok (p1, cand) → Gentle c p1)
    {fuel : Nat} {p' : Problem} (e : branchAndBound c env fuel p = .ok (p', [])) :
    ∀ t, IsTour c.maxV t → p'.bestValue - c.eps ≤ tourCost (weight p.graph) t := by
  obtain ⟨p1, cand, k, p2, made, e1, -⟩ := branchAndBound_run e h.feasible
  obtain ⟨h0, hgr, -⟩ := start_inv h hp heps hn e1
  have hz : Fits (exactScale p1) c p1 := (((hg p1 cand e1).mono (q := bbStart p1 cand) rfl (le_refl _)).fits hx h0.inst).mono rfl (le_refl _)
  have := C43_rounding_partial (z := exactScale p1) h hp heps hn (fun p1' cand' e1' => by rw [e1] at e1'; cases e1'; exact hz) e
  rw [(exactScale_zero p1 _).1] at this
  simpa using this

/-- C43 (partial), in terms of the input: it holds when every weight is at most `B`, with `B (n/4 + 15) ≤ 2 n`. -/
theorem C43_small_weights_partial (hx : Exact) (h : Instance c p) (hp : ProbsAbove c p) (heps : 0 ≤ c.eps) (hn : c.maxV ≤ 65535) {B : ℚ}
    (hw : ∀ e ∈ edgeSet p.graph, weight p.graph e ≤ B) (hB : B * ((c.maxV / 4 + 15 : Nat) : ℚ) ≤ 2 * c.maxV)
    (hF : B + c.maxV * B * (((c.maxV * c.maxV + 25) / 50 + c.maxV + 25 : Nat) : ℚ) / 2 < FLT_MAX)
    {fuel : Nat} {p' : Problem} (e : branchAndBound c env fuel p = .ok (p', [])) :
    ∀ t, IsTour c.maxV t → p'.bestValue - c.eps ≤ tourCost (weight p.graph) t := by
  refine C43_optimal_partial hx h hp heps hn ?_ e
  intro p1 cand e1
  obtain ⟨h0, hgr, -, hb⟩ := start_inv h hp heps hn e1
  have h3 := h.three
  obtain ⟨⟨t, y, ht, -, -, hlen, hle⟩, -⟩ := hb 0 (by omega)
  refine Gentle.of_weights (B := B) (by rw [hgr]; exact hw) ?_ hB hF
  rw [hlen.exact hx] at hle
  exact hle.trans (tourCost_le h3 ht fun e he => hw e (tour_mem_edges h ht e he))

/-- C43 (partial), for 14 to 10000 cities in the unit square (all distances at most 3/2 > √2). -/
theorem C43_unit_square_partial (hx : Exact) (h : Instance c p) (hp : ProbsAbove c p) (heps : 0 ≤ c.eps) (hw : ∀ e ∈ edgeSet p.graph, weight p.graph e ≤ 3 / 2)
    (h1 : 14 ≤ c.maxV) (h2 : c.maxV ≤ 10000) {fuel : Nat} {p' : Problem} (e : branchAndBound c env fuel p = .ok (p', [])) :
    ∀ t, IsTour c.maxV t → p'.bestValue - c.eps ≤ tourCost (weight p.graph) t := by
  refine C43_optimal_partial hx h hp heps (by omega) ?_ e
  intro p1 cand e1
  obtain ⟨h0, hgr, -, hb⟩ := start_inv h hp heps (by omega) e1
  have h3 := h.three
  obtain ⟨⟨t, y, ht, -, -, hlen, hle⟩, -⟩ := hb 0 (by omega)
  refine Gentle.unit_square (by rw [hgr]; exact hw) ?_ h1 h2
  rw [hlen.exact hx] at hle
  exact hle.trans (tourCost_le h3 ht fun e he => hw e (tour_mem_edges h ht e he))

/-- C45. At every point of the main loop: `generatedBBNodes` is the number of subproblems made so far, the `i`-th of which has id `i` (so the ids are distinct); the first is the root (level 1, father 0)
and every other has an earlier one as father, with the father's id as `fatherId` and the father's level plus one; `totTreeLevels` is the deepest level made; `exploredBBNodes` is at most
`generatedBBNodes`; the open subproblems have distinct ids, and each has the id, father and level of one that was made. -/
theorem C45_accounting (h : Instance c p) (hp : ProbsAbove c p) (heps : 0 ≤ c.eps) (hn : c.maxV ≤ 65535)
    (e : findCandidate c env { p with bestValue := INFINITE } = .ok (p1, cand))
    {k : Nat} {p2 : Problem} {open2 made : List SubProblem} (hr : Run c env (bbStart p1 cand) [bbRoot c env] k p2 open2 made) :
    p2.generated = made.length ∧ (∀ i (hi : i < made.length), made[i].id = i + 1) ∧
    (∃ r rest, made = r :: rest ∧ r.treeLevel = 1 ∧ r.fatherId = 0) ∧
    (∀ i (hi : i < made.length), 0 < i → ∃ j, ∃ hj : j < i, made[i].fatherId = made[j].id ∧ made[i].treeLevel = made[j].treeLevel + 1) ∧
    ((∀ x ∈ made, x.treeLevel ≤ p2.totLevels) ∧ ∃ x ∈ made, x.treeLevel = p2.totLevels) ∧
    p2.explored + open2.length ≤ p2.generated ∧
    (open2.map SubProblem.id).Nodup ∧ (∀ x ∈ open2, ∃ y ∈ made, y.id = x.id ∧ y.fatherId = x.fatherId ∧ y.treeLevel = x.treeLevel) := by
  obtain ⟨h0, hg, -⟩ := start_inv h hp heps hn e
  generalize hp0 : bbStart p1 cand = p0 at *
  generalize ho0 : [bbRoot c env] = o0 at *
  induction hr with
  | start =>
    subst hp0 ho0
    have hf : ∀ x, (initializeMatrix c x).treeLevel = x.treeLevel ∧ (initializeMatrix c x).id = x.id ∧ (initializeMatrix c x).fatherId = x.fatherId := by
      intro x; obtain ⟨m, e, -⟩ := initializeMatrix_ok c x; rw [e]; exact ⟨rfl, rfl, rfl⟩
    have hl : (bbRoot c env).treeLevel = 1 := by unfold bbRoot; rw [(hf _).1]
    have hid : (bbRoot c env).id = 1 := by unfold bbRoot; rw [(hf _).2.1]
    have hfa : (bbRoot c env).fatherId = 0 := by unfold bbRoot; rw [(hf _).2.2]
    refine ⟨rfl, ?_, ⟨_, [], rfl, hl, hfa⟩, ?_, ⟨?_, _, List.mem_singleton.2 rfl, hl⟩, ?_, by simp, fun x hx => ⟨x, hx, rfl, rfl, rfl⟩⟩
    · intro i hi
      obtain rfl : i = 0 := by simpa using hi
      simp [hid]
    · intro i hi h'
      simp at hi; omega
    · intro x hx
      rw [List.mem_singleton] at hx; subst hx; rw [hl]; exact le_refl _
    · show 0 + _ ≤ 1; simp
  | @round k p2 p3 cur rest o3 made new hr hclk er hmk ih =>
    obtain ⟨i1, i2, i3, i4, ⟨i5, i6⟩, i7, i8, i9⟩ := ih
    have hs := SInv.run heps h0 hr
    obtain ⟨hb, hed, -⟩ := hs.subs cur (by simp)
    obtain ⟨kids, v, hR, hcase⟩ := bbRound_ok hs.inst hb heps hs.value hed er
    have hlen : o3.length = kids.length + rest.length := by rw [hR.perm.length_eq, List.length_append]
    have hex := hR.explored
    have hperm := hR.perm
    rw [List.length_cons] at i7
    rw [List.map_cons, List.nodup_cons] at i8
    rcases hcase with ⟨rfl, g1, g2, -, g3⟩ | ⟨g1, g2, g3, g4, g5⟩
    · obtain rfl := g3 _ hmk
      rw [List.append_nil]
      rw [List.nil_append] at hperm
      refine ⟨by rw [g1]; exact i1, i2, i3, i4, ⟨by rw [g2]; exact i5, by rw [g2]; exact i6⟩, ?_, ?_, ?_⟩
      · rw [g1, hlen]; simp only [List.length_nil]; omega
      · exact ((hperm.map SubProblem.id).nodup_iff).2 i8.2
      · intro x hx
        exact i9 x (List.mem_cons_of_mem _ (hperm.mem_iff.1 hx))
    · obtain ⟨a, b, rfl, ha, hb', hab⟩ := g5 _ hmk
      have hpos : 0 < made.length := by
        obtain ⟨r, rest, h', -⟩ := i3; rw [h']; simp
      obtain ⟨y, hy, y1, y2, y3⟩ := i9 cur (by simp)
      obtain ⟨j, hj, rfl⟩ := List.getElem_of_mem hy
      have hget : ∀ i (hi : i < made.length) (hi' : i < (made ++ [a, b]).length), (made ++ [a, b])[i] = made[i] := fun i hi hi' => List.getElem_append_left hi
      have hga : ∀ (hi' : made.length < (made ++ [a, b]).length), (made ++ [a, b])[made.length] = a := fun _ => by
        rw [List.getElem_append_right (le_refl _)]; simp
      have hgb : ∀ (hi' : made.length + 1 < (made ++ [a, b]).length), (made ++ [a, b])[made.length + 1] = b := fun _ => by
        rw [List.getElem_append_right (by omega)]; simp
      have hle : ∀ i, i < (made ++ [a, b]).length → i < made.length ∨ i = made.length ∨ i = made.length + 1 := by
        intro i hi; rw [List.length_append] at hi; simp at hi; omega
      have hcl : cur.treeLevel ≤ p2.totLevels := by rw [← y3]; exact i5 _ hy
      have hma := hab a (by simp)
      have hmb := hab b (by simp)
      have hnl : newLevels p2 cur = max p2.totLevels (cur.treeLevel + 1) := by unfold newLevels; split <;> omega
      refine ⟨by rw [g1, i1]; simp, ?_, ?_, ?_, ⟨?_, ?_⟩, ?_, ?_, ?_⟩
      · intro i hi
        rcases hle i hi with h' | rfl | rfl
        · rw [hget i h']; exact i2 i h'
        · rw [hga, ha, i1]
        · rw [hgb, hb', i1]
      · obtain ⟨r, rest', h', h''⟩ := i3
        exact ⟨r, rest' ++ [a, b], by rw [h']; rfl, h''⟩
      · intro i hi hi0
        rcases hle i hi with h' | rfl | rfl
        · obtain ⟨j', hj', q⟩ := i4 i h' hi0
          refine ⟨j', hj', ?_⟩
          rw [hget i h', hget j' (by omega)]
          exact q
        · refine ⟨j, hj, ?_⟩
          rw [hga, hget j hj, hma.1, hma.2, y1, y3]
          exact ⟨rfl, rfl⟩
        · refine ⟨j, by omega, ?_⟩
          rw [hgb, hget j hj, hmb.1, hmb.2, y1, y3]
          exact ⟨rfl, rfl⟩
      · intro x hx
        rw [g2, hnl]
        rcases List.mem_append.1 hx with hx | hx
        · have := i5 x hx; omega
        · have := (hab x hx).2; omega
      · rw [g2, hnl]
        by_cases hmax : cur.treeLevel + 1 ≤ p2.totLevels
        · obtain ⟨x, hx, hx'⟩ := i6
          exact ⟨x, by simp [hx], by omega⟩
        · exact ⟨a, by simp, by rw [hma.2]; omega⟩
      · have := hR.two
        rw [g1, hlen]; omega
      · refine ((hperm.map SubProblem.id).nodup_iff).2 ?_
        rw [List.map_append, List.nodup_append]
        refine ⟨g4, i8.2, ?_⟩
        intro x hx y hy hxy
        obtain ⟨x', hx', rfl⟩ := List.mem_map.1 hx
        obtain ⟨y', hy', rfl⟩ := List.mem_map.1 hy
        obtain ⟨z, hz, z1, -⟩ := i9 y' (List.mem_cons_of_mem _ hy')
        obtain ⟨q, hq, rfl⟩ := List.getElem_of_mem hz
        rw [i2 q hq] at z1
        rcases g3 x' hx' with h' | h' <;> omega
      · intro x hx
        rcases List.mem_append.1 (hperm.mem_iff.1 hx) with hx | hx
        · have hcx := hR.child x hx
          have f1 := hcx.father
          have f2 := hcx.level
          simp only at f1 f2
          rcases g3 x hx with h' | h'
          · exact ⟨a, by simp, by rw [ha, h'], by rw [hma.1, f1], by rw [hma.2, f2]⟩
          · exact ⟨b, by simp, by rw [hb', h'], by rw [hmb.1, f1], by rw [hmb.2, f2]⟩
        · obtain ⟨y, hy, hy'⟩ := i9 x (List.mem_cons_of_mem _ hx)
          exact ⟨y, by simp [hy], hy'⟩

end Verif
