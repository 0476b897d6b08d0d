import Verif.Props.Print
import Verif.Props.Reader
import Verif.Props.Search
import Verif.Props.Termination

/-!
# C57: from the file to the printed tour
-/
namespace Verif
open Verif.Spec
set_option autoImplicit false

/-- the length of the closed walk `t` with the distances `d` -/
def Spec.walkLength (d : Nat → Nat → ℚ) (t : List Nat) : ℚ := ((legs t).map fun q => d q.1 q.2).sum

/-- a matrix for the program: as many cities as it was built for, at least three and at most 362, and symmetric positive distances (in hybrid mode, also probabilities) -/
structure Spec.SolverInput (c : Cfg) (n : Nat) (w pr : Nat → Nat → ℚ) : Prop where
  size : n = c.maxV
  three : 3 ≤ n
  small : n ≤ 362
  symm : ∀ i < n, ∀ j < n, w i j = w j i
  pos : ∀ i < n, ∀ j < n, i ≠ j → 0 < w i j ∧ w i j < FLT_MAX
  prob : c.hybrid = true → ∀ i j, i < j → j < n → 0 ≤ pr i j
  eps : 0 ≤ c.eps

/-- `x` is the length of the closed walk `t` as the machine adds it up, in some order: with a rounding after every addition (in exact arithmetic it is the length) -/
structure Spec.MachineLength [Rounding] (d : Nat → Nat → ℚ) (t : List Nat) (x : ℚ) : Prop where
  sum : ∃ l : List ℚ, l.Perm ((legs t).map fun q => d q.1 q.2) ∧ x = flSum l
  exact : Exact → x = walkLength d t

variable [Rounding] {c : Cfg} {env : Env} {num : List Char → Option (ℚ × List Char)} {text : List Char} {xs : List (ℚ × ℚ)} {w pr : Nat → Nat → ℚ} {p0 : Problem}

omit [Rounding] in
theorem walk_map {n : Nat} {W : Sym2 Nat → ℚ} (hW : ∀ i < n, ∀ j < n, i ≠ j → W s(i, j) = w i j) (h3 : 3 ≤ n) {t : List Nat} (ht : IsTour n t) :
    (steps t).map W = (legs t).map fun q => w q.1 q.2 := by
  have hl : t.length = n := by rw [ht.length_eq, List.length_range]
  have hnd : t.Nodup := (ht.nodup_iff).2 List.nodup_range
  have hlt : ∀ x ∈ t, x < n := fun x hx => List.mem_range.1 (ht.mem_iff.1 hx)
  apply List.ext_getElem
  · simp [steps, legs]
  · intro i h1 h2
    have hi : i < t.length := by simp [legs] at h2; exact h2
    have hm : (i + 1) % t.length < t.length := Nat.mod_lt _ (by omega)
    rw [List.getElem_map, List.getElem_map, steps_getElem hi]
    have e : (legs t)[i]'(by simpa using h2) = (t[i], t[(i + 1) % t.length]) := by
      unfold legs
      rw [List.getElem_zip, List.getElem_rotate]
    rw [e]
    refine hW _ (hlt _ (List.getElem_mem _)) _ (hlt _ (List.getElem_mem _)) ?_
    intro e'
    have := (List.Nodup.getElem_inj_iff hnd).1 e'
    rcases Nat.lt_or_ge (i + 1) t.length with h' | h'
    · rw [Nat.mod_eq_of_lt h'] at this; omega
    · rw [show i + 1 = t.length by omega, Nat.mod_self] at this; omega

omit [Rounding] in
theorem walkLength_eq {n : Nat} {W : Sym2 Nat → ℚ} (hW : ∀ i < n, ∀ j < n, i ≠ j → W s(i, j) = w i j) (h3 : 3 ≤ n) {t : List Nat} (ht : IsTour n t) : tourCost W t = walkLength w t := by
  unfold tourCost walkLength
  rw [walk_map hW h3 ht]

theorem machineLength_of {n : Nat} {W : Sym2 Nat → ℚ} (hW : ∀ i < n, ∀ j < n, i ≠ j → W s(i, j) = w i j) (h3 : 3 ≤ n) {t : List Nat} (ht : IsTour n t) {x : ℚ}
    (h : TourLength W t x) : MachineLength w t x := by
  refine ⟨?_, fun hx => by rw [h.exact hx, walkLength_eq hW h3 ht]⟩
  obtain ⟨l, hl, hs, rfl⟩ := h.sum
  refine ⟨_, ?_, rfl⟩
  rw [← walk_map hW h3 ht]
  refine List.Perm.map W ?_
  have hnd : (steps t).Nodup := by
    cases t with
    | nil => exact List.nodup_nil
    | cons a p => exact steps_nodup ((ht.nodup_iff).2 List.nodup_range) (by have := ht.length_eq; simp at this; omega)
  rw [List.perm_ext_iff_of_nodup hl hnd]
  intro e
  rw [← List.mem_toFinset, hs]
  unfold tourEdges
  rw [List.mem_toFinset]

theorem Spec.MachineLength.nonneg {d : Nat → Nat → ℚ} {t : List Nat} {x : ℚ} (h : MachineLength d t x) (hd : ∀ q ∈ legs t, 0 ≤ d q.1 q.2) : 0 ≤ x := by
  obtain ⟨l, hl, rfl⟩ := h.sum
  refine flSum_nonneg fun y hy => ?_
  obtain ⟨q, hq, rfl⟩ := List.mem_map.1 (hl.mem_iff.1 hy)
  exact hd q hq

theorem SolverInput.ready (h : SolverInput c xs.length w pr) (hf : CsvFile num text xs w pr) (hc : p0.cand < c.maxV) :
    ∃ g, readCsv c num p0.graph text = .ok g ∧ Instance c { p0 with graph := g } ∧ ProbsAbove c { p0 with graph := g } ∧
      ∀ i < xs.length, ∀ j < xs.length, i ≠ j → weight g s(i, j) = w i j := by
  obtain ⟨g, e, hg⟩ := C48_csv_partial (c := c) (mem := p0.graph) hf (by rw [h.size]) h.small
  have hs := h.size
  obtain ⟨hI, hw⟩ := C48_instance hg hs (by rw [← hs]; exact h.three) (by rw [← hs]; exact h.symm) (by rw [← hs]; exact h.pos) (p := { p0 with graph := g }) rfl hc
  refine ⟨g, e, hI, ?_, by rw [hs]; exact hw⟩
  intro hh e he
  induction e using Sym2.ind with
  | _ u v =>
    have h1 := hI.stored.within u v he
    rw [hI.nodes, Finset.mem_range, Finset.mem_range, ← hs] at h1
    have h2 : u ≠ v := by rintro rfl; exact hI.stored.noloop _ he
    have key : ∀ a b, a < b → b < xs.length → -1 < (g.mat a b).prob := by
      intro a b hab hb
      obtain ⟨k, hk, e⟩ := List.getElem_of_mem ((mem_csvPairs (w := w) (n := xs.length) (q := (a, b))).2 ⟨hab, hb, (h.pos a (by omega) b hb (by omega)).1⟩)
      rw [(hg.matrix k hk a b e).1, hg.edge k hk, e]
      unfold csvEdge
      rw [if_pos hh]
      exact lt_of_lt_of_le (by norm_num) (h.prob hh a b hab hb)
    unfold edgeProb
    rcases Nat.lt_or_gt_of_ne h2 with h' | h'
    · simp only [Sym2.inf_mk, Sym2.sup_mk, inf_eq_left.2 h'.le, sup_eq_right.2 h'.le]
      exact key u v h' h1.2
    · simp only [Sym2.inf_mk, Sym2.sup_mk, inf_eq_right.2 h'.le, sup_eq_left.2 h'.le]
      exact key v u h' h1.1

/-- C57. Whatever the rounding, the clock and the memory, when the program returns on a matrix file, in both modes, the legs it prints are those of a tour of all the cities, and the cost it prints is the length of that tour as the machine adds it up. -/
theorem C57_tour (hf : CsvFile num text xs w pr) (h : SolverInput c xs.length w pr) (hc : p0.cand < c.maxV) {fuel : Nat} {p' : Problem} {out : List (Nat × Nat)}
    (e : mainRun c num env fuel p0 text = .ok (p', out)) : ∃ t, IsTour xs.length t ∧ out = legs t ∧ MachineLength w t p'.best.value := by
  obtain ⟨g, e1, hI, hP, hw⟩ := SolverInput.ready h hf hc
  unfold mainRun at e
  rw [e1, ok_bind] at e
  obtain ⟨⟨q, o⟩, e2, e3⟩ := bind_eq_ok.1 e
  cases e3
  have hs := h.size
  have h362 := h.small
  obtain ⟨-, ⟨t, ht⟩, -⟩ := C42_interrupted hI hP h.eps (by omega) e2
  have ht' : IsTour xs.length t := by rw [hs]; exact ht.tour
  have hl : t.length = xs.length := by rw [ht'.length_eq, List.length_range]
  refine ⟨t, ht', C53_print ht.cycle ((ht'.nodup_iff).2 List.nodup_range) (by rw [hl]; exact h.three), ?_⟩
  exact machineLength_of hw h.three ht' ht.value

/-- C57 (partial), optimality, in exact arithmetic: if the clock does not run backwards and the program reports that it was not interrupted, no tour is shorter by more than `EPSILON` than the cost it prints. Proved for 14 cities or more
with distances at most 3/2, such as cities in the unit square. Missing: for larger weights it is false (`C43_fails`). -/
theorem C57_optimal_partial (hx : Exact) (hf : CsvFile num text xs w pr) (h : SolverInput c xs.length w pr) (hc : p0.cand < c.maxV) (h14 : 14 ≤ xs.length)
    (hsq : ∀ i < xs.length, ∀ j < xs.length, i ≠ j → w i j ≤ 3 / 2) (hclk : ∀ k, env.clk k = true → env.clk (k + 1) = true) {fuel : Nat} {p' : Problem} {out : List (Nat × Nat)}
    (e : mainRun c num env fuel p0 text = .ok (p', out)) (hint : p'.interrupted = false) : ∀ t, IsTour xs.length t → p'.best.value - c.eps ≤ walkLength w t := by
  obtain ⟨g, e1, hI, hP, hw⟩ := SolverInput.ready h hf hc
  unfold mainRun at e
  rw [e1, ok_bind] at e
  obtain ⟨⟨q, o⟩, e2, e3⟩ := bind_eq_ok.1 e
  cases e3
  have hs := h.size
  have h362 := h.small
  obtain ⟨hv, -, -, k, ho, hi⟩ := C42_interrupted hI hP h.eps (by omega) e2
  have hnil : o = [] := by
    by_contra hne
    have := hclk k (ho hne)
    rw [if_neg hne, this] at hi
    simp only at hint
    rw [hint] at hi
    cases hi
  subst hnil
  intro t ht
  rw [← walkLength_eq hw h.three ht]
  simp only at hv ⊢
  rw [hv]
  refine C43_unit_square_partial hx hI hP h.eps ?_ (by omega) (by omega) e2 t (by rw [← hs]; exact ht)
  intro e he
  induction e using Sym2.ind with
  | _ u v =>
    have h1 := hI.stored.within u v he
    rw [hI.nodes, Finset.mem_range, Finset.mem_range, ← hs] at h1
    have h2 : u ≠ v := by rintro rfl; exact hI.stored.noloop _ he
    exact (hw u h1.1 v h1.2 h2).le.trans (hsq u h1.1 v h1.2 h2)

/-- C57: the program ends on every matrix file: it prints a result, or it stops at an access outside an array; there is no endless loop. -/
theorem C57_ends (hf : CsvFile num text xs w pr) (h : SolverInput c xs.length w pr) (hc : p0.cand < c.maxV) :
    ∃ r, ((∃ site, r = .error (.oobAt site) ∧ (site = .degreeList → 57 ≤ c.maxV)) ∨ ∃ p' out, r = .ok (p', out)) ∧ ∀ fuel, 3 ^ (c.maxV * c.maxV) < fuel → mainRun c num env fuel p0 text = r := by
  obtain ⟨g, e1, hI, hP, hw⟩ := SolverInput.ready h hf hc
  have hs := h.size
  have h362 := h.small
  obtain ⟨r, hr, hfuel⟩ := C44_terminates (env := env) hI hP h.eps (by omega)
  refine ⟨(r >>= fun r => pure (r.1, printCycle r.1.best)), ?_, ?_⟩
  · rcases hr with ⟨site, rfl, h57⟩ | ⟨p', o', rfl⟩
    · left; exact ⟨site, rfl, h57⟩
    · right; exact ⟨_, _, rfl⟩
  · intro fuel hf'
    unfold mainRun
    rw [e1]
    simp only [ok_bind]
    rw [hfuel fuel hf']

/-- C57, from the cities to the tour: the classic mode of the driver on cities at different places. The legs printed are those of a tour of the cities and the cost printed is its length as the machine adds it up. -/
theorem C57_classic {fmt : ℚ → List Char} {dist : ℚ × ℚ → ℚ × ℚ → ℚ} (hcl : c.hybrid = false) (hsz : xs.length = c.maxV) (h3 : 3 ≤ xs.length) (h362 : xs.length ≤ 362) (heps : 0 ≤ c.eps)
    (hz : ReadsAs num ['0'] 0) (hx : ∀ q ∈ xs, ReadsAs num (fmt q.1) q.1 ∧ ReadsAs num (fmt q.2) q.2)
    (hd : ∀ i < xs.length, ∀ j < xs.length, ReadsAs num (fmt (adjacencyMatrix dist xs i j)) (adjacencyMatrix dist xs i j))
    (hne : xs.Nodup) (hpos : ∀ a ∈ xs, ∀ b ∈ xs, a ≠ b → 0 < dist a b ∧ dist a b < FLT_MAX) (hsym : ∀ a b, dist a b = dist b a) (hc : p0.cand < c.maxV)
    {fuel : Nat} {p' : Problem} {out : List (Nat × Nat)} (e : mainRun c num env fuel p0 (classicText fmt xs (adjacencyMatrix dist xs)) = .ok (p', out)) :
    ∃ t, IsTour xs.length t ∧ out = legs t ∧ MachineLength (fun i j => dist (xs.getD i (0, 0)) (xs.getD j (0, 0))) t p'.best.value := by
  have hadj : ∀ i < xs.length, ∀ j < xs.length, i ≠ j → adjacencyMatrix dist xs i j = dist (xs.getD i (0, 0)) (xs.getD j (0, 0)) := by
    intro i _ j _ hij
    unfold adjacencyMatrix
    rcases Nat.lt_or_gt_of_ne hij with h | h
    · rw [if_pos h]
    · rw [if_neg (by omega), if_pos h, hsym]
  have hf : CsvFile num (classicText fmt xs (adjacencyMatrix dist xs)) xs (adjacencyMatrix dist xs) (fun _ _ => 0) := by
    unfold classicText
    have := csvText_file (num := num) (xs := xs) (ct := xs.map fun q => (fmt q.1, fmt q.2)) (rt := fun i j => (fmt (adjacencyMatrix dist xs i j), ['0']))
      (w := adjacencyMatrix dist xs) (pr := fun _ _ => 0) (by simp) (by
        intro i hi
        simp only [List.getElem_map]
        exact hx _ (List.getElem_mem _)) (fun i hi j hj => ⟨hd i hi j hj, hz⟩)
    rw [List.map_map] at this
    exact this
  have hin : SolverInput c xs.length (adjacencyMatrix dist xs) (fun _ _ => 0) := by
    refine ⟨hsz, h3, h362, fun i _ j _ => adjacencyMatrix_symm dist xs i j, ?_, fun h => by rw [hcl] at h; (cases h), heps⟩
    intro i hi j hj hij
    rw [hadj i hi j hj hij]
    have hget : ∀ k (hk : k < xs.length), xs.getD k (0, 0) = xs[k] := fun k hk => by simp [List.getD, hk]
    rw [hget i hi, hget j hj]
    exact hpos _ (List.getElem_mem _) _ (List.getElem_mem _) (fun h => hij ((List.Nodup.getElem_inj_iff hne).1 h))
  obtain ⟨t, ht, ho, hv⟩ := C57_tour hf hin hc e
  refine ⟨t, ht, ho, ?_⟩
  have h1 := walk_map (w := adjacencyMatrix dist xs) (W := fun e => adjacencyMatrix dist xs e.inf e.sup) (by
    intro i _ j _ _
    show adjacencyMatrix dist xs s(i, j).inf s(i, j).sup = _
    rcases Nat.le_total i j with h | h
    · simp only [Sym2.inf_mk, Sym2.sup_mk, inf_eq_left.2 h, sup_eq_right.2 h]
    · simp only [Sym2.inf_mk, Sym2.sup_mk, inf_eq_right.2 h, sup_eq_left.2 h]; exact adjacencyMatrix_symm _ _ _ _) h3 ht
  have h2 := walk_map (w := fun i j => dist (xs.getD i (0, 0)) (xs.getD j (0, 0))) (W := fun e => adjacencyMatrix dist xs e.inf e.sup) (n := xs.length) ?_ h3 ht
  · rw [h1] at h2
    obtain ⟨⟨l, hl, hs⟩, hx'⟩ := hv
    refine ⟨⟨l, by rw [← h2]; exact hl, hs⟩, fun hx => ?_⟩
    rw [hx' hx]
    unfold walkLength
    rw [h2]
  intro i hi j hj hij
  rw [← hadj i hi j hj hij]
  show adjacencyMatrix dist xs s(i, j).inf s(i, j).sup = _
  rcases Nat.le_total i j with h | h
  · simp only [Sym2.inf_mk, Sym2.sup_mk, inf_eq_left.2 h, sup_eq_right.2 h]
  · simp only [Sym2.inf_mk, Sym2.sup_mk, inf_eq_right.2 h, sup_eq_left.2 h]; exact adjacencyMatrix_symm _ _ _ _

end Verif
