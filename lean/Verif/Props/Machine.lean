import Verif.Proofs.Near2

/-!
# C95: optimality with the arithmetic of the machine
-/
namespace Verif
open Verif.Spec
set_option autoImplicit false

section
variable [Rounding] {c : Cfg} {env : Env} {num : List Char → Option (ℚ × List Char)} {text : List Char} {xs : List (ℚ × ℚ)} {w pr : Nat → Nat → ℚ} {p0 : Problem}

/-- the best value that the nearest neighbour heuristic leaves is small when the weights are -/
theorem start_small {p p1 : Problem} {cand : Nat} (h : Instance c p) (hp : ProbsAbove c p) (heps : 0 ≤ c.eps) (hn : c.maxV ≤ 65535) (hw : ∀ e ∈ edgeSet p.graph, weight p.graph e ≤ 3 / 2)
    (e : findCandidate c env { p with bestValue := INFINITE } = .ok (p1, cand)) : p1.bestValue ≤ c.maxV * (3 / 2) := by
  obtain ⟨h0, hgr, -, hb⟩ := start_inv h hp heps hn e
  have h3 := h.three
  obtain ⟨⟨t, y, ht, -, -, hlen, hle⟩, -⟩ := hb 0 (by omega)
  refine hle.trans ?_
  obtain ⟨l, hl, hs, rfl⟩ := hlen.sum
  have hlen : (l.map (weight p.graph)).length = c.maxV := by
    rw [List.length_map, ← List.toFinset_card_of_nodup hl, hs, tourEdges_card h.three ht]
  have h1 := flSum_le_half (l.map (weight p.graph)) (by
    intro y hy
    obtain ⟨e, he, rfl⟩ := List.mem_map.1 hy
    exact hw e (tour_mem_edges h ht e (by rw [← hs]; simpa using he))) (by omega)
  rw [hlen] at h1
  exact h1

omit [Rounding] in
/-- what holds between any two cities holds for the legs of a tour -/
theorem legs_each {n : Nat} {Q : Nat → Nat → Prop} (hQ : ∀ i < n, ∀ j < n, i ≠ j → Q i j) (h2 : 2 ≤ n) {t : List Nat} (ht : IsTour n t) : ∀ q ∈ legs t, Q q.1 q.2 := by
  intro q hq
  have hlen : t.length = n := by rw [ht.length_eq, List.length_range]
  obtain ⟨i, hi, rfl⟩ := List.getElem_of_mem hq
  have hi' : i < t.length := by simpa [legs] using hi
  have hnd : t.Nodup := (ht.nodup_iff).2 List.nodup_range
  have e : (legs t)[i] = (t[i], t[(i + 1) % t.length]'(Nat.mod_lt _ (by omega))) := by
    simp only [legs, List.getElem_zip, List.getElem_rotate]
  rw [e]
  have hlt : ∀ x ∈ t, x < n := fun x hx => List.mem_range.1 (ht.mem_iff.1 hx)
  refine hQ _ (hlt _ (List.getElem_mem _)) _ (hlt _ (List.getElem_mem _)) ?_
  intro e'
  have := (List.Nodup.getElem_inj_iff hnd).1 e'
  rcases Nat.lt_or_ge (i + 1) t.length with h' | h'
  · rw [Nat.mod_eq_of_lt h'] at this; omega
  · rw [show i + 1 = t.length by omega, Nat.mod_self] at this; omega

/-- C95. The arithmetic of the machine: whatever the rounding, if its relative error is at most `u`, when the program reports that it was not interrupted, no tour is shorter than the cost it prints by more than
`EPSILON` and `(5 n + 6) · 5 n² N u`, where `N` is the largest number of dual steps. For 14 to 362 cities whose distances are `double`s of at most 3/2, such as cities in the unit square. -/
theorem C95_cost {u : ℚ} (hP : Precise u) (hu : u ≤ 1 / 2 ^ 52) (hf : CsvFile num text xs w pr) (h : SolverInput c xs.length w pr) (hc : p0.cand < c.maxV) (h14 : 14 ≤ xs.length) (heps : c.eps ≤ 1)
    (hsq : ∀ i < xs.length, ∀ j < xs.length, i ≠ j → w i j ≤ 3 / 2 ∧ fl (w i j) = w i j) (hclk : ∀ k, env.clk k = true → env.clk (k + 1) = true) {fuel : Nat} {p' : Problem} {out : List (Nat × Nat)}
    (e : mainRun c num env fuel p0 text = .ok (p', out)) (hint : p'.interrupted = false) :
    ∀ t, IsTour xs.length t → p'.best.value - c.eps - (5 * (xs.length : ℚ) + 6) * (u * (5 * ((xs.length : ℚ) * xs.length) * rootSteps xs.length)) ≤ walkLength w t := by
  obtain ⟨g, e1, hI, hPr, hw⟩ := SolverInput.ready h hf hc
  unfold mainRun at e
  rw [e1, ok_bind] at e
  obtain ⟨⟨q, o⟩, e2, e3⟩ := bind_eq_ok.1 e
  cases e3
  have hs := h.size
  have h362 := h.small
  obtain ⟨hv, -, -, k, ho, hi⟩ := C42_interrupted hI hPr h.eps (by omega) e2
  have hnil : o = [] := by
    by_contra hne
    have := hclk k (ho hne)
    rw [if_neg hne, this] at hi
    simp only at hint
    rw [hint] at hi
    cases hi
  subst hnil
  have hall : ∀ e ∈ edgeSet g, weight g e ≤ 3 / 2 ∧ fl (weight g e) = weight g e := by
    intro e he
    induction e using Sym2.ind with
    | _ u v =>
      have h1 := hI.stored.within u v he
      rw [hI.nodes, Finset.mem_range, Finset.mem_range, ← hs] at h1
      have h2 : u ≠ v := by rintro rfl; exact hI.stored.noloop _ he
      rw [hw u h1.1 v h1.2 h2]
      exact hsq u h1.1 v h1.2 h2
  intro t ht
  have key := C43_rounding_partial (z := squareScale c.maxV u) hI hPr h.eps (by omega) (fun p1 cand e1' => by
    obtain ⟨h0, hgr, -, hb⟩ := start_inv hI hPr h.eps (by omega) e1'
    refine squareScale_fits hP hu heps ?_ (start_small hI hPr h.eps (by omega) (fun e he => (hall e he).1) e1') (by omega) (by omega)
    rw [hgr]; exact hall) e2 t (by rw [← hs]; exact ht)
  rw [← walkLength_eq hw h.three ht]
  simp only at hv ⊢
  rw [hv, hs]
  exact key

/-- C95, the tour: the legs that the program prints are those of a tour, and no tour is shorter than it by more than `EPSILON` and `(6 n + 6) · 5 n² N u`. -/
theorem C95_tour {u : ℚ} (hP : Precise u) (hu : u ≤ 1 / 2 ^ 52) (hf : CsvFile num text xs w pr) (h : SolverInput c xs.length w pr) (hc : p0.cand < c.maxV) (h14 : 14 ≤ xs.length) (heps : c.eps ≤ 1)
    (hsq : ∀ i < xs.length, ∀ j < xs.length, i ≠ j → w i j ≤ 3 / 2 ∧ fl (w i j) = w i j) (hclk : ∀ k, env.clk k = true → env.clk (k + 1) = true) {fuel : Nat} {p' : Problem} {out : List (Nat × Nat)}
    (e : mainRun c num env fuel p0 text = .ok (p', out)) (hint : p'.interrupted = false) :
    ∃ t0, IsTour xs.length t0 ∧ out = legs t0 ∧
      ∀ t, IsTour xs.length t → walkLength w t0 ≤ walkLength w t + c.eps + (6 * (xs.length : ℚ) + 6) * (u * (5 * ((xs.length : ℚ) * xs.length) * rootSteps xs.length)) := by
  obtain ⟨t0, ht0, ho, hv⟩ := C57_tour hf h hc e
  refine ⟨t0, ht0, ho, fun t ht => ?_⟩
  have h1 := C95_cost hP hu hf h hc h14 heps hsq hclk e hint t ht
  obtain ⟨l, hl, hx⟩ := hv.sum
  have hlen : l.length = xs.length := by
    rw [hl.length_eq, List.length_map]
    simp [legs, ht0.length_eq]
  have h362 := h.small
  have h0 := legs_each (Q := fun i j => |w i j| ≤ 3 / 2) (fun i hi j hj hij => by rw [abs_of_pos (h.pos i hi j hj hij).1]; exact (hsq i hi j hj hij).1) (by omega) ht0
  have q14 : (14 : ℚ) ≤ xs.length := by exact_mod_cast h14
  have q362 : (xs.length : ℚ) ≤ 362 := by exact_mod_cast h362
  have hN : (39 : ℚ) ≤ rootSteps xs.length := by
    have : 39 ≤ rootSteps xs.length := by unfold rootSteps; omega
    exact_mod_cast this
  have hu0 : 0 ≤ u := by have := (hP 1 (le_refl _)).nonneg; linarith
  generalize (rootSteps xs.length : ℚ) = N at *
  have hsum : l.sum = walkLength w t0 := hl.sum_eq
  have hM1 : (xs.length : ℚ) * 1 ≤ 5 * ((xs.length : ℚ) * xs.length) * N := by
    have : (14 : ℚ) * 14 ≤ (xs.length : ℚ) * xs.length := by gcongr
    have b4 : 14 * (xs.length : ℚ) * N ≤ xs.length * xs.length * N := by gcongr
    have b5 : (xs.length : ℚ) * 39 ≤ xs.length * N := by gcongr
    linarith
  have hM2 : (xs.length : ℚ) * 3 ≤ 5 * ((xs.length : ℚ) * xs.length) * N := by
    have b4 : 14 * (xs.length : ℚ) * N ≤ xs.length * xs.length * N := by gcongr
    have b5 : (xs.length : ℚ) * 39 ≤ xs.length * N := by gcongr
    linarith
  have hNear := hP (5 * ((xs.length : ℚ) * xs.length) * N) (by linarith)
  generalize hMM : 5 * ((xs.length : ℚ) * xs.length) * N = M at *
  have hs := (hNear.sum (B := 3 / 2) l (by
    intro y hy
    obtain ⟨q, hq, rfl⟩ := List.mem_map.1 (hl.mem_iff.1 hy)
    exact h0 q hq) (by
      rw [hlen]
      have a1 : (xs.length : ℚ) * u ≤ 362 * (1 / 2 ^ 52) := by gcongr
      have a2 : (xs.length : ℚ) * u * M ≤ 1 / 2 * M := by
        refine mul_le_mul_of_nonneg_right (a1.trans (by norm_num)) (by linarith)
      nlinarith) (by norm_num)).1
  rw [hlen, hsum, ← hx, abs_le] at hs
  linarith [hs.1]

/-- the same with a bound for the rounding errors in numbers -/
theorem C95_numbers {u B : ℚ} (hP : Precise u) (hu : u ≤ 1 / 2 ^ 52) (hf : CsvFile num text xs w pr) (h : SolverInput c xs.length w pr) (hc : p0.cand < c.maxV) (h14 : 14 ≤ xs.length) (heps : c.eps ≤ 1)
    (hsq : ∀ i < xs.length, ∀ j < xs.length, i ≠ j → w i j ≤ 3 / 2 ∧ fl (w i j) = w i j) (hclk : ∀ k, env.clk k = true → env.clk (k + 1) = true) {fuel : Nat} {p' : Problem} {out : List (Nat × Nat)}
    {m : Nat} (hm : xs.length ≤ m) (hB : (6 * (m : ℚ) + 6) * (u * (5 * ((m : ℚ) * m) * rootSteps m)) ≤ B)
    (e : mainRun c num env fuel p0 text = .ok (p', out)) (hint : p'.interrupted = false) :
    ∃ t0, IsTour xs.length t0 ∧ out = legs t0 ∧ ∀ t, IsTour xs.length t → walkLength w t0 ≤ walkLength w t + c.eps + B := by
  obtain ⟨t0, ht0, ho, hb⟩ := C95_tour hP hu hf h hc h14 heps hsq hclk e hint
  refine ⟨t0, ht0, ho, fun t ht => (hb t ht).trans ?_⟩
  have hu0 : 0 ≤ u := by have := (hP 1 (le_refl _)).nonneg; linarith
  have h1 : rootSteps xs.length ≤ rootSteps m := by
    unfold rootSteps
    have : xs.length * xs.length ≤ m * m := Nat.mul_le_mul hm hm
    omega
  have q1 : (rootSteps xs.length : ℚ) ≤ rootSteps m := by exact_mod_cast h1
  have q2 : (xs.length : ℚ) ≤ m := by exact_mod_cast hm
  have : (6 * (xs.length : ℚ) + 6) * (u * (5 * ((xs.length : ℚ) * xs.length) * rootSteps xs.length)) ≤ (6 * (m : ℚ) + 6) * (u * (5 * ((m : ℚ) * m) * rootSteps m)) := by gcongr
  linarith

end

/-- C95, in numbers: with rounding to the nearest, if the program reports that it was not interrupted, the legs that it prints are those of a tour, and no tour is shorter than it by more than `EPSILON + 0.0005`,
for at most 100 cities by more than `EPSILON + 0.000002`. -/
theorem C95_nearest {c : Cfg} {env : Env} {num : List Char → Option (ℚ × List Char)} {text : List Char} {xs : List (ℚ × ℚ)} {w pr : Nat → Nat → ℚ} {p0 : Problem} (hf : CsvFile num text xs w pr)
    (h : SolverInput c xs.length w pr) (hc : p0.cand < c.maxV) (h14 : 14 ≤ xs.length) (heps : c.eps ≤ 1) (hsq : ∀ i < xs.length, ∀ j < xs.length, i ≠ j → w i j ≤ 3 / 2 ∧ @fl nearest (w i j) = w i j)
    (hclk : ∀ k, env.clk k = true → env.clk (k + 1) = true) {fuel : Nat} {p' : Problem} {out : List (Nat × Nat)}
    (e : @mainRun nearest c num env fuel p0 text = .ok (p', out)) (hint : p'.interrupted = false) :
    ∃ t0, IsTour xs.length t0 ∧ out = legs t0 ∧ ∀ t, IsTour xs.length t → walkLength w t0 ≤ walkLength w t + c.eps + 5 / 10 ^ 4 ∧ (xs.length ≤ 100 → walkLength w t0 ≤ walkLength w t + c.eps + 2 / 10 ^ 6) := by
  obtain ⟨t0, ht0, ho, hb⟩ := @C95_numbers nearest _ _ _ _ _ _ _ _ (1 / 2 ^ 53) (5 / 10 ^ 4) precise_machine.1 (by norm_num) hf h hc h14 heps hsq hclk _ _ _ 362 h.small (by decide +kernel) e hint
  refine ⟨t0, ht0, ho, fun t ht => ⟨hb t ht, fun h100 => ?_⟩⟩
  obtain ⟨t1, ht1, ho1, hb1⟩ := @C95_numbers nearest _ _ _ _ _ _ _ _ (1 / 2 ^ 53) (2 / 10 ^ 6) precise_machine.1 (by norm_num) hf h hc h14 heps hsq hclk _ _ _ 100 h100 (by decide +kernel) e hint
  have e1 : walkLength w t0 = walkLength w t1 := by
    unfold walkLength
    rw [← ho, ← ho1]
  rw [e1]
  exact hb1 t ht

end Verif
