import Verif.Proofs.Search2

/-!
# The invariant of the main loop
-/
namespace Verif
open Verif.Spec
set_option autoImplicit false

variable [Rounding] {c : Cfg} {env : Env}

omit [Rounding] in
theorem Spec.Gentle.mono {p q : Problem} (h : Gentle c p) (hg : q.graph = p.graph) (hle : q.bestValue ≤ p.bestValue) : Gentle c q := by
  constructor
  · exact (mul_le_mul_of_nonneg_right hle (by positivity)).trans h.low
  · intro e he
    rw [hg] at he ⊢
    have h1 := h.high e he
    have h2 := mul_le_mul_of_nonneg_right hle (by positivity : (0 : ℚ) ≤ (((c.maxV * c.maxV + 25) / 50 + c.maxV + 25 : Nat) : ℚ))
    linarith

/-- the invariant, for a loop that started with problem `p0` -/
structure SInv (c : Cfg) (p0 p : Problem) (o : List SubProblem) : Prop where
  inst : Instance c p
  graph : p.graph = p0.graph
  interrupted : p.interrupted = p0.interrupted
  value : p.best.value = p.bestValue
  best : ∃ t, Solution c.maxV (weight p0.graph) p.best t
  lower : p.bestValue ≤ p0.bestValue
  subs : ∀ x ∈ o, Bookkeeping c.maxV x ∧ x.edgeToBranch = -1 ∧ RootFree c.maxV x ∧ x.type = .opened ∧ 1 ≤ x.treeLevel
  vals : ∀ z, Fits z c p0 → ∀ x ∈ o, ValidUpTo z c p x
  cover : ∀ z, Fits z c p0 → ∀ t, IsTour c.maxV t → tourCost (weight p0.graph) t < p.bestValue - c.eps - z.slack c.maxV → ∃ x ∈ o, AllowedBy c.maxV x.cons t

theorem SInv.round {k : Nat} {p0 p p' : Problem} {cur : SubProblem} {rest o' : List SubProblem} (heps : 0 ≤ c.eps) (h : SInv c p0 p (cur :: rest))
    (e : bbRound c env k p cur rest = .ok (p', o')) : SInv c p0 p' o' ∧ p'.bestValue ≤ p.bestValue := by
  obtain ⟨hb, hed, hrf, hty, hl⟩ := h.subs cur (by simp)
  obtain ⟨kids, v, hR, -⟩ := bbRound_ok h.inst hb heps h.value hed e
  have hle : p'.bestValue ≤ p.bestValue := by
    rcases hR.best with ⟨h1, -⟩ | ⟨h1, -⟩
    · exact h1.le
    · have := pos_of_fl (lt_of_le_of_lt heps h1)
      linarith
  have hgr : p'.graph = p0.graph := hR.graph.trans h.graph
  have hmem : ∀ x, x ∈ o' ↔ x ∈ kids ∨ x ∈ rest := fun x => by rw [hR.perm.mem_iff, List.mem_append]
  have htame : ∀ z, Fits z c p0 → Tame z c p cur (maxIter c cur.treeLevel) := fun z hg => (hg.mono h.graph h.lower).tame hb hrf
  refine ⟨⟨h.inst.of_graph hR.graph (by rw [hR.cand]; exact h.inst.cand), hgr, hR.interrupted.trans h.interrupted, ?_, ?_, hle.trans h.lower, ?_, ?_, ?_⟩, hle⟩
  · rcases hR.best with ⟨h1, h2⟩ | ⟨-, h2, -⟩
    · rw [h1, h2]; exact h.value
    · exact h2
  · rcases hR.best with ⟨-, h2⟩ | ⟨-, -, t, ht⟩
    · rw [h2]; exact h.best
    · exact ⟨t, by rw [← h.graph]; exact ht⟩
  · intro x hx
    rcases (hmem x).1 hx with hx | hx
    · have hc := hR.child x hx
      have hlev := hc.level
      simp only at hlev
      exact ⟨hc.book, hc.edge, fun h' => by omega, hc.type, by omega⟩
    · exact h.subs x (by simp [hx])
  · intro z hz x hx
    rcases (hmem x).1 hx with hx | hx
    · intro _ t ht hlt
      rw [hR.graph] at hlt ⊢
      exact hR.values z (htame z hz) x hx t ht (lt_of_lt_of_le hlt (by linarith))
    · intro hl t ht hlt
      rw [hR.graph] at hlt ⊢
      exact h.vals z hz x (by simp [hx]) hl t ht (lt_of_lt_of_le hlt (by linarith))
  · intro z hz t ht hlt
    obtain ⟨x, hx, hxt⟩ := h.cover z hz t ht (by linarith)
    rcases List.mem_cons.1 hx with rfl | hx
    · obtain ⟨y, hy, hyt⟩ := hR.covers z (htame z hz) (h.vals z hz x (by simp)) t hxt (by rw [h.graph]; exact hlt)
      exact ⟨y, (hmem y).2 (Or.inl hy), hyt⟩
    · exact ⟨x, (hmem x).2 (Or.inr hx), hxt⟩

theorem SInv.run {p0 : Problem} {o0 : List SubProblem} (heps : 0 ≤ c.eps) (h0 : SInv c p0 p0 o0) {k : Nat} {p : Problem} {o made : List SubProblem}
    (h : Run c env p0 o0 k p o made) : SInv c p0 p o := by
  induction h with
  | start => exact h0
  | round h hclk e hn ih => exact (ih.round heps e).1

/-- the run is deterministic -/
theorem Spec.Run.det {p0 : Problem} {o0 : List SubProblem} {k : Nat} {p : Problem} {o made : List SubProblem} (h : Run c env p0 o0 k p o made) :
    ∀ {p' : Problem} {o' made' : List SubProblem}, Run c env p0 o0 k p' o' made' → p' = p ∧ o' = o := by
  induction h with
  | start => intro p' o' made' h'; cases h'; exact ⟨rfl, rfl⟩
  | round h hclk e hn ih =>
    intro p' o' made' h'
    cases h' with
    | round h2 hclk2 e2 hn2 =>
      obtain ⟨rfl, h3⟩ := ih h2
      cases h3
      rw [e] at e2; cases e2
      exact ⟨rfl, rfl⟩

/-- the best value falls along the run -/
theorem Spec.Run.falls {p0 : Problem} {o0 : List SubProblem} (heps : 0 ≤ c.eps) (h0 : SInv c p0 p0 o0) {k : Nat} {p : Problem} {o made : List SubProblem}
    (h : Run c env p0 o0 k p o made) : ∀ {k' : Nat} {p' : Problem} {o' made' : List SubProblem}, k' ≤ k → Run c env p0 o0 k' p' o' made' → p.bestValue ≤ p'.bestValue := by
  induction h with
  | start => intro k' p' o' made' hk h'; obtain rfl : k' = 0 := by omega
             obtain ⟨rfl, -⟩ := Run.det Run.start h'; exact le_refl _
  | @round k p1 p2 cur rest o2 made new h hclk e hn ih =>
    intro k' p' o' made' hk h'
    rcases Nat.lt_or_ge k' (k + 1) with hlt | hge
    · exact (((SInv.run heps h0 h).round heps e).2).trans (ih (by omega) h')
    · obtain rfl : k' = k + 1 := by omega
      obtain ⟨rfl, -⟩ := Run.det (Run.round h hclk e hn) h'
      exact le_refl _

omit [Rounding] in
theorem tourCost_le (h3 : 3 ≤ c.maxV) {w : Sym2 Nat → ℚ} {B : ℚ} {t : List Nat} (ht : IsTour c.maxV t) (hB : ∀ e ∈ tourEdges t, w e ≤ B) :
    tourCost w t ≤ c.maxV * B := by
  rw [ht.cost h3]
  have := Finset.sum_le_card_nsmul (tourEdges t) w B hB
  rw [tourEdges_card h3 ht, nsmul_eq_mul] at this
  exact this

omit [Rounding] in
theorem tour_mem_edges {p : Problem} (h : Instance c p) {t : List Nat} (ht : IsTour c.maxV t) : ∀ e ∈ tourEdges t, e ∈ edgeSet p.graph := by
  intro e he
  have hs := ht.set h.three
  induction e using Sym2.ind with
  | _ u v =>
    have := hs.within u v he
    refine h.complete u (Finset.mem_range.1 this.1) v (Finset.mem_range.1 this.2) ?_
    rintro rfl; exact hs.loopless u he

omit [Rounding] in
theorem flt_times : (65535 : ℚ) * FLT_MAX < INFINITE := by decide +kernel

theorem flt_multiple (k : Nat) (hk : k ≤ 65535) : fl ((k : ℚ) * FLT_MAX) = k * FLT_MAX := by
  have h1 : |((k : ℤ) * (2 ^ 24 - 1))| ≤ 2 ^ 53 := by
    have hk' : (k : ℤ) ≤ 65535 := by exact_mod_cast hk
    have hk0 : (0 : ℤ) ≤ k := by positivity
    rw [abs_of_nonneg (mul_nonneg hk0 (by norm_num))]
    norm_num
    omega
  have h5 : (((k : ℤ) * (2 ^ 24 - 1) : ℤ) : ℚ) * 2 ^ (104 : ℤ) = (k : ℚ) * FLT_MAX := by
    have h6 : FLT_MAX = (2 ^ 24 - 1) * 2 ^ (104 : ℤ) := by decide +kernel
    rw [h6, Int.cast_mul, mul_assoc]
    congr 1
    push_cast
    norm_num
  rw [← h5]
  exact Rounding.exact _ 104 h1 (by norm_num)

theorem flSum_le_flt (l : List ℚ) (h : ∀ x ∈ l, x ≤ FLT_MAX) (hn : l.length ≤ 65535) : flSum l ≤ l.length * FLT_MAX := by
  induction l using List.reverseRecOn with
  | nil => simp
  | append_singleton l x ih =>
    rw [flSum_append]
    rw [List.length_append, List.length_singleton] at hn ⊢
    have h1 := ih (fun y hy => h y (by simp [hy])) (by omega)
    have h2 := h x (by simp)
    have h3 : flSum l + x ≤ ((l.length + 1 : Nat) : ℚ) * FLT_MAX := by push_cast; linarith
    refine (fl_mono h3).trans (le_of_eq ?_)
    exact flt_multiple (l.length + 1) hn

theorem tourLength_lt_infinite {p : Problem} (h : Instance c p) (hn : c.maxV ≤ 65535) {t : List Nat} {x : ℚ} (ht : IsTour c.maxV t) (hx : TourLength (weight p.graph) t x) : x < INFINITE := by
  obtain ⟨l, hl, hs, rfl⟩ := hx.sum
  have hlen : (l.map (weight p.graph)).length = c.maxV := by
    rw [List.length_map, ← List.toFinset_card_of_nodup hl, hs, tourEdges_card h.three ht]
  have h1 := flSum_le_flt (l.map (weight p.graph)) (by
    intro y hy
    obtain ⟨e, he, rfl⟩ := List.mem_map.1 hy
    exact (h.small e (tour_mem_edges h ht e (by rw [← hs]; simpa using he))).le) (by omega)
  rw [hlen] at h1
  have h2 : (c.maxV : ℚ) ≤ 65535 := by exact_mod_cast hn
  have h3 : (0 : ℚ) ≤ FLT_MAX := by decide +kernel
  exact lt_of_le_of_lt (h1.trans (mul_le_mul_of_nonneg_right h2 h3)) flt_times

omit [Rounding] in
theorem tourCost_lt_infinite {p : Problem} (h : Instance c p) (hn : c.maxV ≤ 65535) {t : List Nat} (ht : IsTour c.maxV t) : tourCost (weight p.graph) t < INFINITE := by
  have h1 := tourCost_le h.three ht (w := weight p.graph) (B := FLT_MAX) (fun e he => (h.small e (tour_mem_edges h ht e he)).le)
  have h2 : (c.maxV : ℚ) ≤ 65535 := by exact_mod_cast hn
  have h3 : (0 : ℚ) ≤ FLT_MAX := by decide +kernel
  exact lt_of_le_of_lt (h1.trans (mul_le_mul_of_nonneg_right h2 h3)) flt_times

omit [Rounding] in
theorem root_free (h3 : 3 ≤ c.maxV) (t : List Nat) (ht : IsTour c.maxV t) : AllowedBy c.maxV (bbRoot c env).cons t := by
  unfold bbRoot
  generalize ({ env.root with treeLevel := 1, id := 1, fatherId := 0, type := .opened, prob := 0, value := INFINITE, numCycle := 0, edgeToBranch := -1 } : SubProblem) = sp
  obtain ⟨m, e, hm⟩ := initializeMatrix_ok c sp
  rw [e]
  refine ⟨ht, fun u hu v hv huv => ?_⟩
  simp only
  rw [hm u hu v hv, if_neg huv]
  simp

/-- the state in which the main loop starts -/
theorem start_inv {p p1 : Problem} {cand : Nat} (h : Instance c p) (hp : ProbsAbove c p) (heps : 0 ≤ c.eps) (hn : c.maxV ≤ 65535)
    (e : findCandidate c env { p with bestValue := INFINITE } = .ok (p1, cand)) :
    SInv c (bbStart p1 cand) (bbStart p1 cand) [bbRoot c env] ∧ p1.graph = p.graph ∧ cand < c.maxV ∧ (∀ s < c.maxV, BeatsNearest c p.graph p1.bestValue s) := by
  have hI : Instance c { p with bestValue := INFINITE } := h.of_graph rfl h.cand
  have hp' : ProbsAbove c { p with bestValue := INFINITE } := hp
  obtain ⟨v, q, hs⟩ := findCandidate_ok hI hp' heps e
  have hfr := hs.frame
  simp only at hfr
  have hg : p1.graph = p.graph := by rw [hfr]
  have h3 := h.three
  have hc : cand < c.maxV := by
    rcases hs.chosen with ⟨h1, -⟩ | ⟨h1, -⟩
    · simp only at h1; omega
    · exact h1
  have hnear := hs.near
  simp only at hnear
  have hbest : p1.best.value = p1.bestValue ∧ ∃ t, Solution c.maxV (weight p.graph) p1.best t := by
    rcases hs.best with ⟨h1, -⟩ | h1
    · obtain ⟨⟨t, y, ht, -, -, hlen, hle⟩, -⟩ := hnear 0 (by omega)
      have := tourLength_lt_infinite h hn ht hlen
      simp only at h1
      rw [h1] at hle
      exact absurd hle (not_le.2 this)
    · exact h1
  have hroot : Made c (bbRoot c env) := Made.root _
  have hrf : ∀ x, (initializeMatrix c x).treeLevel = x.treeLevel ∧ (initializeMatrix c x).edgeToBranch = x.edgeToBranch ∧ (initializeMatrix c x).type = x.type := by
    intro x; obtain ⟨m, e, -⟩ := initializeMatrix_ok c x; rw [e]; exact ⟨rfl, rfl, rfl⟩
  refine ⟨⟨h.of_graph hg hc, rfl, rfl, hbest.1, ?_, le_refl _, ?_, ?_, ?_⟩, hg, hc, hnear⟩
  · obtain ⟨t, ht⟩ := hbest.2
    refine ⟨t, ?_⟩
    show Solution c.maxV (weight p1.graph) _ t
    rw [hg]
    exact ⟨ht.tour, ht.value, ht.cycle, ht.tree⟩
  · intro x hx
    rw [List.mem_singleton] at hx; subst hx
    refine ⟨C34_bookkeeping_partial hroot, (hrf _).2.1, ?_, (hrf _).2.2, ?_⟩
    · intro _ u hu v hv
      unfold bbRoot
      obtain ⟨m, e, hm⟩ := initializeMatrix_ok c { env.root with treeLevel := 1, id := 1, fatherId := 0, type := .opened, prob := 0, value := INFINITE, numCycle := 0, edgeToBranch := -1 }
      rw [e]
      simp only
      rw [hm u hu v hv]
      split <;> simp
    · unfold bbRoot; rw [(hrf _).1]
  · intro _ _ x hx
    rw [List.mem_singleton] at hx; subst hx
    intro h'
    unfold bbRoot at h'
    rw [(hrf _).1] at h'
    exact absurd rfl h'
  · intro _ _ t ht _
    exact ⟨_, List.mem_singleton.2 rfl, root_free h3 t ht⟩

/-- the result of `branch_and_bound` -/
theorem branchAndBound_run {fuel : Nat} {p p' : Problem} {o' : List SubProblem} (e : branchAndBound c env fuel p = .ok (p', o')) (hf : checkFeasibility p.graph = true) :
    ∃ p1 cand k p2 made, findCandidate c env { p with bestValue := INFINITE } = .ok (p1, cand) ∧ Run c env (bbStart p1 cand) [bbRoot c env] k p2 o' made ∧
      p' = { p2 with interrupted := env.clk (if o' = [] then k else k + 1) || p2.interrupted } ∧ (o' ≠ [] → env.clk k = true) := by
  unfold branchAndBound at e
  rw [if_pos hf] at e
  obtain ⟨⟨p1, cand⟩, e1, e⟩ := bind_eq_ok.1 e
  obtain ⟨⟨p2, o2, k⟩, e2, e⟩ := bind_eq_ok.1 e
  cases e
  obtain ⟨j, made, hr, hk⟩ := bbLoop_run _ _ _ _ _ _ _ _ Run.start e2
  refine ⟨p1, cand, j, p2, made, e1, hr, ?_, ?_⟩
  · rcases hk with ⟨h1, h2⟩ | ⟨h1, -, h2⟩
    · rw [if_pos h1, h2]; split <;> simp_all
    · rw [if_neg h1, h2]; split <;> simp_all
  · intro h'
    rcases hk with ⟨h1, -⟩ | ⟨-, h2, -⟩
    · exact absurd h1 h'
    · exact h2

end Verif
