import Verif.Proofs.Candidate

/-!
# Property C47: the candidate node
-/
namespace Verif
open Verif.Spec
set_option autoImplicit false

variable [Rounding] {c : Cfg} {p p' : Problem} {env : Env} {cand : Nat}

/-- C47. In exact arithmetic, on a complete graph, in both modes, the node that `find_candidate_node` returns has a minimum 1-tree whose weight is within `EPSILON` of that of every other node. -/
theorem C47_candidate (hx : Exact) (h : Instance c p) (hp : ProbsAbove c p) (heps : 0 ≤ c.eps) (e : findCandidate c env p = .ok (p', cand)) :
    cand < c.maxV ∧ ∃ y, MinOneTree c.maxV (edgeSet p.graph) (weight p.graph) cand y ∧
      ∀ i < c.maxV, ∃ x, MinOneTree c.maxV (edgeSet p.graph) (weight p.graph) i x ∧ x ≤ y + c.eps := by
  obtain ⟨v, q, hs⟩ := findCandidate_ok h hp heps e
  have h3 := h.three
  rcases hs.chosen with ⟨h1, h2⟩ | ⟨h1, h2⟩
  · simp only at h1 h2
    subst h1 h2
    obtain ⟨y, hy, -⟩ := hs.least hx 0 (by omega)
    have := MinOneTree_nonneg h hy
    refine ⟨by omega, y, hy, ?_⟩
    intro i hi
    obtain ⟨x, h', hle⟩ := hs.least hx i hi
    exact ⟨x, h', by simp only at hle; linarith⟩
  · exact ⟨h1, v, h2 hx, hs.least hx⟩

omit [Rounding] in
/-- a minimum 1-tree has one weight -/
theorem MinOneTree.unique {n : Nat} {E : EdgeSet} {w : Sym2 Nat → ℚ} {i : Nat} {x y : ℚ} (hx : MinOneTree n E w i x) (hy : MinOneTree n E w i y) : x = y := by
  obtain ⟨⟨T, hT, rfl⟩, h1⟩ := hx
  obtain ⟨⟨S, hS, rfl⟩, h2⟩ := hy
  exact le_antisymm (h1 S hS) (h2 T hT)

/-- C47, the call returns for fewer than 57 nodes (from 57 on, the Fibonacci heap may leave its arrays: C13). -/
theorem C47_returns (h : Instance c p) (hp : ProbsAbove c p) (h57 : c.maxV < 57) : ∃ r, findCandidate c env p = .ok r := by
  have key : ∀ k ≤ c.maxV, ∃ s, forList (candStep c env) (List.range k) (p, 0, 0, 0) = .ok s ∧ s.1.graph = p.graph := by
    intro k
    induction k with
    | zero => intro _; exact ⟨_, rfl, rfl⟩
    | succ k ih =>
      intro hk
      have hk' : k < c.maxV := by omega
      obtain ⟨s, e, hg⟩ := ih (by omega)
      have hI : Instance c { s.1 with cand := k } := h.of_graph hg hk'
      have hp' : ProbsAbove c { s.1 with cand := k } := by
        intro hy; show ∀ e ∈ edgeSet s.1.graph, -1 < edgeProb s.1.graph e
        rw [hg]; exact hp hy
      obtain ⟨p1, t1, t2, x1, x2, e0, -, -, -, q6⟩ := C39_nearest_neighbour hI hp' (env.nn k) (env.pnn k) hk'
      have hpg : p1.graph = p.graph ∧ p1.cand = k := by
        rcases q6 with rfl | ⟨-, q6, -⟩
        · exact ⟨hg, rfl⟩
        · rw [q6]; exact ⟨hg, rfl⟩
      have hr := free_ready h (env.cand k) hk'
      obtain ⟨t, e1⟩ : ∃ t, constrainedPrim c p.graph.numNodes p.graph { env.cand k with numForbidden := 0, numMandatory := 0 } k (env.candLoc k) =
          .ok { ({ env.cand k with numForbidden := 0, numMandatory := 0 } : SubProblem) with oneTree := t } := by
        rcases C23_constrained_prim hr (fun e he => h.small e (mem_usable.1 he).1) (env.candLoc k) (pn := p.graph.numNodes) with ⟨-, h'⟩ | ⟨t, e', -⟩
        · rw [h.nodes] at h'; omega
        · exact ⟨t, e'⟩
      obtain ⟨r, e2⟩ : ∃ r, mstToOneTree c p.graph { ({ env.cand k with numForbidden := 0, numMandatory := 0 } : SubProblem) with oneTree := t } k = .ok r := by
        have hv := free_valid h (env.cand k) hk' e1
        rcases relaxation hr (h.pos k hk') (by rw [h.nodes]; exact h.three) e1 hv with (⟨h', -⟩ | ⟨⟨e, he, h'⟩, -⟩) | ⟨h', -⟩ | ⟨t, L, et, -⟩
        · simp [spokes] at h'
        · exact absurd ((h.small e (Finset.mem_sdiff.1 (mem_spokes.1 he).1).1).trans FLT_lt_INFINITE) (not_lt.2 h')
        · exact ⟨_, h'⟩
        · exact ⟨_, et⟩
      have e3 : candStep c env s k = if compareCandidate c (r.2.oneTree.cost, r.2.oneTree.prob) s.2.2 then .ok (p1, k, r.2.oneTree.cost, r.2.oneTree.prob) else .ok (p1, s.2) := by
        unfold candStep
        rw [e0]
        simp only [ok_bind, hpg.1, hpg.2, e1, e2, pure_eq_ok]
      rw [List.range_succ, forList_snoc, e]
      simp only [ok_bind, e3]
      split
      · exact ⟨_, rfl, hpg.1⟩
      · exact ⟨_, rfl, hpg.1⟩
  obtain ⟨s, e, -⟩ := key c.maxV (le_refl _)
  unfold findCandidate
  rw [h.nodes, e]
  exact ⟨_, rfl⟩

end Verif
