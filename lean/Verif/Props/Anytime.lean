import Verif.Props.Memory
import Verif.Proofs.Anytime

/-!
# C81: more time never gives a worse answer
-/
namespace Verif
open Verif.Spec
set_option autoImplicit false

variable [Rounding] {c : Cfg}

theorem branchAndBound_clock (heps : 0 ≤ c.eps) {env : Env} {clk : Nat → Bool} (hclk : ∀ k, clk k = true → env.clk k = true) (fuel : Nat) (p : Problem) :
    (∀ F, branchAndBound c env fuel p = .error F → branchAndBound c { env with clk := clk } fuel p = .error F) ∧
    (∀ q o, branchAndBound c env fuel p = .ok (q, o) →
      (Res.Post (branchAndBound c { env with clk := clk } fuel p) fun r => Later q r.1) ∧
      (o = [] → ∃ b, branchAndBound c { env with clk := clk } fuel p = .ok ({ q with interrupted := b }, []) ∧ (b = true → q.interrupted = true))) := by
  unfold branchAndBound
  by_cases hf : checkFeasibility p.graph = true
  · rw [if_pos hf, if_pos hf]
    have hc : findCandidate c { env with clk := clk } { p with bestValue := INFINITE } = findCandidate c env { p with bestValue := INFINITE } := rfl
    rw [hc]
    cases findCandidate c env { p with bestValue := INFINITE } with
    | error e => exact ⟨fun F h => h, fun q o h => by cases h⟩
    | ok r =>
      obtain ⟨p1, cand⟩ := r
      rw [ok_bind, ok_bind]
      dsimp only
      have hroot : bbRoot c { env with clk := clk } = bbRoot c env := rfl
      rw [hroot]
      have h := bbLoop_clock heps hclk fuel 0 (bbStart p1 cand) [bbRoot c env]
      cases hl : bbLoop c env fuel 0 (bbStart p1 cand) [bbRoot c env] with
      | error e =>
        rw [h.1 e hl]
        exact ⟨fun F h => h, fun q o h => by cases h⟩
      | ok r =>
        obtain ⟨p2, o2, k⟩ := r
        obtain ⟨h1, h2⟩ := h.2 p2 o2 k hl
        rw [ok_bind]
        refine ⟨fun F h => (by cases h), ?_⟩
        intro q o e
        cases e
        refine ⟨?_, ?_⟩
        · refine Res.Post.bind h1 ?_
          rintro ⟨p3, o3, k3⟩ h3
          have h3 : Later p2 p3 := h3
          refine Res.Post.pure ?_
          show Later (if env.clk k = true then _ else _) (if clk k3 = true then _ else _)
          split <;> split <;> exact ⟨h3.1, h3.2, h3.3, h3.4, h3.5⟩
        · intro ho
          rw [h2 ho, ok_bind]
          subst ho
          by_cases hk : clk k = true
          · refine ⟨true, ?_, fun _ => ?_⟩
            · dsimp only
              rw [if_pos hk, if_pos (hclk k hk)]; rfl
            · dsimp only
              rw [if_pos (hclk k hk)]
          · refine ⟨p2.interrupted, ?_, fun hb => ?_⟩
            · dsimp only
              rw [if_neg hk]
              split <;> rfl
            · dsimp only
              split
              · rfl
              · exact hb
  · rw [if_neg hf, if_neg hf]
    refine ⟨fun F h => h, ?_⟩
    intro q o e
    cases e
    exact ⟨Res.Post.pure (Later.refl _), fun _ => ⟨p.interrupted, rfl, fun h => h⟩⟩

/-- **C81**. A second run on the same problem whose clock strikes no earlier (the memory contents may differ): the length it reports is at most that of the first run, and no counter is smaller. If the first run
emptied its list of open subproblems, the second one ends with the same solution and the same counters, and it is not reported as interrupted if the first one was not. -/
theorem C81_more_time {p : Problem} (st : Stored p.graph) (hpos : ∀ i < c.maxV, (p.graph.nodes i).pos = i) (hn : p.graph.numNodes = c.maxV) (h2 : 2 ≤ c.maxV) (heps : 0 ≤ c.eps) {env env' : Env}
    (hclk : ∀ k, env'.clk k = true → env.clk k = true) {fuel : Nat} {p1 p2 : Problem} {o1 o2 : List SubProblem} (e1 : branchAndBound c env fuel p = .ok (p1, o1)) (e2 : branchAndBound c env' fuel p = .ok (p2, o2)) :
    (p2.bestValue ≤ p1.bestValue ∧ p1.explored ≤ p2.explored ∧ p1.generated ≤ p2.generated ∧ p1.fixed ≤ p2.fixed ∧ p1.totLevels ≤ p2.totLevels) ∧
    (o1 = [] → o2 = [] ∧ SameSolution p1.best p2.best ∧ p2.bestValue = p1.bestValue ∧ p2.explored = p1.explored ∧ p2.generated = p1.generated ∧ p2.fixed = p1.fixed ∧ p2.totLevels = p1.totLevels ∧
      (p1.interrupted = false → p2.interrupted = false)) := by
  have h := (branchAndBound_clock heps (clk := env'.clk) hclk fuel p).2 p1 o1 e1
  have hs := C80_memory_irrelevant st hpos hn h2 (env := { env with clk := env'.clk }) (env' := env') (fun _ => rfl) fuel
  rw [e2] at hs
  cases hx : branchAndBound c { env with clk := env'.clk } fuel p with
  | error e => rw [hx] at hs; exact hs.elim
  | ok r =>
    rw [hx] at hs h
    have hs : SameResult c.maxV r (p2, o2) := hs
    have k := h.1 r rfl
    refine ⟨⟨?_, ?_, ?_, ?_, ?_⟩, ?_⟩
    · have := hs.bestValue; dsimp only at this; rw [this]; exact k.bestValue
    · have := hs.explored; dsimp only at this; rw [this]; exact k.explored
    · have := hs.generated; dsimp only at this; rw [this]; exact k.generated
    · have := hs.fixed; dsimp only at this; rw [this]; exact k.fixed
    · have := hs.totLevels; dsimp only at this; rw [this]; exact k.totLevels
    · intro ho
      obtain ⟨b, e, hb⟩ := h.2 ho
      cases e
      refine ⟨List.eq_nil_of_length_eq_zero hs.length, hs.best, hs.bestValue, hs.explored, hs.generated, hs.fixed, hs.totLevels, ?_⟩
      intro h1
      have hi : p2.interrupted = b := hs.interrupted
      rw [hi]
      cases b with
      | false => rfl
      | true => have h := hb rfl; rw [h1] at h; cases h

/-- **C81** (faults). A fault of the first run is a fault of the second one: stopping earlier cannot cause one. -/
theorem C81_fault {p : Problem} (st : Stored p.graph) (hpos : ∀ i < c.maxV, (p.graph.nodes i).pos = i) (hn : p.graph.numNodes = c.maxV) (h2 : 2 ≤ c.maxV) (heps : 0 ≤ c.eps) {env env' : Env}
    (hclk : ∀ k, env'.clk k = true → env.clk k = true) {fuel : Nat} {F : Fault} (e1 : branchAndBound c env fuel p = .error F) : branchAndBound c env' fuel p = .error F := by
  have h := (branchAndBound_clock heps (clk := env'.clk) hclk fuel p).1 F e1
  have hs := C80_memory_irrelevant st hpos hn h2 (env := { env with clk := env'.clk }) (env' := env') (fun _ => rfl) fuel
  rw [h] at hs
  cases hx : branchAndBound c env' fuel p with
  | error e => rw [hx] at hs; exact congrArg _ hs
  | ok r => rw [hx] at hs; exact hs.elim

end Verif
