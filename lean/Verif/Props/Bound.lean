import Verif.Proofs.Bound5

/-!
# Property C38: `bound`
-/
namespace Verif
open Verif.Spec
set_option autoImplicit false

variable [Rounding] {c : Cfg} {p : Problem} {cur : SubProblem}

/-- the sizes grow with the number of steps -/
theorem Spec.Scale.mono {z : Scale} {n N N' : Nat} (hN : N ≤ N') (e0 : 0 ≤ z.ε) (T0 : 0 ≤ z.T n) (eps : ℚ) :
    z.drift n N ≤ z.drift n N' ∧ 0 ≤ z.drift n N ∧ z.need eps n N ≤ z.need eps n N' := by
  have hNq : (N : ℚ) ≤ N' := by exact_mod_cast hN
  have hN0 : (0 : ℚ) ≤ N := by positivity
  have hn0 : (0 : ℚ) ≤ n := by positivity
  have h1 : z.drift n N ≤ z.drift n N' := by
    unfold Scale.drift
    refine mul_le_mul_of_nonneg_right (mul_le_mul_of_nonneg_right (mul_le_mul_of_nonneg_left ?_ hn0) (by linarith)) e0
    linarith
  have h0 : 0 ≤ z.drift n N := by unfold Scale.drift; positivity
  refine ⟨h1, h0, ?_⟩
  have hP : z.P n N ≤ z.P n N' := by
    unfold Scale.P
    have a1 := mul_le_mul hNq h1 h0 (by linarith)
    have a2 := mul_le_mul_of_nonneg_left (show (N : ℚ) / 2 ≤ N' / 2 by linarith) (mul_nonneg hn0 T0)
    linarith
  unfold Scale.need
  have a1 := mul_le_mul_of_nonneg_left hP hn0
  have a2 := mul_le_mul hNq hNq hN0 (by linarith)
  have a3 := mul_le_mul_of_nonneg_right a2 (show 0 ≤ z.T n + 2 by linarith)
  linarith [show 4 * (n : ℚ) * (z.W + z.P n N + z.T n + 2) = 4 * n * (z.W + z.T n + 2) + 4 * (n * z.P n N) by ring,
    show 4 * (n : ℚ) * (z.W + z.P n N' + z.T n + 2) = 4 * n * (z.W + z.T n + 2) + 4 * (n * z.P n N') by ring,
    show 4 * ((N : ℚ) * N) * (z.T n + 2) = 4 * (N * N * (z.T n + 2)) by ring, show 4 * ((N' : ℚ) * N') * (z.T n + 2) = 4 * (N' * N' * (z.T n + 2)) by ring]

omit [Rounding] in
theorem maxIter_le (c : Cfg) (level : Nat) : maxIter c level ≤ rootSteps c.maxV := by
  unfold maxIter rootSteps; split <;> omega

theorem Spec.Fits.tame (hb : Bookkeeping c.maxV cur) {z : Scale} (hz : Fits z c p) (hroot : RootFree c.maxV cur) : Tame z c p cur (maxIter c cur.treeLevel) := by
  have e0 := hz.near.nonneg
  have T0 : 0 ≤ z.T c.maxV := fl_nonneg (div_nonneg hz.U0 (by positivity))
  have hle := maxIter_le c cur.treeLevel
  have hm := Scale.mono hle e0 T0 c.eps
  have hleq : ((maxIter c cur.treeLevel : Nat) : ℚ) ≤ rootSteps c.maxV := by exact_mod_cast hle
  refine ⟨by have := maxIter_three c cur.treeLevel; omega, hz.near.mono hm.2.2, fun m hmm => hz.ints m (hmm.trans (Nat.mul_le_mul_left _ (Nat.mul_le_mul hle hle))),
    hz.U0, hz.W0, hz.best, hz.weights, hm.1.trans hz.fine, ?_, ?_⟩
  · by_cases h1 : cur.treeLevel = 1
    · left
      rw [Finset.eq_empty_iff_forall_notMem]
      intro e he
      induction e using Sym2.ind with
      | _ u v =>
        obtain ⟨hu, hv, -, hm⟩ := (mem_consSet hb.sym).1 he
        exact hroot h1 u hu v hv hm
    · right
      have := hz.low
      unfold maxIter
      rw [if_neg h1]
      exact this
  · intro e he
    refine lt_of_le_of_lt ?_ (hz.high e he)
    have a1 := mul_le_mul_of_nonneg_left hleq (mul_nonneg (by positivity : (0 : ℚ) ≤ c.maxV) T0)
    have a2 := mul_le_mul hleq hm.1 hm.2.1 (by positivity)
    linarith [show 2 * ((maxIter c cur.treeLevel : Nat) : ℚ) * z.drift c.maxV (maxIter c cur.treeLevel) = 2 * (((maxIter c cur.treeLevel : Nat) : ℚ) * z.drift c.maxV (maxIter c cur.treeLevel)) by ring,
      show 2 * (rootSteps c.maxV : ℚ) * z.drift c.maxV (rootSteps c.maxV) = 2 * ((rootSteps c.maxV : ℚ) * z.drift c.maxV (rootSteps c.maxV)) by ring]

theorem Spec.Fits.mono {z : Scale} {q : Problem} (h : Fits z c p) (hg : q.graph = p.graph) (hle : q.bestValue ≤ p.bestValue) : Fits z c q :=
  ⟨h.near, h.ints, h.U0, h.W0, hle.trans h.best, by rw [hg]; exact h.weights, h.fine, h.low, by rw [hg]; exact h.high⟩

/-- the bounds for exact arithmetic: no rounding error -/
def exactScale (p : Problem) : Scale := ⟨max 0 p.bestValue, FLT_MAX, 0⟩

omit [Rounding] in
theorem exactScale_zero (p : Problem) (n : Nat) : (exactScale p).slack n = 0 ∧ (exactScale p).gap n = 0 := by
  constructor <;> simp [exactScale, Scale.slack, Scale.gap]

omit [Rounding] in
theorem Spec.ValidValue.upTo (h : ValidValue c p cur) : ValidUpTo (exactScale p) c p cur := by
  intro hl t ht hlt
  rw [(exactScale_zero p _).1, sub_zero] at hlt
  rw [(exactScale_zero p _).2, add_zero]
  exact h hl t ht hlt

/-- in exact arithmetic, `Gentle` is enough -/
theorem Spec.Gentle.fits (hx : Exact) (h : Instance c p) (hg : Gentle c p) : Fits (exactScale p) c p := by
  have n3 : (3 : ℚ) ≤ c.maxV := by exact_mod_cast h.three
  have hT : (exactScale p).T c.maxV = max 0 p.bestValue / (2 * c.maxV) := by unfold Scale.T; rw [hx]; rfl
  have hd : ∀ N, (exactScale p).drift c.maxV N = 0 := by intro N; unfold Scale.drift exactScale; simp
  refine ⟨Near.of_exact hx _, fun m _ => hx _, le_max_left _ _, by show (0 : ℚ) ≤ FLT_MAX; decide +kernel, le_max_right _ _, fun e he => ⟨(h.small e he).le, hx _⟩, by rw [hd]; norm_num, ?_, ?_⟩
  · rw [hd, hT]
    show _ + 2 * 0 ≤ _
    rw [mul_zero, mul_zero, add_zero, add_zero, div_mul_eq_mul_div, div_le_iff₀ (by linarith)]
    have := hg.low
    unfold nodeSteps
    rcases max_cases 0 p.bestValue with ⟨h', -⟩ | ⟨h', -⟩
    · rw [h', zero_mul]; positivity
    · rw [h']; linarith
  · intro e he
    rw [hd, hT]
    show _ + 2 * 0 < _
    have e1 : (c.maxV : ℚ) * (max 0 p.bestValue / (2 * c.maxV)) = max 0 p.bestValue / 2 := by
      have : (c.maxV : ℚ) ≠ 0 := by linarith
      field_simp
    rw [mul_zero, mul_zero, add_zero, add_zero, e1]
    rcases max_cases 0 p.bestValue with ⟨h', -⟩ | ⟨h', -⟩
    · rw [h']; have := h.small e he; simpa using this
    · rw [h']; have := hg.high e he; unfold rootSteps; linarith

/-- C38 (partial). With exact arithmetic: if `bound` closes a subproblem, every tour the subproblem allows is at least as long as the best value on return minus `EPSILON`. If it leaves it open, its new
value is a lower bound for the allowed tours that are shorter than the best value. With every rounding: the best value never increases, and when it changes, the best solution is a tour of that length.
Missing: the weights must be small for the number of nodes (`Gentle`); for larger ones the claim is false (`C38_fails`). -/
theorem C38_bound_partial (h : Instance c p) (hb : Bookkeeping c.maxV cur) (heps : 0 ≤ c.eps) (hg : Gentle c p) (hroot : RootFree c.maxV cur)
    (hbest : p.best.value = p.bestValue) (hval : ValidValue c p cur)
    {loc : Nat → PState} {p' : Problem} {cur' : SubProblem} (e : bound c loc p cur = .ok (p', cur')) :
    (Exact → cur'.type ≠ .opened → ∀ t, AllowedBy c.maxV cur.cons t → p'.bestValue - c.eps ≤ tourCost (weight p.graph) t) ∧
    (Exact → cur'.type = .opened → ∀ t, AllowedBy c.maxV cur.cons t → tourCost (weight p.graph) t < p.bestValue → cur'.value ≤ tourCost (weight p.graph) t) ∧
    ((p'.bestValue = p.bestValue ∧ p'.best = p.best) ∨
      (c.eps < fl (p.bestValue - p'.bestValue) ∧ p'.best.value = p'.bestValue ∧ ∃ t, Solution c.maxV (weight p.graph) p'.best t)) ∧
    (∀ u v, cur'.cons u v = cur.cons u v) := by
  have hB := bound_ok h hb heps hbest e
  refine ⟨fun hx ho t ht => ?_, fun hx ho t h1 h2 => ?_, hB.best, ?_⟩
  · have := hB.closed _ ((hg.fits hx h).tame hb hroot) hval.upTo ho t ht
    rwa [(exactScale_zero p _).1, sub_zero] at this
  · have := hB.value _ ((hg.fits hx h).tame hb hroot) ho t ⟨h1, by rw [(exactScale_zero p _).1, sub_zero]; exact h2⟩
    rwa [(exactScale_zero p _).2, add_zero] at this
  · intro u v
    rw [hB.frame]

/-- C38 on the machine: with rounding, the same claims hold up to `(5 n + 6) ε`, where `ε` bounds the error of one operation. -/
theorem C38_rounding (h : Instance c p) (hb : Bookkeeping c.maxV cur) (heps : 0 ≤ c.eps) {z : Scale} (hz : Fits z c p) (hroot : RootFree c.maxV cur)
    (hbest : p.best.value = p.bestValue) (hval : ValidUpTo z c p cur)
    {loc : Nat → PState} {p' : Problem} {cur' : SubProblem} (e : bound c loc p cur = .ok (p', cur')) :
    (cur'.type ≠ .opened → ∀ t, AllowedBy c.maxV cur.cons t → p'.bestValue - c.eps - z.slack c.maxV ≤ tourCost (weight p.graph) t) ∧
    (cur'.type = .opened → ∀ t, AllowedBy c.maxV cur.cons t → tourCost (weight p.graph) t < p.bestValue - z.slack c.maxV → cur'.value ≤ tourCost (weight p.graph) t + z.gap c.maxV) :=
  have hB := bound_ok h hb heps hbest e
  ⟨hB.closed z (hz.tame hb hroot) hval, fun ho t h1 h2 => hB.value z (hz.tame hb hroot) ho t ⟨h1, h2⟩⟩

omit [Rounding] in
/-- `Gentle` holds when every weight is at most `B`, the best value at most `n B`, and `B (n/4 + 15) ≤ 2 n` -/
theorem Spec.Gentle.of_weights {B : ℚ} (hw : ∀ e ∈ edgeSet p.graph, weight p.graph e ≤ B) (hp : p.bestValue ≤ c.maxV * B)
    (hB : B * ((c.maxV / 4 + 15 : Nat) : ℚ) ≤ 2 * c.maxV)
    (hF : B + c.maxV * B * (((c.maxV * c.maxV + 25) / 50 + c.maxV + 25 : Nat) : ℚ) / 2 < FLT_MAX) : Gentle c p := by
  have n0 : (0 : ℚ) ≤ c.maxV := by positivity
  constructor
  · have h1 := mul_le_mul_of_nonneg_right hp (by positivity : (0 : ℚ) ≤ ((c.maxV / 4 + 15 : Nat) : ℚ))
    have h2 := mul_le_mul_of_nonneg_left hB n0
    linarith
  · intro e he
    have h1 := mul_le_mul_of_nonneg_right hp (by positivity : (0 : ℚ) ≤ (((c.maxV * c.maxV + 25) / 50 + c.maxV + 25 : Nat) : ℚ))
    have := hw e he
    linarith

omit [Rounding] in
/-- cities in the unit square (all distances at most 3/2 > √2), from 14 to 10000 of them -/
theorem Spec.Gentle.unit_square (hw : ∀ e ∈ edgeSet p.graph, weight p.graph e ≤ 3 / 2) (hp : p.bestValue ≤ c.maxV * (3 / 2))
    (h1 : 14 ≤ c.maxV) (h2 : c.maxV ≤ 10000) : Gentle c p := by
  have h1' : (14 : ℚ) ≤ c.maxV := by exact_mod_cast h1
  have h2' : (c.maxV : ℚ) ≤ 10000 := by exact_mod_cast h2
  refine Gentle.of_weights hw hp ?_ ?_
  · have : ((c.maxV / 4 : Nat) : ℚ) * 4 ≤ (c.maxV : ℚ) := by exact_mod_cast (by omega : c.maxV / 4 * 4 ≤ c.maxV)
    push_cast
    linarith
  · have h3 : (((c.maxV * c.maxV + 25) / 50 + c.maxV + 25 : Nat) : ℚ) ≤ 3000000 := by
      have : c.maxV * c.maxV ≤ 10000 * 10000 := Nat.mul_le_mul h2 h2
      exact_mod_cast (by omega : (c.maxV * c.maxV + 25) / 50 + c.maxV + 25 ≤ 3000000)
    have h4 : (c.maxV : ℚ) * (3 / 2) * (((c.maxV * c.maxV + 25) / 50 + c.maxV + 25 : Nat) : ℚ) ≤ 10000 * (3 / 2) * 3000000 :=
      mul_le_mul (by linarith) h3 (by positivity) (by norm_num)
    have : (10 : ℚ) ^ 30 ≤ FLT_MAX := by unfold FLT_MAX; norm_num
    linarith

end Verif
