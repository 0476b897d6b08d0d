import Verif.Model.Search
import Mathlib.Tactic.Linarith
import Mathlib.Tactic.NormNum

/-!
# The best value and the counters during a run, and two runs of which one stops later
-/
namespace Verif
set_option autoImplicit false

variable [Rounding]

variable {c : Cfg}

/-- the best value does not grow and the counters do not decrease -/
structure Later (p q : Problem) : Prop where
  bestValue : q.bestValue ≤ p.bestValue
  explored : p.explored ≤ q.explored
  generated : p.generated ≤ q.generated
  fixed : p.fixed ≤ q.fixed
  totLevels : p.totLevels ≤ q.totLevels

omit [Rounding] in
theorem Later.refl (p : Problem) : Later p p := ⟨le_refl _, le_refl _, le_refl _, le_refl _, le_refl _⟩
omit [Rounding] in
theorem Later.trans {p q r : Problem} (h : Later p q) (k : Later q r) : Later p r :=
  ⟨k.1.trans h.1, h.2.trans k.2, h.3.trans k.3, h.4.trans k.4, h.5.trans k.5⟩

/-- `P` holds of the result, if there is one -/
def Res.Post {α : Type} (x : Res α) (P : α → Prop) : Prop := ∀ a, x = .ok a → P a

omit [Rounding] in
theorem Res.Post.any {α : Type} (x : Res α) : Res.Post x fun _ => True := fun _ _ => trivial
omit [Rounding] in
theorem Res.Post.ok {α : Type} {P : α → Prop} {a : α} (h : P a) : Res.Post (.ok a) P := by intro b e; cases e; exact h
omit [Rounding] in
theorem Res.Post.pure {α : Type} {P : α → Prop} {a : α} (h : P a) : Res.Post (Pure.pure a) P := Res.Post.ok h
omit [Rounding] in
theorem Res.Post.err {α : Type} {P : α → Prop} (e : Fault) : Res.Post (.error e : Res α) P := by intro b h; cases h
omit [Rounding] in
theorem Res.Post.bind {α β : Type} {Q : α → Prop} {P : β → Prop} {x : Res α} {f : α → Res β} (h : Res.Post x Q) (hf : ∀ a, Q a → Res.Post (f a) P) : Res.Post (x >>= f) P := by
  cases x with
  | error e => exact Res.Post.err e
  | ok a => exact hf a (h a rfl)
omit [Rounding] in
theorem Res.Post.ite {α : Type} {P : α → Prop} {q : Prop} [Decidable q] {x y : Res α} (h1 : q → Res.Post x P) (h2 : ¬ q → Res.Post y P) : Res.Post (if q then x else y) P := by
  split
  · exact h1 ‹_›
  · exact h2 ‹_›
omit [Rounding] in
theorem Res.Post.mono {α : Type} {P Q : α → Prop} {x : Res α} (h : Res.Post x P) (hpq : ∀ a, P a → Q a) : Res.Post x Q := fun a e => hpq a (h a e)
omit [Rounding] in
theorem Res.Post.forList {α β : Type} {P : β → Prop} {f : β → α → Res β} : ∀ {l : List α} {b : β}, (∀ b a, P b → Res.Post (f b a) P) → P b → Res.Post (forList f l b) P := by
  intro l
  induction l with
  | nil => intro b _ h; exact Res.Post.ok h
  | cons v l ih =>
    intro b hf h
    rw [Verif.forList]
    exact Res.Post.bind (hf b v h) fun a ha => ih hf ha

theorem judge_later (heps : 0 ≤ c.eps) (iter : Nat) (p : Problem) (a : SubProblem) : Res.Post (judge c iter p a) fun r => Later p r.2 := by
  unfold judge
  refine Res.Post.ite (fun _ => Res.Post.ok (Later.refl p)) (fun h => ?_)
  refine Res.Post.bind (Res.Post.any _) ?_
  rintro ⟨x, r⟩ -
  refine Res.Post.ite (fun _ => ?_) (fun _ => Res.Post.pure (Later.refl p))
  refine Res.Post.pure ⟨?_, le_refl _, le_refl _, le_refl _, le_refl _⟩
  show a.value ≤ p.bestValue
  have := pos_of_fl (lt_of_le_of_lt heps (not_le.1 h))
  linarith

/-- the problem in the state or in the answer of an iteration of `bound` -/
def iterProb : BState ⊕ (Problem × BBType) → Problem
  | .inl s => s.prob
  | .inr r => r.1

theorem boundIter_later (heps : 0 ≤ c.eps) (cur : SubProblem) (loc : PState) (N iter : Nat) (s : BState) : Res.Post (boundIter c cur loc N iter s) fun r => Later s.prob (iterProb r) := by
  unfold boundIter
  dsimp only
  generalize (if s.first = true then s.prob.graph else applyPi s.pi s.prob.graph.numEdges s.prob.reform) = used
  have hp : ∃ p, p = (if s.first = true then s.prob else { s.prob with reform := used }) ∧ Later s.prob p := by
    refine ⟨_, rfl, ?_⟩
    split
    · exact Later.refl _
    · exact ⟨le_refl _, le_refl _, le_refl _, le_refl _, le_refl _⟩
  obtain ⟨p, ep, hp⟩ := hp
  rw [← ep]
  refine Res.Post.bind (Res.Post.any _) fun a1 _ => ?_
  refine Res.Post.ite (fun _ => ?_) (fun _ => Res.Post.pure hp)
  refine Res.Post.bind (Res.Post.any _) ?_
  rintro ⟨ty, a2⟩ -
  refine Res.Post.ite (fun _ => ?_) (fun _ => Res.Post.pure hp)
  refine Res.Post.bind (Res.Post.any _) ?_
  rintro ⟨value, score⟩ -
  refine Res.Post.bind (judge_later heps _ _ _) ?_
  rintro ⟨a3, p3⟩ h3
  refine Res.Post.ite (fun _ => Res.Post.pure (hp.trans h3)) (fun _ => Res.Post.pure ?_)
  exact hp.trans (h3.trans ⟨le_refl _, le_refl _, le_refl _, le_refl _, le_refl _⟩)

theorem boundLoop_later (heps : 0 ≤ c.eps) (cur : SubProblem) (loc : Nat → PState) (N : Nat) : ∀ (left iter : Nat) (s : BState), Res.Post (boundLoop c cur loc N left iter s) fun r => Later s.prob (iterProb r) := by
  intro left
  induction left with
  | zero => intro iter s; exact Res.Post.ok (Later.refl _)
  | succ left ih =>
    intro iter s
    rw [boundLoop]
    refine Res.Post.bind (boundIter_later heps cur (loc iter) N iter s) ?_
    rintro (s' | r) h
    · exact (ih (iter + 1) s').mono fun a ha => h.trans ha
    · exact Res.Post.pure h

theorem bound_later (heps : 0 ≤ c.eps) (loc : Nat → PState) (p : Problem) (cur : SubProblem) : Res.Post (bound c loc p cur) fun r => Later p r.1 := by
  unfold bound
  refine Res.Post.ite (fun _ => ?_) (fun _ => Res.Post.pure (Later.refl _))
  refine Res.Post.bind (boundLoop_later heps cur loc _ _ _ _) ?_
  have h0 : Later p { p with explored := p.explored + 1 } := ⟨le_refl _, Nat.le_succ _, le_refl _, le_refl _, le_refl _⟩
  rintro (s | ⟨q, ty⟩) h
  · have h : Later p s.prob := h0.trans h
    dsimp only
    split
    · exact Res.Post.err _
    · exact Res.Post.ite (fun _ => Res.Post.pure h) (fun _ => Res.Post.pure h)
  · exact Res.Post.pure (h0.trans h)

omit [Rounding] in
theorem inferConstraints_later (s : SubProblem) (k : Nat) : Res.Post (inferConstraints c s k) fun r => k ≤ r.1.2 := by
  unfold inferConstraints
  refine Res.Post.forList (P := fun (r : (SubProblem × Nat) × Bool) => k ≤ r.1.2) ?_ (le_refl k)
  rintro ⟨⟨a, m⟩, v⟩ i h
  have h : k ≤ m := h
  unfold inferRow
  refine Res.Post.ite (fun _ => ?_) (fun _ => Res.Post.pure h)
  dsimp only
  refine Res.Post.ite (fun _ => ?_) (fun _ => Res.Post.ite (fun _ => Res.Post.pure h) (fun _ => Res.Post.ite (fun _ => Res.Post.ite (fun _ => ?_) (fun _ => Res.Post.pure h)) (fun _ => Res.Post.pure h)))
  · refine Res.Post.bind (Res.Post.forList (P := fun r => k ≤ r.2) ?_ h) (fun r hr => Res.Post.pure hr)
    intro b j hb
    unfold inferForbid
    exact Res.Post.ok (Nat.le_succ_of_le hb)
  · refine Res.Post.bind (Res.Post.forList (P := fun r => k ≤ r.2) ?_ h) (fun r hr => Res.Post.pure hr)
    intro b j hb
    unfold inferMandatory
    exact Res.Post.bind (Res.Post.any _) fun _ _ => Res.Post.pure (Nat.le_succ_of_le hb)

theorem branch_later (mem : Nat → SubProblem) (p : Problem) (o : List SubProblem) (cur : SubProblem) : Res.Post (branch c mem p o cur) fun r => Later p r.2 := by
  unfold branch
  dsimp only
  have hp : ∃ q, q = (if cur.treeLevel + 1 > p.totLevels then { p with totLevels := p.totLevels + 1 } else p) ∧ Later p q := by
    refine ⟨_, rfl, ?_⟩
    split
    · exact ⟨le_refl _, le_refl _, le_refl _, le_refl _, Nat.le_succ _⟩
    · exact Later.refl _
  obtain ⟨q, eq, hq⟩ := hp
  rw [← eq]
  refine Res.Post.ite (fun _ => Res.Post.err _) (fun _ => ?_)
  refine Res.Post.forList (P := fun (r : List SubProblem × Problem) => Later p r.2) ?_ hq
  rintro ⟨l, r⟩ i h
  have h : Later p r := h
  unfold branchChild
  dsimp only
  refine Res.Post.bind (Res.Post.any _) fun x _ => ?_
  refine Res.Post.bind (inferConstraints_later x r.fixed) ?_
  rintro ⟨⟨y, m⟩, v⟩ hm
  have hm : r.fixed ≤ m := hm
  have h2 : Later p { r with generated := r.generated + 1, fixed := m } := h.trans ⟨le_refl _, le_refl _, Nat.le_succ _, hm, le_refl _⟩
  exact Res.Post.ite (fun _ => Res.Post.pure h2) (fun _ => Res.Post.pure h2)

theorem bbRound_later (heps : 0 ≤ c.eps) (env : Env) (k : Nat) (p : Problem) (cur : SubProblem) (rest : List SubProblem) : Res.Post (bbRound c env k p cur rest) fun r => Later p r.1 := by
  unfold bbRound
  refine Res.Post.bind (bound_later heps _ _ _) ?_
  rintro ⟨q, u⟩ h
  refine Res.Post.ite (fun _ => ?_) (fun _ => Res.Post.pure h)
  refine Res.Post.bind (Res.Post.any _) ?_
  rintro ⟨v, m⟩ -
  refine Res.Post.bind (branch_later _ _ _ _) ?_
  rintro ⟨o, r⟩ h2
  have h3 : Later q { q with fixed := q.fixed + m } := ⟨le_refl _, le_refl _, le_refl _, Nat.le_add_right _ _, le_refl _⟩
  exact Res.Post.pure (h.trans (h3.trans h2))

theorem bbLoop_later (heps : 0 ≤ c.eps) (env : Env) : ∀ (fuel k : Nat) (p : Problem) (l : List SubProblem), Res.Post (bbLoop c env fuel k p l) fun r => Later p r.1 := by
  intro fuel
  induction fuel with
  | zero => intros; exact Res.Post.err _
  | succ fuel ih =>
    intro k p l
    cases l with
    | nil => exact Res.Post.ok (Later.refl _)
    | cons cur rest =>
      rw [bbLoop]
      refine Res.Post.ite (fun _ => Res.Post.ok (Later.refl _)) (fun _ => ?_)
      refine Res.Post.bind (bbRound_later heps env k p cur rest) ?_
      rintro ⟨q, o⟩ h
      exact (ih (k + 1) q o).mono fun a ha => h.trans ha

/-- a run that is stopped no earlier: the same fault, the same complete run, or one that has gone on -/
theorem bbLoop_clock (heps : 0 ≤ c.eps) {env : Env} {clk : Nat → Bool} (hclk : ∀ k, clk k = true → env.clk k = true) : ∀ (fuel k : Nat) (p : Problem) (l : List SubProblem),
    (∀ F, bbLoop c env fuel k p l = .error F → bbLoop c { env with clk := clk } fuel k p l = .error F) ∧
    (∀ q o m, bbLoop c env fuel k p l = .ok (q, o, m) →
      (Res.Post (bbLoop c { env with clk := clk } fuel k p l) fun r => Later q r.1) ∧ (o = [] → bbLoop c { env with clk := clk } fuel k p l = .ok (q, o, m))) := by
  intro fuel
  induction fuel with
  | zero => intro k p l; exact ⟨fun F h => h, fun q o m h => by cases h⟩
  | succ fuel ih =>
    intro k p l
    cases l with
    | nil => exact ⟨fun F h => h, fun q o m h => ⟨by cases h; exact Res.Post.ok (Later.refl _), fun _ => h⟩⟩
    | cons cur rest =>
      have hr : bbRound c { env with clk := clk } k p cur rest = bbRound c env k p cur rest := rfl
      by_cases h1 : env.clk k = true
      · rw [bbLoop, if_pos h1]
        refine ⟨fun F h => (by cases h), ?_⟩
        intro q o m h
        cases h
        exact ⟨bbLoop_later heps _ _ _ _ _, fun h => (by cases h)⟩
      · have h2 : clk k ≠ true := fun h => h1 (hclk k h)
        rw [bbLoop, bbLoop, if_neg h1, if_neg h2, hr]
        cases bbRound c env k p cur rest with
        | error e => exact ⟨fun F h => h, fun q o m h => (by cases h)⟩
        | ok r => exact ih (k + 1) r.1 r.2

end Verif
