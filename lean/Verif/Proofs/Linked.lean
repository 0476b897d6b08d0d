import Verif.Model.Linked
import Verif.Props.Lists

/-! # The search and `dfs` on cells simulate the search and `dfs` on sequences -/
namespace Verif
open Verif.Dll
set_option autoImplicit false

variable [Rounding]

/-- same fault, or results related by `R` -/
def Sim {α β : Type} (R : α → β → Prop) : Res α → Res β → Prop
  | .ok a, .ok b => R a b
  | .error e, .error f => e = f
  | _, _ => False

omit [Rounding] in
theorem Sim.bind {α β γ δ : Type} {R : α → β → Prop} {S : γ → δ → Prop} {x : Res α} {y : Res β} {f : α → Res γ} {g : β → Res δ}
    (h : Sim R x y) (hf : ∀ a b, R a b → Sim S (f a) (g b)) : Sim S (x >>= f) (y >>= g) := by
  cases x <;> cases y <;> simp only [Sim] at h
  · simpa [Sim] using h
  · exact hf _ _ h

omit [Rounding] in
theorem Sim.forList {α β γ : Type} {R : β → γ → Prop} {f : β → α → Res β} {g : γ → α → Res γ}
    (h : ∀ b c a, R b c → Sim R (f b a) (g c a)) : ∀ (l : List α) (b : β) (c : γ), R b c → Sim R (Verif.forList f l b) (Verif.forList g l c) := by
  intro l
  induction l with
  | nil => intro b c hr; exact hr
  | cons a l ih => intro b c hr; exact Sim.bind (h b c a hr) ih

omit [Rounding] in
theorem Sim.same {α β γ : Type} {S : β → γ → Prop} (x : Res α) {f : α → Res β} {g : α → Res γ}
    (hf : ∀ a, Sim S (f a) (g a)) : Sim S (x >>= f) (x >>= g) := by
  cases x
  · simp [Sim]
  · exact hf _

/-- the cells hold this sequence -/
def Holds {α : Type} (s : DList α) (l : List α) : Prop := ∃ g, Rep s g ∧ g.map (·.2) = l

namespace Holds
variable {α : Type} {s : DList α} {l : List α}

omit [Rounding] in
theorem new : Holds (newList : DList α) [] := ⟨[], rep_new, rfl⟩

omit [Rounding] in
theorem size (h : Holds s l) : s.size = l.length := by
  obtain ⟨g, r, rfl⟩ := h; rw [r.size]; simp

omit [Rounding] in
theorem get (h : Holds s l) (i : Nat) : getIndex s i = .ok l[i]? := by
  obtain ⟨g, r, rfl⟩ := h; exact getIndex_rep r i

omit [Rounding] in
theorem addBottom (h : Holds s l) (v : α) : ∃ s', Dll.addBottom s v = .ok s' ∧ Holds s' (l ++ [v]) := by
  obtain ⟨g, r, rfl⟩ := h
  obtain ⟨s', g', e, r', q⟩ := exec_rep r (.append v) trivial
  exact ⟨s', e, g', r', q⟩

omit [Rounding] in
theorem spAddBottom (h : Holds s l) (v : α) : ∃ s', Dll.spAddBottom s v = .ok s' ∧ Holds s' (l ++ [v]) := by
  obtain ⟨s', e, h'⟩ := h.addBottom v
  obtain ⟨g, r, rfl⟩ := h
  exact ⟨s', by rw [spAddBottom_eq r, e], h'⟩

omit [Rounding] in
theorem addIndex (h : Holds s l) (v : α) (i : Nat) (hi : i < l.length ∨ l = [] ∧ i = 0) :
    ∃ s', Dll.addIndex s v i = .ok s' ∧ Holds s' (l.take i ++ v :: l.drop i) := by
  obtain ⟨g, r, rfl⟩ := h
  obtain ⟨s', g', e, r', q⟩ := exec_rep r (.insert v i) (by
    rcases hi with hi | hi
    · left; omega
    · right; exact hi.1)
  refine ⟨s', e, g', r', ?_⟩
  rw [q, Spec.seqStep]
  rw [if_pos (by rcases hi with hi | hi <;> omega)]

omit [Rounding] in
theorem delete0 {v : α} (h : Holds s (v :: l)) : ∃ s', deleteIndex s 0 = .ok s' ∧ Holds s' l := by
  obtain ⟨g, r, q⟩ := h
  obtain ⟨s', g', e, r', q'⟩ := exec_rep r (.erase 0) trivial
  refine ⟨s', e, g', r', ?_⟩
  rw [q', q]; rfl

omit [Rounding] in
theorem spDelete0 {v : α} (h : Holds s (v :: l)) : ∃ s', spDeleteIndex s 0 = .ok s' ∧ Holds s' l := by
  obtain ⟨s', e, h'⟩ := h.delete0
  obtain ⟨g, r, q⟩ := h
  exact ⟨s', by rw [spDeleteIndex_eq r, e], h'⟩

omit [Rounding] in
theorem free (h : Holds s l) : ∃ s', delList s s.size s.head = .ok s' ∧ ∀ a, s'.cells a = none := by
  obtain ⟨g, r, rfl⟩ := h
  obtain ⟨s', h1, h2⟩ := delList_seg s g none s.size (by rw [r.size]) r.seg r.nodup
  refine ⟨s', by rw [r.head]; exact h1, ?_⟩
  intro a
  rw [h2]
  split
  · rfl
  · rename_i hn
    cases hc : s.cells a with
    | none => rfl
    | some c =>
      obtain ⟨v, hv⟩ := r.own a c hc
      exact absurd (List.mem_map_of_mem (f := (·.1)) hv) hn

end Holds

omit [Rounding] in
theorem spIterGetNext_eq {α : Type} (s : DList α) (it : Iter) : spIterGetNext s it = iterGetNext s it := rfl

omit [Rounding] in
theorem spDelete_eq {α : Type} (s : DList α) : ∀ n p, spDelete s n p = delList s n p := by
  intro n
  induction n generalizing s with
  | zero => intro p; cases p <;> rfl
  | succ n ih =>
    intro p
    cases p with
    | none => rfl
    | some a => simp only [spDelete, delList, ih]

theorem findPosition_eq (c : Cfg) (child : SubProblem) {s : DList SubProblem} {g : List (Nat × SubProblem)} (r : Rep s g) :
    ∀ fuel j it, IterAt g it j → g.length < j + fuel →
      findPosition c child s fuel j it = .ok ((((g.map (·.2)).drop j).findIdx? (fun o => compareSub c child o)).map (· + j)) := by
  intro fuel
  induction fuel with
  | zero => intro j it h hf; have := h.2.1; omega
  | succ fuel ih =>
    intro j it h hf
    unfold findPosition
    rw [r.size]
    by_cases hj : j < g.length
    · obtain ⟨it', e, h'⟩ := iterGetNext_rep r h
      rw [Nat.min_eq_left hj] at h'
      have hj' : j < (g.map (·.2)).length := by simpa using hj
      simp only [hj, ↓reduceIte, spIterGetNext_eq, e, ok_bind, List.getElem?_eq_getElem hj', deref_some]
      rw [List.drop_eq_getElem_cons hj', List.findIdx?_cons]
      split
      · simp
      · rw [ih _ _ h' (by omega), Option.map_map]
        congr 2
        funext x; simp only [Function.comp]; omega
    · simp only [hj, ↓reduceIte, pure_eq_ok]
      rw [List.drop_eq_nil_of_le (by simpa using hj)]
      simp

theorem insertOpenL_holds (c : Cfg) (child : SubProblem) {s : DList SubProblem} {l : List SubProblem} (h : Holds s l) :
    ∃ s', insertOpenL c child s = .ok s' ∧ Holds s' (insertOpen c child l) := by
  have h' := h
  obtain ⟨g, r, rfl⟩ := h'
  have h0 : IterAt g (spCreateIter s) 0 := by
    refine ⟨rfl, by simp, ?_⟩
    intro x hx
    simp only [spCreateIter, r.head]
    cases g with
    | nil => simp at hx
    | cons y g => simp at hx; simp [hx]
  have e := findPosition_eq c child r (s.size + 1) 0 _ h0 (by rw [r.size]; omega)
  unfold insertOpenL insertOpen
  rw [e]
  simp only [List.drop_zero, Nat.add_zero, Option.map_id', ok_bind]
  cases hp : (g.map (·.2)).findIdx? (fun o => compareSub c child o) with
  | none => simpa using h.spAddBottom child
  | some j =>
    have hj := (List.findIdx?_eq_some_iff_findIdx_eq.mp hp).1
    exact h.addIndex child j (Or.inl hj)

theorem branchL_sim (c : Cfg) (mem : Nat → SubProblem) (p : Problem) {s : DList SubProblem} {l : List SubProblem} (h : Holds s l) (cur : SubProblem) :
    Sim (fun a b => Holds a.1 b.1 ∧ a.2 = b.2) (branchL c mem p s cur) (branch c mem p l cur) := by
  unfold branchL branch
  dsimp only
  split
  · simp [Sim]
  · refine Sim.forList (R := fun (a : DList SubProblem × Problem) (b : List SubProblem × Problem) => Holds a.1 b.1 ∧ a.2 = b.2) ?_ _ _ _ ⟨h, rfl⟩
    rintro ⟨s, p⟩ ⟨l, q⟩ i ⟨h, rfl⟩
    unfold branchChildL branchChild
    refine Sim.same _ fun child => Sim.same _ fun r => ?_
    split
    · obtain ⟨s', e, h'⟩ := insertOpenL_holds c r.1.1 h
      simp only [e, ok_bind, pure_eq_ok]
      exact ⟨h', rfl⟩
    · exact ⟨h, rfl⟩

theorem bbRoundL_sim (c : Cfg) (env : Env) (k : Nat) (p : Problem) {s : DList SubProblem} {cur : SubProblem} {rest : List SubProblem}
    (h : Holds s (cur :: rest)) :
    Sim (fun a b => a.1 = b.1 ∧ Holds a.2 b.2) (bbRoundL c env k p s) (bbRound c env k p cur rest) := by
  obtain ⟨s1, e1, h1⟩ := h.spDelete0
  unfold bbRoundL bbRound
  have e0 : spGetIndex s 0 = .ok (some cur) := h.get 0
  simp only [e0, ok_bind, deref_some, e1]
  refine Sim.same _ fun pc => ?_
  obtain ⟨p1, cur1⟩ := pc
  dsimp only
  split
  · refine Sim.same _ fun cf => ?_
    obtain ⟨cur2, fixed⟩ := cf
    refine Sim.bind (branchL_sim c _ _ h1 cur2) ?_
    rintro ⟨a, q⟩ ⟨b, q'⟩ ⟨hab, hq⟩
    exact ⟨hq, hab⟩
  · exact ⟨rfl, h1⟩

theorem bbLoopL_sim (c : Cfg) (env : Env) : ∀ (fuel k : Nat) (p : Problem) (s : DList SubProblem) (l : List SubProblem), Holds s l →
    Sim (fun a b => a.1 = b.1 ∧ Holds a.2.1 b.2.1 ∧ a.2.2 = b.2.2) (bbLoopL c env fuel k p s) (bbLoop c env fuel k p l) := by
  intro fuel
  induction fuel with
  | zero => intro k p s l h; simp [bbLoopL, bbLoop, Sim]
  | succ fuel ih =>
    intro k p s l h
    cases l with
    | nil => simp only [bbLoopL, bbLoop, h.size]; exact ⟨rfl, h, rfl⟩
    | cons cur rest =>
      simp only [bbLoopL, bbLoop, h.size, List.length_cons, ne_eq, Nat.add_eq_zero_iff, one_ne_zero, and_false, not_false_eq_true, ↓reduceIte]
      split
      · exact ⟨rfl, h, rfl⟩
      · refine Sim.bind (bbRoundL_sim c env k p h) ?_
        rintro ⟨p1, s1⟩ ⟨q1, l1⟩ ⟨rfl, h1⟩
        exact ih _ _ _ _ h1

theorem branchAndBoundL_sim (c : Cfg) (env : Env) (fuel : Nat) (p : Problem) :
    Sim (fun a b => a.1 = b.1 ∧ Holds a.2.1 b.2 ∧ ∀ x, a.2.2.cells x = none) (branchAndBoundL c env fuel p) (branchAndBound c env fuel p) := by
  unfold branchAndBoundL branchAndBound
  split
  · refine Sim.same _ fun pc => ?_
    obtain ⟨p1, cand⟩ := pc
    obtain ⟨s0, e0, h0⟩ := (Holds.new (α := SubProblem)).spAddBottom (bbRoot c env)
    simp only [e0, ok_bind]
    refine Sim.bind (bbLoopL_sim c env fuel 0 _ _ _ h0) ?_
    rintro ⟨p2, s, k⟩ ⟨q2, l, k'⟩ ⟨hp, h, hk⟩
    dsimp only at hp h hk
    subst hp hk
    obtain ⟨s', e, hs'⟩ := h.free
    simp only [spDelete_eq, e, ok_bind, pure_eq_ok]
    exact ⟨rfl, h, hs'⟩
  · exact ⟨rfl, Holds.new, fun _ => rfl⟩

/-! ## dfs -/

/-- same arrays, the cells hold the stack -/
def DHolds (a : DStateL) (b : DState) : Prop := a.parent = b.parent ∧ a.len = b.len ∧ a.visited = b.visited ∧ Holds a.stack b.stack

omit [Rounding] in
theorem dfsNbrL_sim (t : MST) (cur : Node) (a : DStateL) (b : DState) (dest : Nat) (h : DHolds a b) :
    Sim DHolds (dfsNbrL t cur a dest) (dfsNbr t cur b dest) := by
  obtain ⟨pa, la, va, sa⟩ := a
  obtain ⟨pb, lb, vb, sb⟩ := b
  obtain ⟨h1, h2, h3, h4⟩ := h
  dsimp only at h1 h2 h3 h4
  subst h1 h2 h3
  unfold dfsNbrL dfsNbr
  dsimp only
  split
  · simp [Sim]
  split
  · obtain ⟨s', e, h'⟩ := h4.addIndex (t.nodes dest) 0 (by cases sb <;> simp)
    simp only [e, ok_bind, pure_eq_ok]
    exact ⟨rfl, rfl, rfl, h'⟩
  split
  · split <;> exact ⟨rfl, rfl, rfl, h4⟩
  · exact ⟨rfl, rfl, rfl, h4⟩

omit [Rounding] in
theorem dfsStepL_sim (t : MST) (a : DStateL) (b : DState) (cur : Node) (rest : List Node) (hb : b.stack = cur :: rest) (h : DHolds a b) :
    Sim DHolds (dfsStepL t a) (dfsStep t b cur rest) := by
  obtain ⟨pa, la, va, sa⟩ := a
  obtain ⟨pb, lb, vb, sb⟩ := b
  obtain ⟨h1, h2, h3, h4⟩ := h
  dsimp only at h1 h2 h3 h4 hb
  subst h1 h2 h3 hb
  obtain ⟨s', e, h'⟩ := h4.delete0
  have e0 : getIndex sa 0 = .ok (some cur) := h4.get 0
  unfold dfsStepL dfsStep
  simp only [e0, e, ok_bind, deref_some]
  split
  · simp [Sim]
  split
  · exact Sim.forList (fun b c a h => dfsNbrL_sim t cur b c a h) _ _ _ ⟨rfl, rfl, rfl, h'⟩
  · exact ⟨rfl, rfl, rfl, h'⟩

omit [Rounding] in
theorem dfsLoopL_sim (t : MST) (start : Nat) : ∀ (fuel : Nat) (a : DStateL) (b : DState), DHolds a b →
    Sim DHolds (dfsLoopL t start fuel a) (dfsLoop t start fuel b) := by
  intro fuel
  induction fuel with
  | zero => intro a b h; simp [dfsLoopL, dfsLoop, Sim]
  | succ fuel ih =>
    intro a b h
    unfold dfsLoopL dfsLoop
    rw [h.2.2.2.size, h.1]
    cases hb : b.stack with
    | nil => simp only [List.length_nil, gt_iff_lt, lt_self_iff_false, ↓reduceIte]; exact h
    | cons cur rest =>
      simp only [List.length_cons, gt_iff_lt, Nat.zero_lt_succ, ↓reduceIte]
      split
      · exact Sim.bind (dfsStepL_sim t a b cur rest hb h) ih
      · exact h

omit [Rounding] in
theorem dfsL_sim (c : Cfg) (g : Graph) (sp : SubProblem) (cand : Nat) :
    Sim (fun a b => a.1 = b ∧ ∀ x, a.2.cells x = none) (dfsL c g sp cand) (dfs c g sp cand) := by
  unfold dfsL dfs
  dsimp only
  cases findStart sp.oneTree (g.nodes cand).pos with
  | none => simp [Sim]
  | some start =>
    dsimp only
    by_cases hp : start.pos ≥ sp.oneTree.numNodes
    · simp only [hp, ↓reduceIte]; rfl
    · simp only [hp, ↓reduceIte]
      obtain ⟨s0, e0, h0⟩ := (Holds.new (α := Node)).addBottom start
      simp only [e0, ok_bind]
      refine Sim.bind (R := DHolds) (dfsLoopL_sim _ _ _ _ _ ⟨rfl, rfl, rfl, h0⟩) ?_
      intro a b h
      obtain ⟨s', e, hs'⟩ := h.2.2.2.free
      simp only [e, ok_bind, h.1, h.2.1]
      split
      · cases walkCycle c g b.parent start.pos (sp.oneTree.numNodes + 1) start.pos sp with
        | error e => simp [Sim]
        | ok v => exact ⟨rfl, hs'⟩
      · exact ⟨rfl, hs'⟩

end Verif
