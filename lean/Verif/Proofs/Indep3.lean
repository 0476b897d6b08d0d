import Verif.Proofs.Indep2
import Mathlib.Data.List.Forall2

/-!
# Runs on different memory: nearest neighbour, depth-first search and `bound`
-/
namespace Verif
set_option autoImplicit false

variable [Rounding]

variable {c : Cfg}

/-- the solution of two subproblems agrees -/
structure Best0 (a b : SubProblem) : Prop where
  type : b.type = a.type
  value : b.value = a.value
  prob : b.prob = a.prob
  numCycle : b.numCycle = a.numCycle
  cycle : FR (· < a.numCycle) a.cycle b.cycle

/-- the solution and its origin agree -/
structure Best1 (a b : SubProblem) : Prop extends Best0 a b where
  id : b.id = a.id
  fatherId : b.fatherId = a.fatherId
  treeLevel : b.treeLevel = a.treeLevel

/-- two subproblems agree, apart from the tree -/
structure OpenRel (n : Nat) (a b : SubProblem) : Prop extends Best1 a b where
  forb : b.numForbidden = a.numForbidden
  mand : b.numMandatory = a.numMandatory
  edge : b.edgeToBranch = a.edgeToBranch
  list : FR (· < a.numMandatory) a.mandatory b.mandatory
  cons : ∀ i < n, ∀ j < n, b.cons i j = a.cons i j

/-- two subproblems agree -/
structure SubRel (n : Nat) (a b : SubProblem) : Prop extends OpenRel n a b where
  tree : TRel n a.oneTree b.oneTree

omit [Rounding] in
theorem OpenRel.consRel {n : Nat} {a b : SubProblem} (h : OpenRel n a b) : ConsRel n a b := ⟨h.forb, h.mand, h.list, Or.inr h.cons⟩

omit [Rounding] in
theorem OpenRel.withTree {n : Nat} {a b : SubProblem} (h : OpenRel n a b) {t t' : MST} (ht : TRel n t t') : SubRel n { a with oneTree := t } { b with oneTree := t' } :=
  { h with tree := ht }

/-- two problems agree; the best solutions are related by `B` -/
structure ProbRel (B : SubProblem → SubProblem → Prop) (p p' : Problem) : Prop where
  graph : p'.graph = p.graph
  reform : p'.reform = p.reform
  cand : p'.cand = p.cand
  totLevels : p'.totLevels = p.totLevels
  best : B p.best p'.best
  bestValue : p'.bestValue = p.bestValue
  generated : p'.generated = p.generated
  explored : p'.explored = p.explored
  fixed : p'.fixed = p.fixed
  interrupted : p'.interrupted = p.interrupted

/-- node positions and neighbours are below `n` -/
def NodesOK (n : Nat) (g : Graph) : Prop := g.numNodes = n ∧ ∀ u < n, (g.nodes u).pos < n ∧ ∀ v ∈ (g.nodes u).list, v < n

/-- and so are the ends of the edges -/
def GraphOK (n : Nat) (g : Graph) : Prop := NodesOK n g ∧ ∀ i < g.numEdges, (g.edges i).src < n ∧ (g.edges i).dest < n

/-! ### Nearest neighbour -/

/-- the tree and the cycle agree -/
structure TourRel (n : Nat) (a b : SubProblem) : Prop where
  tree : TRel n a.oneTree b.oneTree
  numCycle : b.numCycle = a.numCycle
  cycle : FR (· < a.numCycle) a.cycle b.cycle

omit [Rounding] in
theorem cycle_push {f f' : Nat → Nat × Nat} {k : Nat} (h : FR (· < k) f f') (v : Nat × Nat) : FR (· < k + 1) (upd f k v) (upd f' k v) := by
  intro i hi
  rw [upd_apply, upd_apply]
  split
  · rfl
  · exact h i (show i < k by omega)

theorem nnAdd_rel {g : Graph} {s s' : SubProblem} (h : TourRel c.maxV s s') (u v : Nat) : RRel (TourRel c.maxV) (nnAdd c g s u v) (nnAdd c g s' u v) := by
  unfold nnAdd
  refine RRel.bind (addEdge_rel h.tree _) ?_
  rintro t t' ⟨ht, -⟩
  refine RRel.ite (by rw [h.numCycle]) (fun _ => RRel.err _) (fun _ => ?_)
  refine RRel.pure ⟨ht, by show s'.numCycle + 1 = s.numCycle + 1; rw [h.numCycle], ?_⟩
  show FR _ (upd s.cycle s.numCycle (u, v)) (upd s'.cycle s'.numCycle (u, v))
  rw [h.numCycle]
  exact cycle_push h.cycle _

theorem nnTour_rel {prob : Bool} {g : Graph} (hn : g.numNodes = c.maxV) (mem mem' : SubProblem) (start : Nat) : RRel Best0 (nnTour c prob mem g start) (nnTour c prob mem' g start) := by
  unfold nnTour
  dsimp only
  refine RRel.bind (R := fun a b => b.cur = a.cur ∧ b.visited = a.visited ∧ TourRel c.maxV a.sp b.sp) (RRel.forList ?_ ?_) ?_
  · rintro a b k - ⟨h1, h2, h3⟩
    unfold nnStep
    rw [h1, h2]
    refine RRel.ite Iff.rfl (fun _ => RRel.err _) (fun _ => RRel.ite Iff.rfl (fun _ => ?_) (fun _ => ?_))
    · exact RRel.bind (nnAdd_rel h3 _ _) (fun x y hxy => RRel.pure ⟨by first | exact h1 | rfl, by first | exact h2 | rfl, hxy⟩)
    · refine RRel.bind (R := fun a b => b = a) (RRel.refl fun _ _ => rfl) ?_
      rintro _ r rfl
      exact RRel.bind (nnAdd_rel h3 _ _) (fun x y hxy => RRel.pure ⟨rfl, rfl, hxy⟩)
  · refine ⟨rfl, rfl, ?_, rfl, ?_⟩
    · rw [hn]; exact createMst_rel _ _ _ _
    · intro i hi; exact absurd hi (Nat.not_lt_zero i)
  · rintro a b ⟨-, -, h3⟩
    exact RRel.pure ⟨rfl, h3.tree.cost, h3.tree.prob, h3.numCycle, h3.cycle⟩

theorem nearestNeighbour_rel {p p' : Problem} (h : ProbRel Best0 p p') (hn : p.graph.numNodes = c.maxV) (mem mem' pmem pmem' : SubProblem) (start : Nat) :
    RRel (fun a b => ProbRel Best0 a b ∧ a.graph = p.graph ∧ a.cand = p.cand) (nearestNeighbour c mem pmem p start) (nearestNeighbour c mem' pmem' p' start) := by
  unfold nearestNeighbour
  refine RRel.bind (R := Best0) (by rw [h.graph]; exact nnTour_rel hn mem mem' start) ?_
  intro a b hab
  have fin : ∀ a b, Best0 a b → RRel (fun a b => ProbRel Best0 a b ∧ a.graph = p.graph ∧ a.cand = p.cand) (pure (if a.value < p.bestValue then { p with bestValue := a.value, best := a } else p))
      (pure (if b.value < p'.bestValue then { p' with bestValue := b.value, best := b } else p')) := by
    intro a b hab
    rw [hab.value, h.bestValue]
    refine RRel.pure ?_
    split
    · exact ⟨{ h with best := hab, bestValue := rfl }, rfl, rfl⟩
    · exact ⟨h, rfl, rfl⟩
  refine RRel.ite Iff.rfl (fun _ => ?_) (fun _ => fin a b hab)
  refine RRel.bind (R := Best0) (by rw [h.graph]; exact nnTour_rel hn pmem pmem' start) ?_
  intro x y hxy
  dsimp only
  have : Best0 (if x.value < a.value then x else a) (if y.value < b.value then y else b) := by
    rw [hxy.value, hab.value]
    split
    · exact hxy
    · exact hab
  exact fin _ _ this

/-! ### Depth-first search -/

omit [Rounding] in
theorem findStart_rel {n : Nat} {t t' : MST} (h : TRel n t t') (p : Nat) : Option.Rel NodeEq (findStart t p) (findStart t' p) := by
  unfold findStart
  rw [h.num, h.num']
  have : ∀ (l : List Nat) (a b : Option Node), (∀ i ∈ l, i < n) → Option.Rel NodeEq a b →
      Option.Rel NodeEq (l.foldl (fun r i => if (t.nodes i).pos = p then some (t.nodes i) else r) a) (l.foldl (fun r i => if (t'.nodes i).pos = p then some (t'.nodes i) else r) b) := by
    intro l
    induction l with
    | nil => intro a b _ h; exact h
    | cons i l ih =>
      intro a b hl hab
      rw [List.foldl_cons, List.foldl_cons]
      have hi := h.nodes i (hl i (by simp))
      refine ih _ _ (fun j hj => hl j (by simp [hj])) ?_
      rw [hi.pos]
      split
      · exact Option.Rel.some hi
      · exact hab
  exact this _ _ _ (fun i hi => List.mem_range.1 hi) Option.Rel.none

/-- the arrays agree and the stacks hold the same nodes -/
structure DRel (s s' : DState) : Prop where
  parent : s'.parent = s.parent
  len : s'.len = s.len
  visited : s'.visited = s.visited
  stack : List.Forall₂ NodeEq s.stack s'.stack

omit [Rounding] in
theorem dfsLoop_rel {n : Nat} {t t' : MST} (h : TRel n t t') (start : Nat) : ∀ (fuel : Nat) {s s' : DState}, DRel s s' → RRel DRel (dfsLoop t start fuel s) (dfsLoop t' start fuel s') := by
  intro fuel
  induction fuel with
  | zero => intros; rfl
  | succ fuel ih =>
    intro s s' hs
    rw [dfsLoop, dfsLoop]
    have hst := hs.stack
    revert hst
    cases hk : s.stack with
    | nil =>
      intro hst
      cases hk' : s'.stack with
      | nil => exact RRel.ok hs
      | cons _ _ => rw [hk'] at hst; cases hst
    | cons cur rest =>
      intro hst
      cases hk' : s'.stack with
      | nil => rw [hk'] at hst; cases hst
      | cons cur' rest' =>
        rw [hk'] at hst
        obtain ⟨hc, hr⟩ := List.forall₂_cons.1 hst
        dsimp only
        refine RRel.ite (by rw [hs.parent]) (fun _ => ?_) (fun _ => RRel.ok hs)
        refine RRel.bind (R := DRel) ?_ (fun a b hab => ih hab)
        unfold dfsStep
        rw [h.num, h.num', hc.pos, hs.visited]
        refine RRel.ite Iff.rfl (fun _ => RRel.err _) (fun _ => RRel.ite Iff.rfl (fun _ => ?_) (fun _ => RRel.ok ⟨hs.parent, hs.len, rfl, hr⟩))
        rw [hc.list]
        refine RRel.forList ?_ ⟨hs.parent, hs.len, rfl, hr⟩
        intro a b v _ hab
        unfold dfsNbr
        rw [h.num, h.num', hab.visited, hab.parent, hab.len, hc.pos]
        refine RRel.ite Iff.rfl (fun _ => RRel.err _) (fun hv => RRel.ite Iff.rfl (fun _ => ?_) (fun _ => RRel.ite Iff.rfl (fun _ => ?_) (fun _ => RRel.ok hab)))
        · exact RRel.ok ⟨rfl, rfl, rfl, List.Forall₂.cons (h.nodes v (by omega)) hab.stack⟩
        · exact RRel.ite Iff.rfl (fun _ => RRel.ok ⟨rfl, rfl, rfl, hab.stack⟩) (fun _ => RRel.ok hab)

omit [Rounding] in
theorem sum_nn {n : Nat} {t t' : MST} (h : TRel n t t') : ((List.range t'.numNodes).map fun i => (t'.nodes i).nn) = (List.range t.numNodes).map fun i => (t.nodes i).nn := by
  rw [h.num, h.num']
  exact List.map_congr_left fun i hi => (h.nodes i (List.mem_range.1 hi)).nn

omit [Rounding] in
theorem walkCycle_rel {n : Nat} {g : Graph} {parent : Nat → Option Nat} {start : Nat} : ∀ (fuel dst : Nat) {s s' : SubProblem}, SubRel n s s' →
    RRel (fun a b => SubRel n a b ∧ a.oneTree = s.oneTree ∧ a.value = s.value) (walkCycle c g parent start fuel dst s) (walkCycle c g parent start fuel dst s') := by
  intro fuel
  induction fuel with
  | zero => intros; rfl
  | succ fuel ih =>
    intro dst s s' h
    rw [walkCycle, walkCycle]
    cases parent dst with
    | none => exact RRel.err _
    | some fr =>
      dsimp only
      refine RRel.ite (by rw [h.numCycle]) (fun _ => RRel.err _) (fun _ => ?_)
      have h1 : SubRel n { s with cycle := upd s.cycle s.numCycle ((g.mat fr dst).src, (g.mat fr dst).dest), numCycle := s.numCycle + 1 }
          { s' with cycle := upd s'.cycle s'.numCycle ((g.mat fr dst).src, (g.mat fr dst).dest), numCycle := s'.numCycle + 1 } := by
        refine { h with numCycle := ?_, cycle := ?_ }
        · show s'.numCycle + 1 = s.numCycle + 1
          rw [h.numCycle]
        · show FR _ (upd s.cycle s.numCycle _) (upd s'.cycle s'.numCycle _)
          rw [h.numCycle]
          exact cycle_push h.cycle _
      exact RRel.ite Iff.rfl (fun _ => RRel.ok ⟨h1, rfl, rfl⟩) (fun _ => ih _ h1)

omit [Rounding] in
theorem checkHamiltonian_rel {n : Nat} {g : Graph} {s s' : SubProblem} (h : SubRel n s s') (cand : Nat) :
    RRel (fun a b => b.2 = a.2 ∧ SubRel n a.1 b.1 ∧ a.1.oneTree = s.oneTree ∧ a.1.value = s.value) (checkHamiltonian c g s cand) (checkHamiltonian c g s' cand) := by
  unfold checkHamiltonian
  refine RRel.bind (R := fun a b => SubRel n a b ∧ a.oneTree = s.oneTree ∧ a.value = s.value) ?_ ?_
  · unfold dfs
    dsimp only
    have hf := findStart_rel h.tree (g.nodes cand).pos
    revert hf
    generalize findStart s.oneTree (g.nodes cand).pos = o
    generalize findStart s'.oneTree (g.nodes cand).pos = o'
    intro hf
    cases hf with
    | none => exact RRel.err _
    | @some a b hab =>
      dsimp only
      rw [sum_nn h.tree, h.tree.num, h.tree.num', hab.pos]
      refine RRel.ite Iff.rfl (fun _ => RRel.err _) (fun _ => ?_)
      refine RRel.bind (dfsLoop_rel h.tree _ _ ⟨rfl, rfl, rfl, List.Forall₂.cons hab List.Forall₂.nil⟩) ?_
      intro x y hxy
      rw [hxy.len, hxy.parent]
      exact RRel.ite Iff.rfl (fun _ => walkCycle_rel _ _ h) (fun _ => RRel.ok ⟨h, rfl, rfl⟩)
  · rintro a b ⟨h1, h2, h3⟩
    exact RRel.pure ⟨by show decide _ = decide _; rw [h1.numCycle, h1.tree.numEdges], h1, h2, h3⟩

/-! ### `bound` -/

theorem judge_rel {n iter : Nat} {p p' : Problem} (hp : ProbRel Best1 p p') {a a' : SubProblem} (h : SubRel n a a') :
    RRel (fun x y => SubRel n x.1 y.1 ∧ x.1.oneTree = a.oneTree ∧ ProbRel Best1 x.2 y.2 ∧ x.2.graph = p.graph ∧ x.2.cand = p.cand) (judge c iter p a) (judge c iter p' a') := by
  unfold judge
  refine RRel.ite (by rw [hp.bestValue, h.value]) (fun _ => RRel.ok ⟨{ h with type := rfl }, rfl, hp, rfl, rfl⟩) (fun _ => ?_)
  have h0 : SubRel n { a with numCycle := 0 } { a' with numCycle := 0 } := { h with numCycle := rfl, cycle := fun i hi => absurd hi (Nat.not_lt_zero i) }
  refine RRel.bind (R := fun x y => y.2 = x.2 ∧ SubRel n x.1 y.1 ∧ x.1.oneTree = a.oneTree ∧ x.1.value = a.value) (by rw [hp.graph, hp.cand]; exact checkHamiltonian_rel h0 p.cand) ?_
  rintro ⟨x, r⟩ ⟨y, r'⟩ ⟨hr, hxy, ht, hv⟩
  dsimp only at hr hxy ht hv ⊢
  subst hr
  refine RRel.ite Iff.rfl (fun _ => ?_) (fun _ => ?_)
  · have h2 : SubRel n { x with type := if iter = 1 then .closed1Tree else .closedSubgradient } { y with type := if iter = 1 then .closed1Tree else .closedSubgradient } := { hxy with type := rfl }
    exact RRel.pure ⟨h2, ht, { hp with best := h2.toBest1, bestValue := h.value }, rfl, rfl⟩
  · exact RRel.pure ⟨{ hxy with type := rfl }, ht, hp, rfl, rfl⟩

/-- a generated subproblem: a 1-tree with `n` edges -/
def GenRel (n : Nat) (a b : SubProblem) : Prop := SubRel n a b ∧ a.oneTree.numEdges = n

/-- the local variables of `bound` -/
structure BRel (n : Nat) (s s' : BState) : Prop where
  pi : s'.pi = s.pi
  v : s'.v = s.v
  vOld : s'.vOld = s.vOld
  totalPi : s'.totalPi = s.totalPi
  bestLB : s'.bestLB = s.bestLB
  t0 : s'.t0 = s.t0
  gen : List.Forall₂ (GenRel n) s.gen s'.gen
  first : s'.first = s.first
  score : s'.score = s.score
  prob : ProbRel Best1 s.prob s'.prob
  graph : GraphOK n s.prob.graph
  reform : s.first = false → NodesOK n s.prob.reform
  cand : s.prob.cand < n

theorem applyPi_nodes (pi : Nat → ℚ) (m : Nat) (g : Graph) : (applyPi pi m g).nodes = g.nodes ∧ (applyPi pi m g).numNodes = g.numNodes := by
  unfold applyPi
  have : ∀ (l : List Nat) (g : Graph), (l.foldl (applyPi1 pi) g).nodes = g.nodes ∧ (l.foldl (applyPi1 pi) g).numNodes = g.numNodes := by
    intro l
    induction l with
    | nil => intro g; exact ⟨rfl, rfl⟩
    | cons j l ih =>
      intro g
      rw [List.foldl_cons]
      obtain ⟨h1, h2⟩ := ih (applyPi1 pi g j)
      rw [h1, h2]
      unfold applyPi1
      dsimp only
      split <;> exact ⟨rfl, rfl⟩
  exact this _ g

theorem NodesOK.applyPi {n : Nat} {g : Graph} (h : NodesOK n g) (pi : Nat → ℚ) (m : Nat) : NodesOK n (applyPi pi m g) := by
  obtain ⟨h1, h2⟩ := applyPi_nodes pi m g
  unfold NodesOK
  rw [h1, h2]; exact h

theorem sumEdge_eq {n : Nat} {g : Graph} {t t' : MST} (h : TRel n t t') (count : Bool) (s : ℚ × (Nat → ℚ)) (e : Nat) : sumEdge c g t' count s e = sumEdge c g t count s e := by
  unfold sumEdge
  rw [h.numEdges]
  by_cases h1 : e ≥ c.maxV
  · rw [if_pos h1, if_pos h1]
  · rw [if_neg h1, if_neg h1]
    by_cases h2 : e ≥ t.numEdges
    · rw [if_pos h2, if_pos h2]
    · rw [if_neg h2, if_neg h2, h.edges e (show e < t.numEdges by omega)]

omit [Rounding] in
theorem Forall2.append {α β : Type} {R : α → β → Prop} {l m : List α} {l' m' : List β} (h : List.Forall₂ R l l') (h2 : List.Forall₂ R m m') : List.Forall₂ R (l ++ m) (l' ++ m') := by
  induction h with
  | nil => exact h2
  | cons hab _ ih => exact List.Forall₂.cons hab ih

theorem dualUpdate_rel {n N iter : Nat} {s s' : BState} (h : BRel n s s') {a a' : SubProblem} (ha : GenRel n a a') {p p' : Problem} (hp : ProbRel Best1 p p') (hg : GraphOK n p.graph) (hc : p.cand < n) (score : Nat → ℚ) :
    BRel n (dualUpdate c N iter s a p score) (dualUpdate c N iter s' a' p' score) := by
  have hv : (fun i => if i < p'.graph.numNodes then (((a'.oneTree.nodes i).nn : ℚ) - 2) else s'.v i) = fun i => if i < p.graph.numNodes then (((a.oneTree.nodes i).nn : ℚ) - 2) else s.v i := by
    funext i
    rw [hp.graph, h.v]
    split
    · rename_i hi
      rw [(ha.1.tree.nodes i (by rw [← hg.1.1]; exact hi)).nn]
    · rfl
  unfold dualUpdate
  dsimp only
  rw [hv, hp.graph, h.totalPi, h.bestLB, h.t0, h.pi, h.vOld, h.first, ha.1.tree.cost]
  exact ⟨rfl, rfl, rfl, rfl, rfl, rfl, Forall2.append h.gen (List.Forall₂.cons ha List.Forall₂.nil), rfl, rfl, { hp with reform := rfl, graph := rfl }, hg, fun _ => hg.1, hc⟩

/-- what one iteration of `bound` returns -/
def IterRel (n : Nat) : BState ⊕ (Problem × BBType) → BState ⊕ (Problem × BBType) → Prop
  | .inl s, .inl s' => BRel n s s'
  | .inr r, .inr r' => r'.2 = r.2 ∧ r.2 ≠ .opened ∧ ProbRel Best1 r.1 r'.1 ∧ GraphOK n r.1.graph ∧ r.1.cand < n
  | _, _ => False

theorem boundIter_rel (h2 : 2 ≤ c.maxV) {cur cur' : SubProblem} (hcur : OpenRel c.maxV cur cur') (loc loc' : PState) {N iter : Nat} {s s' : BState} (h : BRel c.maxV s s') :
    RRel (IterRel c.maxV) (boundIter c cur loc N iter s) (boundIter c cur' loc' N iter s') := by
  unfold boundIter
  dsimp only
  rw [h.first, h.prob.graph, h.prob.reform, h.pi]
  have hused : NodesOK c.maxV (if s.first = true then s.prob.graph else applyPi s.pi s.prob.graph.numEdges s.prob.reform) := by
    cases hf : s.first with
    | true => exact h.graph.1
    | false => exact (h.reform hf).applyPi _ _
  generalize (if s.first = true then s.prob.graph else applyPi s.pi s.prob.graph.numEdges s.prob.reform) = used at hused ⊢
  have hpr : ∃ p p', p = (if s.first = true then s.prob else { s.prob with reform := used }) ∧
      p' = (if s.first = true then s'.prob else { s'.prob with reform := used }) ∧ ProbRel Best1 p p' ∧ GraphOK c.maxV p.graph ∧ p.cand < c.maxV := by
    refine ⟨_, _, rfl, rfl, ?_⟩
    split
    · exact ⟨h.prob, h.graph, h.cand⟩
    · exact ⟨{ h.prob with reform := rfl }, h.graph, h.cand⟩
  obtain ⟨p, p', ep, ep', hp, hg, hc⟩ := hpr
  have ep'' : (if s.first = true then s'.prob else { graph := s.prob.graph, reform := used, cand := s'.prob.cand, totLevels := s'.prob.totLevels, best := s'.prob.best, bestValue := s'.prob.bestValue, generated := s'.prob.generated, explored := s'.prob.explored, fixed := s'.prob.fixed, interrupted := s'.prob.interrupted }) = p' := by
    rw [ep', ← h.prob.graph]
  rw [ep'', ← ep, hp.graph, hp.cand]
  refine RRel.bind (constrainedPrim_rel hused.1 hcur.consRel loc loc') ?_
  rintro a1 b1 ⟨ht1, ea, eb, hval⟩
  have hs1 : SubRel c.maxV a1 b1 := by rw [ea, eb]; exact hcur.withTree ht1
  refine RRel.ite (by rw [ht1.isValid]) (fun hv => ?_) (fun _ => RRel.pure ⟨rfl, (fun h => by cases h), hp, hg, hc⟩)
  refine RRel.bind (mstToOneTree_rel (hused.2 _ hc).1 (hused.2 _ hc).2 hs1.consRel ht1) ?_
  rintro ⟨ty, a2⟩ ⟨ty', b2⟩ ⟨hty, ht2, ea2, eb2, hop⟩
  dsimp only at hty ht2 ea2 eb2 hop ⊢
  subst hty
  have hs2 : SubRel c.maxV a2 b2 := by rw [ea2, eb2]; exact hs1.withTree ht2
  refine RRel.ite Iff.rfl (fun ho => ?_) (fun _ => RRel.pure ⟨rfl, (fun h => by cases h), hp, hg, hc⟩)
  have hne : a2.oneTree.numEdges = c.maxV := by have := hop ho; have := hval hv; omega
  rw [forList_congr (fun x v _ => sumEdge_eq (c := c) (g := p.graph) ht2 _ x v), h.score]
  refine RRel.bind (R := fun a b => b = a) (RRel.refl fun _ _ => rfl) ?_
  rintro _ ⟨value, score⟩ rfl
  dsimp only
  have hs3 : SubRel c.maxV { a2 with prob := a2.oneTree.prob, type := ty', value := value } { b2 with prob := b2.oneTree.prob, type := ty', value := value } :=
    { hs2 with prob := ht2.prob, type := rfl, value := rfl }
  refine RRel.bind (judge_rel hp hs3) ?_
  rintro ⟨a3, p3⟩ ⟨b3, p3'⟩ ⟨k1, k2, k3, k4, k5⟩
  dsimp only at k1 k2 k3 k4 k5 ⊢
  refine RRel.ite (by rw [k1.type]) (fun hx => ?_) (fun _ => ?_)
  · exact RRel.pure ⟨k1.type, hx.1, k3, by rw [k4]; exact hg, by rw [k5]; exact hc⟩
  · exact RRel.pure (dualUpdate_rel h ⟨k1, by rw [k2]; exact hne⟩ k3 (by rw [k4]; exact hg) (by rw [k5]; exact hc) score)

theorem boundLoop_rel (h2 : 2 ≤ c.maxV) {cur cur' : SubProblem} (hcur : OpenRel c.maxV cur cur') (loc loc' : Nat → PState) {N : Nat} : ∀ (left iter : Nat) {s s' : BState}, BRel c.maxV s s' →
    RRel (IterRel c.maxV) (boundLoop c cur loc N left iter s) (boundLoop c cur' loc' N left iter s') := by
  intro left
  induction left with
  | zero => intro iter s s' h; exact RRel.ok h
  | succ left ih =>
    intro iter s s' h
    rw [boundLoop, boundLoop]
    refine RRel.bind (boundIter_rel h2 hcur _ _ h) ?_
    rintro (a | a) (b | b) hab
    · exact ih _ hab
    · exact hab.elim
    · exact hab.elim
    · exact RRel.pure hab

/-- the subproblem after `bound` -/
def CurRel (n : Nat) (a b : SubProblem) : Prop := OpenRel n a b ∧ (a.type = .opened → SubRel n a b ∧ a.oneTree.numEdges = n)

omit [Rounding] in
theorem pickBest_rel {n : Nat} {lb : ℚ} : ∀ {l l' : List SubProblem} {a b : SubProblem}, List.Forall₂ (GenRel n) l l' → SubRel n a b → SubRel n (l.foldl (pickBest lb) a) (l'.foldl (pickBest lb) b) := by
  intro l l' a b hl
  induction hl generalizing a b with
  | nil => intro h; exact h
  | cons hxy _ ih =>
    intro h
    rw [List.foldl_cons, List.foldl_cons]
    apply ih
    unfold pickBest
    rw [hxy.1.value, h.value]
    split
    · exact hxy.1
    · exact h

theorem pickEdge_eq {n : Nat} {g : Graph} (hg : GraphOK n g) {cur cur' best best' : SubProblem} (h1 : SubRel n cur cur') (h2 : SubRel n best best') (score : Nat → ℚ) (s : ℚ × ℚ × Int) {i : Nat} (hi : i < g.numEdges) :
    pickEdge c g cur' best' score s i = pickEdge c g cur best score s i := by
  unfold pickEdge
  dsimp only
  rw [h1.cons _ (hg.2 i hi).1 _ (hg.2 i hi).2, (h2.tree.mat _ (hg.2 i hi).1 _ (hg.2 i hi).2).1]

omit [Rounding] in
theorem foldl_congr_mem {α β : Type} {f g : β → α → β} : ∀ {l : List α} (_ : ∀ a, ∀ b ∈ l, f a b = g a b) (a : β), l.foldl f a = l.foldl g a := by
  intro l
  induction l with
  | nil => intro _ a; rfl
  | cons v l ih =>
    intro h a
    rw [List.foldl_cons, List.foldl_cons, h a v (by simp)]
    exact ih (fun a b hb => h a b (by simp [hb])) _

theorem bound_rel (h2 : 2 ≤ c.maxV) (loc loc' : Nat → PState) {p p' : Problem} (hp : ProbRel Best1 p p') (hg : GraphOK c.maxV p.graph) (hc : p.cand < c.maxV) {cur cur' : SubProblem} (hcur : OpenRel c.maxV cur cur') :
    RRel (fun a b => ProbRel Best1 a.1 b.1 ∧ GraphOK c.maxV a.1.graph ∧ a.1.cand < c.maxV ∧ CurRel c.maxV a.2 b.2) (bound c loc p cur) (bound c loc' p' cur') := by
  unfold bound
  refine RRel.ite (by rw [hp.best.value, hcur.value, hcur.treeLevel]) (fun _ => ?_) (fun _ => ?_)
  · dsimp only
    have h0 : BRel c.maxV { pi := fun _ => 0, v := fun _ => 0, vOld := fun _ => 0, totalPi := 0, bestLB := 0, t0 := 0, gen := [], first := true, score := fun _ => 0, prob := { p with explored := p.explored + 1 } }
        { pi := fun _ => 0, v := fun _ => 0, vOld := fun _ => 0, totalPi := 0, bestLB := 0, t0 := 0, gen := [], first := true, score := fun _ => 0, prob := { p' with explored := p'.explored + 1 } } :=
      ⟨rfl, rfl, rfl, rfl, rfl, rfl, List.Forall₂.nil, rfl, rfl, { hp with explored := by show p'.explored + 1 = p.explored + 1; rw [hp.explored] }, hg, (fun h => by cases h), hc⟩
    rw [hcur.treeLevel]
    refine RRel.bind (boundLoop_rel h2 hcur loc loc' _ _ h0) ?_
    rintro (s | ⟨q, ty⟩) (s' | ⟨q', ty'⟩) hss
    · have hss : BRel c.maxV s s' := hss
      dsimp only
      have hgen := hss.gen
      cases hl : s.gen with
      | nil =>
        rw [hl] at hgen
        rw [List.forall₂_nil_left_iff.1 hgen]
        exact RRel.err _
      | cons a l =>
        rw [hl] at hgen
        obtain ⟨b, l', hab, hl', e⟩ := List.forall₂_cons_left_iff.1 hgen
        rw [e]
        dsimp only
        have hab1 : SubRel c.maxV { a with oneTree := { a.oneTree with cost := a.value } } { b with oneTree := { b.oneTree with cost := b.value } } :=
          hab.1.withTree { hab.1.tree with cost := hab.1.value }
        have hbest := pickBest_rel (lb := s.bestLB) (List.Forall₂.cons hab hl') hab1
        rw [hss.bestLB]
        generalize (a :: l).foldl (pickBest s.bestLB) { a with oneTree := { a.oneTree with cost := a.value } } = x at hbest ⊢
        generalize (b :: l').foldl (pickBest s.bestLB) { b with oneTree := { b.oneTree with cost := b.value } } = y at hbest ⊢
        have hcur2 : SubRel c.maxV { a with oneTree := { a.oneTree with cost := a.value }, type := x.type, value := x.value }
            { b with oneTree := { b.oneTree with cost := b.value }, type := y.type, value := y.value } := { hab1 with type := hbest.type, value := hbest.value }
        refine RRel.ite (by rw [hbest.type]) (fun _ => ?_) (fun hno => RRel.pure ⟨hss.prob, hss.graph, hss.cand, hcur2.toOpenRel, fun h => absurd h hno⟩)
        refine RRel.pure ⟨hss.prob, hss.graph, hss.cand, ?_⟩
        have he : (List.foldl (pickEdge c s'.prob.graph { b with oneTree := { b.oneTree with cost := b.value }, type := y.type, value := y.value } y s'.score) (-1, -1, b.edgeToBranch) (List.range s'.prob.graph.numEdges)) =
            (List.foldl (pickEdge c s.prob.graph { a with oneTree := { a.oneTree with cost := a.value }, type := x.type, value := x.value } x s.score) (-1, -1, a.edgeToBranch) (List.range s.prob.graph.numEdges)) := by
          rw [hss.prob.graph, hss.score, hab.1.edge]
          exact foldl_congr_mem (fun z i hi => pickEdge_eq hss.graph hcur2 hbest _ z (List.mem_range.1 hi)) _
        have hfin : SubRel c.maxV { a with oneTree := { a.oneTree with cost := a.value }, type := x.type, value := x.value, edgeToBranch := (List.foldl (pickEdge c s.prob.graph { a with oneTree := { a.oneTree with cost := a.value }, type := x.type, value := x.value } x s.score) (-1, -1, a.edgeToBranch) (List.range s.prob.graph.numEdges)).2.2 }
            { b with oneTree := { b.oneTree with cost := b.value }, type := y.type, value := y.value, edgeToBranch := (List.foldl (pickEdge c s'.prob.graph { b with oneTree := { b.oneTree with cost := b.value }, type := y.type, value := y.value } y s'.score) (-1, -1, b.edgeToBranch) (List.range s'.prob.graph.numEdges)).2.2 } :=
          { hcur2 with edge := congrArg (fun z => z.2.2) he }
        exact ⟨hfin.toOpenRel, fun _ => ⟨hfin, hab.2⟩⟩
    · exact hss.elim
    · exact hss.elim
    · obtain ⟨e, hne, k1, k2, k3⟩ := hss
      dsimp only at e hne k1 k2 k3 ⊢
      subst e
      exact RRel.pure ⟨k1, k2, k3, { hcur with type := rfl, treeLevel := rfl }, fun h => absurd h hne⟩
  · exact RRel.pure ⟨hp, hg, hc, { hcur with type := rfl }, fun h => by cases h⟩

end Verif
