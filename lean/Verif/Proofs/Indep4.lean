import Verif.Proofs.Indep3
import Verif.Proofs.Branch
import Verif.Model.Search

/-!
# Runs on different memory: constraints, branching, fixing and the search
-/
namespace Verif
set_option autoImplicit false

variable [Rounding]

variable {c : Cfg}

/-! ### Constraints -/

omit [Rounding] in
theorem setCons_rel {D : Nat → Nat → Prop} {f f' : Nat → Nat → CType} (h : ∀ i j, D i j → f' i j = f i j) (a b : Nat) (x : CType) : ∀ i j, D i j → setCons f' a b x i j = setCons f a b x i j := by
  intro i j hij
  simp only [setCons, upd2_apply]
  rw [h i j hij]

/-- two subproblems agree, and the trees were not touched -/
def KeepRel (n : Nat) (s s' a b : SubProblem) : Prop := OpenRel n a b ∧ a.oneTree = s.oneTree ∧ b.oneTree = s'.oneTree

omit [Rounding] in
theorem pushMandatory_rel {n : Nat} {s s' : SubProblem} (h : OpenRel n s s') (u v : Nat) : RRel (KeepRel n s s') (pushMandatory c s u v) (pushMandatory c s' u v) := by
  unfold pushMandatory
  refine RRel.ite (by rw [h.mand]) (fun _ => RRel.err _) (fun _ => RRel.ok ⟨{ h with mand := ?_, list := ?_ }, rfl, rfl⟩)
  · show s'.numMandatory + 1 = s.numMandatory + 1
    rw [h.mand]
  · show FR _ (upd s.mandatory s.numMandatory _) (upd s'.mandatory s'.numMandatory _)
    rw [h.mand]
    exact cycle_push h.list _

omit [Rounding] in
theorem setCons_open {n : Nat} {s s' : SubProblem} (h : OpenRel n s s') (u v : Nat) (x : CType) : OpenRel n { s with cons := setCons s.cons u v x } { s' with cons := setCons s'.cons u v x } :=
  { h with cons := fun i hi j hj => setCons_rel (D := fun i j => i < n ∧ j < n) (fun i j hij => h.cons i hij.1 j hij.2) u v x i j ⟨hi, hj⟩ }

omit [Rounding] in
theorem requireEdge_rel {n : Nat} {s s' : SubProblem} (h : OpenRel n s s') (e : Edge) : RRel (KeepRel n s s') (requireEdge c s e) (requireEdge c s' e) :=
  pushMandatory_rel (setCons_open h _ _ _) _ _

omit [Rounding] in
theorem forbidEdge_rel {n : Nat} {s s' : SubProblem} (h : OpenRel n s s') (e : Edge) : OpenRel n (forbidEdge s e) (forbidEdge s' e) :=
  { setCons_open h e.src e.dest .forbidden with
    forb := by
      show s'.numForbidden + 1 = s.numForbidden + 1
      rw [h.forb] }

omit [Rounding] in
theorem filter_row {n : Nat} {f f' : Nat → Nat → CType} (h : ∀ i < n, ∀ j < n, f' i j = f i j) {i : Nat} (hi : i < n) (x : CType) :
    ((List.range n).filter fun j => f' i j = x) = (List.range n).filter fun j => f i j = x := by
  apply List.filter_congr
  intro j hj
  rw [h i hi j (List.mem_range.1 hj)]

omit [Rounding] in
theorem inferConstraints_rel {s s' : SubProblem} (h : OpenRel c.maxV s s') (fixed : Nat) :
    RRel (fun a b => OpenRel c.maxV a.1.1 b.1.1 ∧ b.1.2 = a.1.2 ∧ b.2 = a.2) (inferConstraints c s fixed) (inferConstraints c s' fixed) := by
  unfold inferConstraints
  refine RRel.forList ?_ ⟨h, rfl, rfl⟩
  rintro ⟨⟨a, k⟩, v⟩ ⟨⟨b, k'⟩, v'⟩ i hi ⟨hab, hk, hv⟩
  dsimp only at hab hk hv
  subst hk hv
  have hi := List.mem_range.1 hi
  unfold inferRow
  dsimp only
  refine RRel.ite Iff.rfl (fun hv => ?_) (fun _ => RRel.pure ⟨hab, rfl, rfl⟩)
  unfold nothingNodes rowCount
  rw [filter_row hab.cons hi, filter_row hab.cons hi, filter_row hab.cons hi]
  refine RRel.ite Iff.rfl (fun _ => ?_) (fun _ => RRel.ite Iff.rfl (fun _ => RRel.pure ⟨hab, rfl, rfl⟩) (fun _ => RRel.ite Iff.rfl (fun _ => RRel.ite Iff.rfl (fun _ => ?_) (fun _ => RRel.pure ⟨hab, rfl, rfl⟩)) (fun _ => RRel.pure ⟨hab, rfl, rfl⟩)))
  · refine RRel.bind (R := fun a b => OpenRel c.maxV a.1 b.1 ∧ b.2 = a.2) (RRel.forList ?_ ⟨hab, rfl⟩) (fun x y hxy => RRel.pure ⟨hxy.1, hxy.2, rfl⟩)
    rintro ⟨x, m⟩ ⟨y, m'⟩ j _ ⟨hxy, hm⟩
    dsimp only at hxy hm
    subst hm
    unfold inferForbid
    refine RRel.ok ⟨{ setCons_open hxy i j .forbidden with forb := ?_ }, rfl⟩
    show y.numForbidden + 1 = x.numForbidden + 1
    rw [hxy.forb]
  · refine RRel.bind (R := fun a b => OpenRel c.maxV a.1 b.1 ∧ b.2 = a.2) (RRel.forList ?_ ⟨hab, rfl⟩) (fun x y hxy => RRel.pure ⟨hxy.1, hxy.2, rfl⟩)
    rintro ⟨x, m⟩ ⟨y, m'⟩ j _ ⟨hxy, hm⟩
    dsimp only at hxy hm
    subst hm
    unfold inferMandatory
    exact RRel.bind (pushMandatory_rel (setCons_open hxy i j .mandatory) i j) (fun p q hpq => RRel.pure ⟨hpq.1, rfl⟩)

/-- all but the matrix agree; the matrix agrees on `D` -/
structure CopyRel (D : Nat → Nat → Prop) (a b : SubProblem) : Prop extends Best1 a b where
  forb : b.numForbidden = a.numForbidden
  mand : b.numMandatory = a.numMandatory
  edge : b.edgeToBranch = a.edgeToBranch
  list : FR (· < a.numMandatory) a.mandatory b.mandatory
  cons : ∀ i j, D i j → b.cons i j = a.cons i j

omit [Rounding] in
theorem copyCell_rel {n : Nat} {o o' : SubProblem} (ho : OpenRel n o o') {D : Nat → Nat → Prop} {a b : SubProblem} (h : CopyRel D a b) {i j : Nat} (hi : i < n) (hj : j < n) :
    RRel (CopyRel fun x y => D x y ∨ (x = i ∧ y = j) ∨ (x = j ∧ y = i)) (copyCell c o a (i, j)) (copyCell c o' b (i, j)) := by
  have hc : ∀ x y, (D x y ∨ (x = i ∧ y = j) ∨ (x = j ∧ y = i)) → upd2 (upd2 b.cons i j (o'.cons i j)) j i (o'.cons j i) x y = upd2 (upd2 a.cons i j (o.cons i j)) j i (o.cons j i) x y := by
    intro x y hxy
    simp only [upd2_apply]
    rw [ho.cons i hi j hj, ho.cons j hj i hi]
    split
    · rfl
    · split
      · rfl
      · rename_i h1 h2
        exact h.cons x y (by tauto)
  unfold copyCell pushMandatory
  dsimp only
  have hij := hc i j (by tauto)
  refine RRel.ite (by rw [hij]) (fun _ => ?_) (fun _ => RRel.ite (by rw [hij]) (fun _ => ?_) (fun _ => ?_))
  · refine RRel.ite (by rw [h.mand]) (fun _ => RRel.err _) (fun _ => RRel.ok { h with mand := ?_, list := ?_, cons := hc })
    · show b.numMandatory + 1 = a.numMandatory + 1
      rw [h.mand]
    · show FR _ (upd a.mandatory a.numMandatory _) (upd b.mandatory b.numMandatory _)
      rw [h.mand]
      exact cycle_push h.list _
  · refine RRel.ok { h with forb := ?_, cons := hc }
    show b.numForbidden + 1 = a.numForbidden + 1
    rw [h.forb]
  · exact RRel.ok { h with cons := hc }

omit [Rounding] in
theorem copyConstraints_rel {o o' : SubProblem} (ho : OpenRel c.maxV o o') {s s' : SubProblem} (h : Best1 s s') (he : s'.edgeToBranch = s.edgeToBranch) :
    RRel (OpenRel c.maxV) (copyConstraints c s o) (copyConstraints c s' o') := by
  unfold copyConstraints
  have key : ∀ (l : List (Nat × Nat)) (D : Nat → Nat → Prop) (a b : SubProblem), (∀ p ∈ l, p.1 < c.maxV ∧ p.2 < c.maxV) → CopyRel D a b →
      RRel (CopyRel fun x y => D x y ∨ (x, y) ∈ l ∨ (y, x) ∈ l) (forList (copyCell c o) l a) (forList (copyCell c o') l b) := by
    intro l
    induction l with
    | nil => intro D a b _ hab; exact RRel.ok { hab with cons := fun i j hij => hab.cons i j (by simpa using hij) }
    | cons p l ih =>
      intro D a b hl hab
      rw [forList, forList]
      obtain ⟨hp1, hp2⟩ := hl p (by simp)
      refine RRel.bind (copyCell_rel ho hab hp1 hp2) ?_
      intro x y hxy
      refine (ih _ x y (fun q hq => hl q (by simp [hq])) hxy).mono ?_
      intro x y hxy
      refine { hxy with cons := fun i j hij => hxy.cons i j ?_ }
      rcases hij with hij | hij | hij
      · exact Or.inl (Or.inl hij)
      · rcases List.mem_cons.1 hij with e | e
        · rw [← e]; exact Or.inl (Or.inr (Or.inl ⟨rfl, rfl⟩))
        · exact Or.inr (Or.inl e)
      · rcases List.mem_cons.1 hij with e | e
        · rw [← e]; exact Or.inl (Or.inr (Or.inr ⟨rfl, rfl⟩))
        · exact Or.inr (Or.inr e)
  have h0 : CopyRel (fun _ _ => False) { s with numMandatory := 0, numForbidden := 0 } { s' with numMandatory := 0, numForbidden := 0 } :=
    { h with forb := rfl, mand := rfl, edge := he, list := fun i hi => absurd hi (Nat.not_lt_zero i), cons := fun i j hij => hij.elim }
  refine (key _ _ _ _ ?_ h0).mono ?_
  · intro p hp
    have := mem_upperPairs.1 hp
    omega
  · intro x y hxy
    refine { hxy with cons := fun i hi j hj => hxy.cons i j ?_ }
    by_cases hij : i ≤ j
    · exact Or.inr (Or.inl (mem_upperPairs.2 ⟨hij, hj⟩))
    · exact Or.inr (Or.inr (mem_upperPairs.2 ⟨by show j ≤ i; omega, hi⟩))

omit [Rounding] in
theorem makeChild_rel {o o' : SubProblem} (ho : OpenRel c.maxV o o') (mem mem' : SubProblem) (e : Edge) (id i : Nat) : RRel (OpenRel c.maxV) (makeChild c mem o e id i) (makeChild c mem' o' e id i) := by
  unfold makeChild
  dsimp only
  refine RRel.bind (copyConstraints_rel ho ⟨⟨rfl, ho.value, ho.prob, rfl, fun i hi => absurd hi (Nat.not_lt_zero i)⟩, rfl, ?_, ?_⟩ rfl) ?_
  · show ((o'.id : Nat) : Int) = ((o.id : Nat) : Int)
    rw [ho.id]
  · show o'.treeLevel + 1 = o.treeLevel + 1
    rw [ho.treeLevel]
  · intro a b hab
    exact RRel.ite Iff.rfl (fun _ => (requireEdge_rel hab e).mono fun _ _ h => h.1) (fun _ => RRel.pure (forbidEdge_rel hab e))

/-! ### Branching -/

omit [Rounding] in
theorem forall2_findIdx {α β : Type} {R : α → β → Prop} {l : List α} {l' : List β} (h : List.Forall₂ R l l') {p : α → Bool} {q : β → Bool} (hpq : ∀ a b, R a b → q b = p a) : l'.findIdx? q = l.findIdx? p := by
  induction h with
  | nil => rfl
  | cons hab _ ih => rw [List.findIdx?_cons, List.findIdx?_cons, hpq _ _ hab, ih]

theorem insertOpen_rel {n : Nat} {a b : SubProblem} (hab : OpenRel n a b) {l l' : List SubProblem} (h : List.Forall₂ (OpenRel n) l l') : List.Forall₂ (OpenRel n) (insertOpen c a l) (insertOpen c b l') := by
  unfold insertOpen
  rw [forall2_findIdx h (p := fun o => compareSub c a o) (q := fun o => compareSub c b o)]
  · cases l.findIdx? (fun o => compareSub c a o) with
    | none => exact Forall2.append h (List.Forall₂.cons hab List.Forall₂.nil)
    | some j => exact Forall2.append (List.forall₂_take j h) (List.Forall₂.cons hab (List.forall₂_drop j h))
  · intro x y hxy
    unfold compareSub
    rw [hxy.value, hxy.prob, hab.value, hab.prob]

/-- lists and problems agree -/
def ListRel (n : Nat) (g : Graph) (cand : Nat) (a b : List SubProblem × Problem) : Prop := List.Forall₂ (OpenRel n) a.1 b.1 ∧ ProbRel Best1 a.2 b.2 ∧ a.2.graph = g ∧ a.2.cand = cand

theorem branch_rel {p p' : Problem} (hp : ProbRel Best1 p p') {l l' : List SubProblem} (hl : List.Forall₂ (OpenRel c.maxV) l l') {cur cur' : SubProblem} (hcur : OpenRel c.maxV cur cur') (mem mem' : Nat → SubProblem) :
    RRel (ListRel c.maxV p.graph p.cand) (branch c mem p l cur) (branch c mem' p' l' cur') := by
  unfold branch
  dsimp only
  have h1 : ∃ q q', q = (if cur.treeLevel + 1 > p.totLevels then { p with totLevels := p.totLevels + 1 } else p) ∧ q' = (if cur'.treeLevel + 1 > p'.totLevels then { p' with totLevels := p'.totLevels + 1 } else p') ∧
      ProbRel Best1 q q' ∧ q.graph = p.graph ∧ q.cand = p.cand := by
    refine ⟨_, _, rfl, rfl, ?_⟩
    by_cases h : cur.treeLevel + 1 > p.totLevels
    · rw [if_pos h, if_pos (by rw [hcur.treeLevel, hp.totLevels]; exact h)]
      refine ⟨{ hp with totLevels := ?_ }, rfl, rfl⟩
      show p'.totLevels + 1 = p.totLevels + 1
      rw [hp.totLevels]
    · rw [if_neg h, if_neg (by rw [hcur.treeLevel, hp.totLevels]; exact h)]
      exact ⟨hp, rfl, rfl⟩
  obtain ⟨q, q', eq, eq', hq, hg, hc⟩ := h1
  rw [← eq, ← eq', ← hg, ← hc]
  refine RRel.ite (by rw [hcur.edge]) (fun _ => RRel.err _) (fun _ => ?_)
  rw [hcur.edge, hq.graph]
  refine RRel.forList ?_ ⟨hl, hq, rfl, rfl⟩
  rintro ⟨a, r⟩ ⟨b, r'⟩ i _ ⟨hab, hr, h1, h2⟩
  dsimp only at hab hr h1 h2
  unfold branchChild
  dsimp only
  refine RRel.bind (R := OpenRel c.maxV) ?_ ?_
  · rw [hr.generated]
    exact makeChild_rel hcur _ _ _ _ _
  · intro x y hxy
    refine RRel.bind (R := fun a b => OpenRel c.maxV a.1.1 b.1.1 ∧ b.1.2 = a.1.2 ∧ b.2 = a.2) (by rw [hr.fixed]; exact inferConstraints_rel hxy _) ?_
    rintro ⟨⟨u, m⟩, v⟩ ⟨⟨u', m'⟩, v'⟩ ⟨hu, hm, hv⟩
    dsimp only at hu hm hv ⊢
    subst hm hv
    have hp2 : ProbRel Best1 { r with generated := r.generated + 1, fixed := m' } { r' with generated := r'.generated + 1, fixed := m' } :=
      { hr with
        fixed := rfl
        generated := by
          show r'.generated + 1 = r.generated + 1
          rw [hr.generated] }
    exact RRel.ite Iff.rfl (fun _ => RRel.pure ⟨insertOpen_rel hu hab, hp2, h1, h2⟩) (fun _ => RRel.pure ⟨hab, hp2, h1, h2⟩)

/-! ### Fixing -/

/-- the search for a path on the two trees -/
structure PathRel (n : Nat) (s s' : PathState) : Prop where
  parent : s'.parent = s.parent
  visited : s'.visited = s.visited
  stack : List.Forall₂ NodeEq s.stack s'.stack
  within : ∀ x y, s.parent x = some y → y < n

omit [Rounding] in
theorem pathLoop_rel {n : Nat} {t t' : MST} (h : TRel n t t') (cand stop : Nat) : ∀ (fuel : Nat) {s s' : PathState}, PathRel n s s' → RRel (PathRel n) (pathLoop t cand stop fuel s) (pathLoop t' cand stop fuel s') := by
  intro fuel
  induction fuel with
  | zero => intros; rfl
  | succ fuel ih =>
    intro s s' hs
    rw [pathLoop, pathLoop]
    have hst := hs.stack
    revert hst
    cases hk : s.stack with
    | nil =>
      intro hst
      cases hk' : s'.stack with
      | nil => exact RRel.ok hs
      | cons _ _ => rw [hk'] at hst; cases hst
    | cons cur rest =>
      intro hst
      cases hk' : s'.stack with
      | nil => rw [hk'] at hst; cases hst
      | cons cur' rest' =>
        rw [hk'] at hst
        obtain ⟨hc, hr⟩ := List.forall₂_cons.1 hst
        dsimp only
        refine RRel.ite (by rw [hs.parent]) (fun _ => ?_) (fun _ => RRel.ok hs)
        refine RRel.bind (R := PathRel n) ?_ (fun a b hab => ih hab)
        unfold pathStep
        rw [h.num, h.num', hc.pos, hs.visited]
        refine RRel.ite Iff.rfl (fun _ => RRel.err _) (fun hlt => RRel.ite Iff.rfl (fun _ => ?_) (fun _ => RRel.ok ⟨hs.parent, rfl, hr, hs.within⟩))
        rw [hc.list]
        refine RRel.forList ?_ ⟨hs.parent, rfl, hr, hs.within⟩
        intro a b v _ hab
        unfold pathNbr
        refine RRel.ite (by rw [h.num, h.num']) (fun _ => RRel.err _) (fun hv => RRel.ite (by rw [hab.visited]) (fun _ => ?_) (fun _ => RRel.ok hab))
        refine RRel.ok ⟨?_, hab.visited, List.Forall₂.cons (h.nodes v (by rw [h.num] at hv; omega)) hab.stack, ?_⟩
        · show upd b.parent v (some cur'.pos) = upd a.parent v (some cur.pos)
          rw [hab.parent, hc.pos]
        · intro x y hxy
          have hxy : upd a.parent v (some cur.pos) x = some y := hxy
          rw [upd_apply] at hxy
          split at hxy
          · cases hxy; omega
          · exact hab.within x y hxy

theorem pathWalk_rel {n : Nat} {g : Graph} {s s' : SubProblem} (h : SubRel n s s') {parent : Nat → Option Nat} (hpar : ∀ x y, parent x = some y → y < n) {start : Nat} {w : ℚ} : ∀ (fuel dst : Nat) (z : ℚ × (Nat → ℚ)), dst < n →
    pathWalk c g s' parent start w fuel dst z = pathWalk c g s parent start w fuel dst z := by
  intro fuel
  induction fuel with
  | zero => intros; rfl
  | succ fuel ih =>
    intro dst z hd
    rw [pathWalk, pathWalk]
    cases hp : parent dst with
    | none => rfl
    | some fr =>
      have hf := hpar _ _ hp
      obtain ⟨hm, hlt⟩ := h.tree.mat fr hf dst hd
      dsimp only
      rw [hm, h.cons fr hf dst hd]
      congr 1
      by_cases h0 : s.oneTree.mat fr dst < 0 ∨ s.oneTree.mat fr dst ≥ c.maxV
      · simp only [if_pos h0]
        congr 1
        funext z'
        rw [ih fr z' hf]
      · have he : s'.oneTree.edges (s.oneTree.mat fr dst).toNat = s.oneTree.edges (s.oneTree.mat fr dst).toNat := h.tree.edges _ (show (s.oneTree.mat fr dst).toNat < s.oneTree.numEdges by omega)
        rw [he]
        congr 1
        funext z'
        rw [ih fr z' hf]

theorem maxEdgePath_rel {n : Nat} {g : Graph} {s s' : SubProblem} (h : SubRel n s s') (cand : Nat) (repl : Nat → ℚ) {start stop : Nat} (hs : stop < n) :
    RRel (fun a b => b = a) (maxEdgePath c g s cand repl start stop) (maxEdgePath c g s' cand repl start stop) := by
  unfold maxEdgePath
  dsimp only
  have hf := findStart_rel h.tree start
  revert hf
  generalize findStart s.oneTree start = o
  generalize findStart s'.oneTree start = o'
  intro hf
  cases hf with
  | none => exact RRel.err _
  | @some a b hab =>
    dsimp only
    rw [sum_nn h.tree, h.tree.num, h.tree.num']
    refine RRel.bind (pathLoop_rel h.tree _ _ _ ⟨rfl, rfl, List.Forall₂.cons hab List.Forall₂.nil, fun x y hxy => by cases hxy⟩) ?_
    intro x y hxy
    rw [hxy.parent, pathWalk_rel h hxy.within _ _ _ hs]
    exact RRel.refl fun _ _ => rfl

/-- the variables of `variable_fixing` -/
structure FixRel (n : Nat) (s s' : FixState) : Prop where
  sp : SubRel n s.sp s'.sp
  full : s.sp.oneTree.numEdges = n
  num : s'.num = s.num
  repl : s'.repl = s.repl
  candRepl : s'.candRepl = s.candRepl

omit [Rounding] in
theorem KeepRel.sub {n : Nat} {s s' a b : SubProblem} (h : SubRel n s s') (k : KeepRel n s s' a b) : SubRel n a b :=
  { k.1 with tree := by rw [k.2.1, k.2.2]; exact h.tree }

theorem fixForbid_rel {p p' : Problem} (hp : ProbRel Best1 p p') (hg : GraphOK c.maxV p.graph) (hc : p.cand < c.maxV) {s s' : FixState} (h : FixRel c.maxV s s') {i : Nat} (hi : i < p.graph.numEdges) :
    RRel (FixRel c.maxV) (fixForbid c p s i) (fixForbid c p' s' i) := by
  unfold fixForbid
  dsimp only
  rw [hp.graph, hp.cand, hp.bestValue]
  obtain ⟨hs, hd⟩ := hg.2 i hi
  generalize p.graph.edges i = e at hs hd ⊢
  rw [h.sp.cons _ hs _ hd, (h.sp.tree.mat _ hs _ hd).1]
  refine RRel.ite Iff.rfl (fun _ => ?_) (fun _ => RRel.pure h)
  refine RRel.bind (R := FixRel c.maxV) (RRel.ite Iff.rfl (fun _ => ?_) (fun _ => RRel.pure h)) ?_
  · refine RRel.bind (R := fun a b => b = a) (RRel.ite Iff.rfl (fun _ => ?_) (fun _ => ?_)) ?_
    · rw [h.repl]
      exact maxEdgePath_rel h.sp _ _ hd
    · have hn := h.sp.tree.nodes _ hc
      refine RRel.ite (by rw [hn.nn]) (fun _ => RRel.err _) (fun h2 => ?_)
      rw [hn.neigh 0 (by omega), hn.neigh 1 (by omega), h.repl]
      exact RRel.ok rfl
    · rintro _ r rfl
      refine RRel.ite (by rw [h.sp.tree.cost]) (fun _ => RRel.pure ?_) (fun _ => RRel.pure ⟨h.sp, h.full, h.num, rfl, h.candRepl⟩)
      exact ⟨{ forbidEdge_rel h.sp.toOpenRel e with tree := h.sp.tree }, h.full, by show s'.num + 1 = s.num + 1; rw [h.num], rfl, h.candRepl⟩
  · intro a b hab
    refine RRel.ite Iff.rfl (fun _ => RRel.ite (by rw [hab.candRepl]) (fun _ => RRel.pure { hab with candRepl := rfl }) (fun _ => RRel.pure hab)) (fun _ => RRel.pure hab)

theorem fixMandatory_rel {p p' : Problem} (hp : ProbRel Best1 p p') {s s' : FixState} (h : FixRel c.maxV s s') {i : Nat} (hi : i < c.maxV) :
    RRel (FixRel c.maxV) (fixMandatory c p s i) (fixMandatory c p' s' i) := by
  unfold fixMandatory
  dsimp only
  have hlt : i < s.sp.oneTree.numEdges := by rw [h.full]; exact hi
  obtain ⟨hs, hd⟩ := h.sp.tree.ends i hlt
  rw [hp.graph, hp.cand, hp.bestValue, h.sp.tree.edges i hlt]
  generalize s.sp.oneTree.edges i = e at hs hd ⊢
  rw [h.sp.cons _ hs _ hd, h.sp.tree.cost, h.repl, h.candRepl]
  have req : RRel (FixRel c.maxV) (do let sp ← requireEdge c s.sp e; pure { s with sp := sp, num := s.num + 1 }) (do let sp ← requireEdge c s'.sp e; pure { s' with sp := sp, num := s'.num + 1, repl := s.repl, candRepl := s.candRepl }) := by
    refine RRel.bind (requireEdge_rel h.sp.toOpenRel e) ?_
    intro a b hab
    exact RRel.pure ⟨hab.sub h.sp, by show a.oneTree.numEdges = _; rw [hab.2.1]; exact h.full, by show s'.num + 1 = s.num + 1; rw [h.num], rfl, rfl⟩
  refine RRel.ite Iff.rfl (fun _ => RRel.ite Iff.rfl (fun _ => RRel.ite Iff.rfl (fun _ => RRel.err _) (fun _ => RRel.ite Iff.rfl (fun _ => req) (fun _ => RRel.pure h))) (fun _ => RRel.ite Iff.rfl (fun _ => req) (fun _ => RRel.pure h))) (fun _ => RRel.pure h)

theorem variableFixing_rel {p p' : Problem} (hp : ProbRel Best1 p p') (hg : GraphOK c.maxV p.graph) (hc : p.cand < c.maxV) {s s' : SubProblem} (h : SubRel c.maxV s s') (hn : s.oneTree.numEdges = c.maxV) :
    RRel (fun a b => OpenRel c.maxV a.1 b.1 ∧ b.2 = a.2) (variableFixing c p s) (variableFixing c p' s') := by
  unfold variableFixing
  rw [hp.graph]
  refine RRel.bind (RRel.forList (fun a b i hi hab => fixForbid_rel hp hg hc hab (List.mem_range.1 hi)) ⟨h, hn, rfl, rfl, rfl⟩) ?_
  intro a b hab
  refine RRel.bind (RRel.forList (fun a b i hi hab => fixMandatory_rel hp hab (List.mem_range.1 hi)) hab) ?_
  intro x y hxy
  exact RRel.pure ⟨hxy.sp.toOpenRel, hxy.num⟩

/-! ### The search -/

/-- problems agree and are well formed -/
def StateRel (n : Nat) (p p' : Problem) : Prop := ProbRel Best1 p p' ∧ GraphOK n p.graph ∧ p.cand < n

theorem bbRound_rel (h2 : 2 ≤ c.maxV) (env env' : Env) (k : Nat) {p p' : Problem} (hp : StateRel c.maxV p p') {cur cur' : SubProblem} (hcur : OpenRel c.maxV cur cur') {l l' : List SubProblem} (hl : List.Forall₂ (OpenRel c.maxV) l l') :
    RRel (fun a b => StateRel c.maxV a.1 b.1 ∧ List.Forall₂ (OpenRel c.maxV) a.2 b.2) (bbRound c env k p cur l) (bbRound c env' k p' cur' l') := by
  unfold bbRound
  obtain ⟨hp, hg, hc⟩ := hp
  refine RRel.bind (bound_rel h2 _ _ hp hg hc hcur) ?_
  rintro ⟨q, u⟩ ⟨q', u'⟩ ⟨h1, h2, h3, h4⟩
  dsimp only at h1 h2 h3 h4 ⊢
  refine RRel.ite (by rw [h4.1.type, h4.1.edge]) (fun ho => ?_) (fun _ => RRel.pure ⟨⟨h1, h2, h3⟩, hl⟩)
  obtain ⟨hs, hn⟩ := h4.2 ho.1
  refine RRel.bind (variableFixing_rel h1 h2 h3 hs hn) ?_
  rintro ⟨v, m⟩ ⟨v', m'⟩ ⟨hv, hm⟩
  dsimp only at hv hm ⊢
  subst hm
  have hq : ProbRel Best1 { q with fixed := q.fixed + m' } { q' with fixed := q'.fixed + m' } :=
    { h1 with
      fixed := by
        show q'.fixed + m' = q.fixed + m'
        rw [h1.fixed] }
  refine RRel.bind (branch_rel hq hl hv _ _) ?_
  rintro ⟨a, r⟩ ⟨b, r'⟩ ⟨k1, k2, k3, k4⟩
  dsimp only at k1 k2 k3 k4 ⊢
  exact RRel.pure ⟨⟨k2, by rw [k3]; exact h2, by rw [k4]; exact h3⟩, k1⟩

theorem bbLoop_rel (h2 : 2 ≤ c.maxV) {env env' : Env} (hclk : env'.clk = env.clk) : ∀ (fuel k : Nat) {p p' : Problem} {l l' : List SubProblem}, StateRel c.maxV p p' → List.Forall₂ (OpenRel c.maxV) l l' →
    RRel (fun a b => StateRel c.maxV a.1 b.1 ∧ List.Forall₂ (OpenRel c.maxV) a.2.1 b.2.1 ∧ b.2.2 = a.2.2) (bbLoop c env fuel k p l) (bbLoop c env' fuel k p' l') := by
  intro fuel
  induction fuel with
  | zero => intros; rfl
  | succ fuel ih =>
    intro k p p' l l' hp hl
    cases hl with
    | nil => exact RRel.ok ⟨hp, List.Forall₂.nil, rfl⟩
    | cons hab hl =>
      rw [bbLoop, bbLoop]
      refine RRel.ite (by rw [hclk]) (fun _ => RRel.ok ⟨hp, List.Forall₂.cons hab hl, rfl⟩) (fun _ => ?_)
      refine RRel.bind (bbRound_rel h2 env env' k hp hab hl) ?_
      rintro ⟨q, m⟩ ⟨q', m'⟩ ⟨h1, h2⟩
      exact ih (k + 1) h1 h2

theorem candStep_rel {env env' : Env} {g : Graph} (hg : GraphOK c.maxV g) {s s' : Problem × Nat × ℚ × ℚ} (h : ProbRel Best0 s.1 s'.1 ∧ s.1.graph = g ∧ s.2.1 < c.maxV ∧ s'.2 = s.2) {i : Nat} (hi : i < c.maxV) :
    RRel (fun a b => ProbRel Best0 a.1 b.1 ∧ a.1.graph = g ∧ a.2.1 < c.maxV ∧ b.2 = a.2) (candStep c env s i) (candStep c env' s' i) := by
  obtain ⟨hp, he, hc, hs⟩ := h
  unfold candStep
  have h0 : ProbRel Best0 { s.1 with cand := i } { s'.1 with cand := i } := { hp with cand := rfl }
  refine RRel.bind (nearestNeighbour_rel h0 (by show s.1.graph.numNodes = _; rw [he]; exact hg.1.1) _ _ _ _ i) ?_
  rintro q q' ⟨hq, hq1, hq2⟩
  have hq1 : q.graph = g := hq1.trans he
  have hq2 : q.cand = i := hq2
  rw [hq.graph, hq.cand, hq1, hq2]
  have hcr : ConsRel c.maxV { env.cand i with numForbidden := 0, numMandatory := 0 } { env'.cand i with numForbidden := 0, numMandatory := 0 } :=
    ⟨rfl, rfl, fun j hj => absurd hj (Nat.not_lt_zero j), Or.inl ⟨rfl, rfl⟩⟩
  refine RRel.bind (constrainedPrim_rel hg.1.1 hcr _ _) ?_
  rintro a b ⟨ht, ea, eb, -⟩
  have hab : ConsRel c.maxV a b := by rw [ea, eb]; exact ⟨rfl, rfl, fun j hj => absurd hj (Nat.not_lt_zero j), Or.inl ⟨rfl, rfl⟩⟩
  refine RRel.bind (mstToOneTree_rel (hg.1.2 i hi).1 (hg.1.2 i hi).2 hab ht) ?_
  rintro ⟨ty, x⟩ ⟨ty', y⟩ ⟨-, hxy, -, -, -⟩
  dsimp only at hxy ⊢
  rw [hxy.cost, hxy.prob, hs]
  exact RRel.ite Iff.rfl (fun _ => RRel.pure ⟨hq, hq1, hi, rfl⟩) (fun _ => RRel.pure ⟨hq, hq1, hc, rfl⟩)

theorem findCandidate_rel (h2 : 2 ≤ c.maxV) {env env' : Env} {p : Problem} (hg : GraphOK c.maxV p.graph) :
    RRel (fun a b => ProbRel Best0 a.1 b.1 ∧ a.1.graph = p.graph ∧ a.2 < c.maxV ∧ b.2 = a.2) (findCandidate c env p) (findCandidate c env' p) := by
  unfold findCandidate
  refine RRel.bind (RRel.forList (fun a b i hi hab => candStep_rel hg hab (by rw [← hg.1.1]; exact List.mem_range.1 hi)) ⟨⟨rfl, rfl, rfl, rfl, ⟨rfl, rfl, rfl, rfl, fun _ _ => rfl⟩, rfl, rfl, rfl, rfl, rfl⟩, rfl, by show 0 < c.maxV; omega, rfl⟩) ?_
  rintro ⟨q, i, z⟩ ⟨q', i', z'⟩ ⟨h1, h2, h3, h4⟩
  dsimp only at h1 h2 h3 h4 ⊢
  cases h4
  exact RRel.pure ⟨h1, h2, h3, rfl⟩

omit [Rounding] in
theorem bbRoot_rel (env env' : Env) : OpenRel c.maxV (bbRoot c env) (bbRoot c env') := by
  unfold bbRoot
  obtain ⟨m, e, hm⟩ := initializeMatrix_ok c { env.root with treeLevel := 1, id := 1, fatherId := 0, type := .opened, prob := 0, value := INFINITE, numCycle := 0, edgeToBranch := -1 }
  obtain ⟨m', e', hm'⟩ := initializeMatrix_ok c { env'.root with treeLevel := 1, id := 1, fatherId := 0, type := .opened, prob := 0, value := INFINITE, numCycle := 0, edgeToBranch := -1 }
  rw [e, e']
  refine { type := rfl, value := rfl, prob := rfl, numCycle := rfl, cycle := fun i hi => absurd hi (Nat.not_lt_zero i), id := rfl, fatherId := rfl, treeLevel := rfl, forb := rfl, mand := rfl, edge := rfl, list := fun i hi => absurd hi (Nat.not_lt_zero i), cons := ?_ }
  intro i hi j hj
  show m' i j = m i j
  rw [hm i hi j hj, hm' i hi j hj]

theorem branchAndBound_rel (h2 : 2 ≤ c.maxV) {env env' : Env} (hclk : env'.clk = env.clk) (fuel : Nat) {p : Problem} (hg : GraphOK c.maxV p.graph) :
    RRel (fun a b => ProbRel Best1 a.1 b.1 ∧ List.Forall₂ (OpenRel c.maxV) a.2 b.2) (branchAndBound c env fuel p) (branchAndBound c env' fuel p) := by
  unfold branchAndBound
  refine RRel.ite Iff.rfl (fun _ => ?_) (fun _ => RRel.pure ⟨⟨rfl, rfl, rfl, rfl, ⟨⟨rfl, rfl, rfl, rfl, fun _ _ => rfl⟩, rfl, rfl, rfl⟩, rfl, rfl, rfl, rfl, rfl⟩, List.Forall₂.nil⟩)
  refine RRel.bind (findCandidate_rel (p := { p with bestValue := INFINITE }) h2 hg) ?_
  rintro ⟨q, i⟩ ⟨q', i'⟩ ⟨h1, h3, h4, h5⟩
  dsimp only at h1 h3 h4 h5 ⊢
  subst h5
  have hst : StateRel c.maxV (bbStart q i') (bbStart q' i') := by
    refine ⟨⟨h1.graph, h1.graph, rfl, rfl, ⟨⟨h1.best.type, h1.best.value, h1.best.prob, h1.best.numCycle, h1.best.cycle⟩, rfl, rfl, rfl⟩, h1.bestValue, rfl, rfl, rfl, rfl⟩, ?_, h4⟩
    show GraphOK _ q.graph
    rw [h3]; exact hg
  refine RRel.bind (bbLoop_rel h2 hclk fuel 0 hst (List.Forall₂.cons (bbRoot_rel env env') List.Forall₂.nil)) ?_
  rintro ⟨a, l, k⟩ ⟨b, l', k'⟩ ⟨⟨k1, -, -⟩, k2, k3⟩
  dsimp only at k1 k2 k3 ⊢
  subst k3
  rw [hclk]
  refine RRel.pure ⟨?_, k2⟩
  show ProbRel Best1 (if env.clk k' then _ else _) (if env.clk k' then _ else _)
  split
  · exact { k1 with interrupted := rfl }
  · exact k1

end Verif
