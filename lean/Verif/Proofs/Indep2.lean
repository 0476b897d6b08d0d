import Verif.Proofs.Indep1
import Verif.Model.Bound
import Verif.Model.Search

/-!
# Runs on different memory: trees and 1-trees

`TRel n t t'`: the two trees agree on everything that was set: the counters, the first `n` nodes with their neighbours, the edges, and the matrix of the first `n` nodes.
-/
namespace Verif
set_option autoImplicit false

variable [Rounding]

/-- the same node, apart from unused entries of the neighbour array -/
structure NodeEq (a b : Node) : Prop where
  x : b.x = a.x
  y : b.y = a.y
  pos : b.pos = a.pos
  nn : b.nn = a.nn
  neigh : ∀ i < a.nn, b.neigh i = a.neigh i

omit [Rounding] in
theorem NodeEq.list {a b : Node} (h : NodeEq a b) : b.list = a.list := by
  unfold Node.list
  rw [h.nn]
  apply List.map_congr_left
  intro i hi
  exact h.neigh i (List.mem_range.1 hi)

omit [Rounding] in
theorem NodeEq.push {a b : Node} (h : NodeEq a b) (v : Nat) : NodeEq (a.push v) (b.push v) := by
  refine ⟨h.x, h.y, h.pos, by simp only [Node.push]; rw [h.nn], ?_⟩
  intro i hi
  simp only [Node.push, upd_apply] at hi ⊢
  rw [h.nn]
  split
  · rfl
  · exact h.neigh i (by omega)

/-- the two trees agree on what was set -/
structure TRel (n : Nat) (t t' : MST) : Prop where
  isValid : t'.isValid = t.isValid
  cost : t'.cost = t.cost
  prob : t'.prob = t.prob
  num : t.numNodes = n
  num' : t'.numNodes = n
  numEdges : t'.numEdges = t.numEdges
  nodes : ∀ i < n, NodeEq (t.nodes i) (t'.nodes i)
  edges : FR (· < t.numEdges) t.edges t'.edges
  mat : ∀ i < n, ∀ j < n, t'.mat i j = t.mat i j ∧ t.mat i j < t.numEdges
  ends : ∀ k < t.numEdges, (t.edges k).src < n ∧ (t.edges k).dest < n

omit [Rounding] in
theorem createMst_rel (t t' : MST) (nodes : Nat → Node) (n : Nat) : TRel n (createMst t nodes n) (createMst t' nodes n) := by
  refine ⟨rfl, rfl, rfl, rfl, rfl, rfl, ?_, ?_, ?_, ?_⟩
  · intro i hi
    simp only [createMst, hi, ↓reduceIte]
    exact ⟨rfl, rfl, rfl, rfl, fun j hj => absurd hj (Nat.not_lt_zero j)⟩
  · intro k hk; exact absurd hk (Nat.not_lt_zero k)
  · intro i hi j hj
    simp [createMst, hi, hj]
  · intro k hk; exact absurd hk (Nat.not_lt_zero k)

variable {c : Cfg}

theorem addEdge_rel {t t' : MST} (h : TRel c.maxV t t') (e : Edge) : RRel (fun a b => TRel c.maxV a b ∧ a.numEdges = t.numEdges + 1) (addEdge c t e) (addEdge c t' e) := by
  unfold addEdge
  dsimp only
  rw [h.numEdges]
  refine RRel.ite Iff.rfl (fun _ => RRel.err _) (fun hk => ?_)
  have hs : e.src < c.maxV := by omega
  have hd : e.dest < c.maxV := by omega
  refine RRel.ite (by rw [(h.nodes e.src hs).nn]) (fun _ => RRel.err _) (fun _ => ?_)
  have n1 : ∀ i < c.maxV, NodeEq (upd t.nodes e.src ((t.nodes e.src).push e.dest) i) (upd t'.nodes e.src ((t'.nodes e.src).push e.dest) i) := by
    intro i hi
    rw [upd_apply, upd_apply]
    split
    · exact (h.nodes e.src hs).push _
    · exact h.nodes i hi
  refine RRel.ite (by rw [(n1 e.dest hd).nn]) (fun _ => RRel.err _) (fun _ => ?_)
  have n2 : ∀ i < c.maxV, NodeEq (upd (upd t.nodes e.src ((t.nodes e.src).push e.dest)) e.dest ((upd t.nodes e.src ((t.nodes e.src).push e.dest) e.dest).push e.src) i)
      (upd (upd t'.nodes e.src ((t'.nodes e.src).push e.dest)) e.dest ((upd t'.nodes e.src ((t'.nodes e.src).push e.dest) e.dest).push e.src) i) := by
    intro i hi
    rw [upd_apply _ e.dest, upd_apply _ e.dest]
    split
    · exact (n1 e.dest hd).push _
    · exact n1 i hi
  generalize upd (upd t.nodes e.src ((t.nodes e.src).push e.dest)) e.dest ((upd t.nodes e.src ((t.nodes e.src).push e.dest) e.dest).push e.src) = N at n2 ⊢
  generalize upd (upd t'.nodes e.src ((t'.nodes e.src).push e.dest)) e.dest ((upd t'.nodes e.src ((t'.nodes e.src).push e.dest) e.dest).push e.src) = N' at n2 ⊢
  have he : ∀ (e' : Edge), FR (· < t.numEdges + 1) (upd t.edges t.numEdges e') (upd t'.edges t.numEdges e') := by
    intro e' k hk
    rw [upd_apply, upd_apply]
    split
    · rfl
    · exact h.edges k (show k < t.numEdges by omega)
  have hmat : ∀ i < c.maxV, ∀ j < c.maxV, upd2 (upd2 t'.mat e.src e.dest t.numEdges) e.dest e.src t.numEdges i j = upd2 (upd2 t.mat e.src e.dest t.numEdges) e.dest e.src t.numEdges i j ∧
      upd2 (upd2 t.mat e.src e.dest t.numEdges) e.dest e.src t.numEdges i j < ((t.numEdges + 1 : Nat) : Int) := by
    intro i hi j hj
    have := h.mat i hi j hj
    simp only [upd2]
    split
    · exact ⟨rfl, by omega⟩
    · split
      · exact ⟨rfl, by omega⟩
      · exact ⟨this.1, by omega⟩
  have hends : ∀ (e' : Edge), e'.src = e.src → e'.dest = e.dest → ∀ k < t.numEdges + 1, (upd t.edges t.numEdges e' k).src < c.maxV ∧ (upd t.edges t.numEdges e' k).dest < c.maxV := by
    intro e' h1 h2 k hk
    rw [upd_apply]
    split
    · exact ⟨by rw [h1]; exact hs, by rw [h2]; exact hd⟩
    · exact h.ends k (by omega)
  refine RRel.ok ⟨?_, ?_⟩
  · split
    · split
      · exact ⟨h.isValid, by show fl (t'.cost + _) = fl (t.cost + _); rw [h.cost], rfl, h.num, h.num', rfl, n2, he _, hmat, hends _ rfl rfl⟩
      · exact ⟨h.isValid, by show fl (t'.cost + _) = fl (t.cost + _); rw [h.cost], by show fl (_ / _) = fl (_ / _); rw [h.prob], h.num, h.num', rfl, n2, he _, hmat, hends _ rfl rfl⟩
    · exact ⟨h.isValid, by show fl (t'.cost + _) = fl (t.cost + _); rw [h.cost], h.prob, h.num, h.num', rfl, n2, he _, hmat, hends _ rfl rfl⟩
  · split
    · split <;> rfl
    · rfl

/-! ### `constrained_prim` -/

/-- the local variables of `constrained_prim` -/
structure PsRel (n : Nat) (S : Nat → Prop) (s s' : PState) : Prop where
  heap : Fib.HRel S s.heap s'.heap
  inHeap : ∀ x < n, s'.inHeap x = s.inHeap x ∧ (s.inHeap x = true → S x)
  fathers : FR (· < n) s.fathers s'.fathers

theorem relax_rel {n : Nat} {S : Nat → Prop} {g : Graph} {al al' : Nat → Nat → Bool} (hn : g.numNodes = n) {u : Nat} (hal : ∀ v < n, al' u v = al u v) {s s' : PState} (h : PsRel n S s s') (v : Nat) :
    RRel (PsRel n S) (relax g al u s v) (relax g al' u s' v) := by
  unfold relax
  refine RRel.ite Iff.rfl (fun _ => ?_) (fun _ => RRel.pure h)
  refine RRel.ite Iff.rfl (fun _ => RRel.err _) (fun hv => ?_)
  have hv' : v < n := by omega
  refine RRel.ite (by rw [(h.inHeap v hv').1]) (fun hi => ?_) (fun _ => RRel.pure h)
  have hS : S v := (h.inHeap v hv').2 hi
  dsimp only
  refine RRel.ite (by rw [h.heap.value v hS]) (fun _ => ?_) (fun _ => RRel.pure h)
  refine RRel.ite (by rw [hal v hv']) (fun _ => ?_) (fun _ => RRel.pure h)
  refine RRel.bind (Fib.decrease_rel h.heap hS _) ?_
  intro a b hab
  exact RRel.pure ⟨hab, h.inHeap, h.fathers.upd v rfl⟩

theorem primLoop_rel {n : Nat} {S : Nat → Prop} {g : Graph} {al al' : Nat → Nat → Bool} (hn : g.numNodes = n) (hal : ∀ u < n, ∀ v < n, al' u v = al u v) : ∀ (fuel : Nat) {s s' : PState}, PsRel n S s s' →
    RRel (PsRel n S) (primLoop g al fuel s) (primLoop g al' fuel s') := by
  intro fuel
  induction fuel with
  | zero => intros; rfl
  | succ fuel ih =>
    intro s s' h
    rw [primLoop, primLoop]
    refine RRel.ite (by rw [h.heap.numNodes]) (fun _ => ?_) (fun _ => RRel.pure h)
    refine RRel.bind (Fib.extract_rel h.heap) ?_
    rintro ⟨r, H⟩ ⟨r', H'⟩ ⟨hr, hH⟩
    dsimp only at hr hH ⊢
    subst hr
    cases r' with
    | none => exact RRel.err _
    | some u =>
      dsimp only
      refine RRel.ite Iff.rfl (fun _ => RRel.err _) (fun hu => ?_)
      have hu' : u < n := by omega
      refine RRel.bind (R := PsRel n S) (RRel.forList (fun a b v _ hab => relax_rel hn (hal u hu') hab v) ?_) (fun a b hab => ih hab)
      refine ⟨hH, ?_, h.fathers⟩
      intro x hx
      simp only [upd_apply]
      split
      · exact ⟨rfl, fun h => absurd h (by simp)⟩
      · exact h.inHeap x hx

/-- the constraints of two subproblems agree, as far as they are read -/
structure ConsRel (n : Nat) (s s' : SubProblem) : Prop where
  forb : s'.numForbidden = s.numForbidden
  mand : s'.numMandatory = s.numMandatory
  list : FR (· < s.numMandatory) s.mandatory s'.mandatory
  cons : (s.numForbidden = 0 ∧ s.numMandatory = 0) ∨ ∀ i < n, ∀ j < n, s'.cons i j = s.cons i j

omit [Rounding] in
theorem cprimMand_num {c : Cfg} {pn : Nat} {g : Graph} {sp : SubProblem} {cand : Nat} {copy copy' : Graph} {i : Nat} (e : cprimMand c pn g sp cand copy i = .ok copy') : copy'.numNodes = copy.numNodes := by
  unfold cprimMand at e
  dsimp only at e
  split at e
  · cases e
  · split at e
    · split at e
      · cases e
      · cases e; rfl
    · cases e; rfl

/-- the result of `constrained_prim`: only the tree changes -/
def PrimRel (n : Nat) (s s' a b : SubProblem) : Prop :=
  TRel n a.oneTree b.oneTree ∧ a = { s with oneTree := a.oneTree } ∧ b = { s' with oneTree := b.oneTree } ∧ (a.oneTree.isValid = true → (a.oneTree.numEdges : Int) = (n : Int) - 2)

theorem constrainedPrim_rel {g : Graph} (hn : g.numNodes = c.maxV) {pn cand : Nat} {s s' : SubProblem} (h : ConsRel c.maxV s s') (loc loc' : PState) :
    RRel (PrimRel c.maxV s s') (constrainedPrim c pn g s cand loc) (constrainedPrim c pn g s' cand loc') := by
  unfold constrainedPrim
  dsimp only
  -- the arrays are set
  have h1 : ∀ (l : List Nat) (a b : PState) (D : Nat → Prop), (∀ x, D x → b.inHeap x = a.inHeap x ∧ a.inHeap x = false ∧ b.fathers x = a.fathers x) → Fib.HRel (fun _ => False) a.heap b.heap →
      RRel (fun a b => Fib.HRel (fun _ => False) a.heap b.heap ∧ ∀ x, (D x ∨ x ∈ l) → b.inHeap x = a.inHeap x ∧ a.inHeap x = false ∧ b.fathers x = a.fathers x) (forList cprimInit l a) (forList cprimInit l b) := by
    intro l
    induction l with
    | nil => intro a b D hD hH; exact RRel.ok ⟨hH, fun x hx => hD x (by simpa using hx)⟩
    | cons v l ih =>
      intro a b D hD hH
      rw [forList, forList]
      refine (ih { a with inHeap := upd a.inHeap v false, fathers := upd a.fathers v none } { b with inHeap := upd b.inHeap v false, fathers := upd b.fathers v none } (fun x => D x ∨ x = v) ?_ hH).mono ?_
      · intro x hx
        simp only [upd_apply]
        split
        · exact ⟨rfl, rfl, rfl⟩
        · rename_i hne; exact hD x (hx.resolve_right hne)
      · rintro a b ⟨k1, k2⟩
        refine ⟨k1, fun x hx => k2 x ?_⟩
        rw [List.mem_cons] at hx; tauto
  refine RRel.bind (h1 (List.range g.numNodes) _ _ (fun _ => False) (fun x hx => hx.elim) (Fib.HRel.create _ _)) ?_
  rintro s1 s1' ⟨hH, ha⟩
  -- the copy of the graph
  have hcopy : RRel (fun a b => b = a ∧ a.numNodes = c.maxV) (forList (cprimMand c pn g s cand) (List.range s.numMandatory) g) (forList (cprimMand c pn g s' cand) (List.range s'.numMandatory) g) := by
    rw [h.mand]
    refine RRel.forList ?_ ⟨rfl, hn⟩
    rintro a b i hi ⟨rfl, hb⟩
    have : cprimMand c pn g s' cand b i = cprimMand c pn g s cand b i := by
      unfold cprimMand; rw [h.list i (List.mem_range.1 hi)]
    rw [this]
    exact RRel.refl fun x e => ⟨rfl, by rw [cprimMand_num e, hb]⟩
  refine RRel.bind hcopy ?_
  rintro _ copy ⟨rfl, hcn⟩
  rw [hcn]
  -- the insertions
  have hins : ∀ (l : List Nat) (a b : PState) (S : Nat → Prop), PsRel c.maxV S a b →
      RRel (fun a b => ∃ S, PsRel c.maxV S a b) (forList (cprimInsert cand) l a) (forList (cprimInsert cand) l b) := by
    intro l
    induction l with
    | nil => intro a b S hab; exact RRel.ok ⟨S, hab⟩
    | cons v l ih =>
      intro a b S hab
      rw [forList, forList]
      refine RRel.bind (R := fun a b => ∃ S, PsRel c.maxV S a b) ?_ (fun a b ⟨S, hab⟩ => ih a b S hab)
      unfold cprimInsert
      refine RRel.ite Iff.rfl (fun _ => ?_) (fun _ => RRel.pure ⟨S, hab⟩)
      refine RRel.bind (Fib.insert_rel hab.heap v v _) ?_
      intro x y hxy
      refine RRel.pure ⟨_, hxy, ?_, hab.fathers⟩
      intro z hz
      simp only [upd_apply]
      split
      · rename_i e; exact ⟨rfl, fun _ => Or.inr e⟩
      · exact ⟨(hab.inHeap z hz).1, fun hh => Or.inl ((hab.inHeap z hz).2 hh)⟩
  have hs1 : PsRel c.maxV (fun _ => False) s1 s1' := by
    refine ⟨hH, ?_, ?_⟩
    · intro x hx
      have := ha x (Or.inr (List.mem_range.2 (by rw [hn]; exact hx)))
      exact ⟨this.1, fun h => by rw [this.2.1] at h; cases h⟩
    · intro x hx
      exact (ha x (Or.inr (List.mem_range.2 (by rw [hn]; exact hx)))).2.2
  refine RRel.bind (hins _ _ _ _ hs1) ?_
  rintro s2 s2' ⟨S, h2⟩
  have hal : ∀ u < c.maxV, ∀ v < c.maxV, s'.notForbidden u v = s.notForbidden u v := by
    intro u hu v hv
    unfold SubProblem.notForbidden
    rw [h.forb]
    rcases h.cons with ⟨h0, -⟩ | hc
    · simp [h0]
    · rw [hc u hu v hv]
  refine RRel.bind (primLoop_rel hcn hal _ h2) ?_
  intro s3 s3' h3
  -- the tree
  have ht : RRel (TRel c.maxV) (forList (addFather c g s3.fathers) (List.range g.numNodes) (createMst s.oneTree g.nodes g.numNodes))
      (forList (addFather c g s3'.fathers) (List.range g.numNodes) (createMst s'.oneTree g.nodes g.numNodes)) := by
    refine RRel.forList ?_ (by rw [hn]; exact createMst_rel _ _ _ _)
    intro a b i hi hab
    unfold addFather
    rw [h3.fathers i (show i < c.maxV by rw [← hn]; exact List.mem_range.1 hi)]
    cases s3.fathers i with
    | none => exact RRel.pure hab
    | some p => exact (addEdge_rel hab _).mono (fun _ _ h => h.1)
  refine RRel.bind ht ?_
  intro a b hab
  refine RRel.ite (by rw [hab.numEdges]) (fun he => ?_) (fun _ => ?_)
  · exact RRel.pure ⟨⟨rfl, hab.cost, hab.prob, hab.num, hab.num', hab.numEdges, hab.nodes, hab.edges, hab.mat, hab.ends⟩, rfl, rfl, fun _ => by rw [hn] at he; exact he⟩
  · exact RRel.pure ⟨⟨rfl, hab.cost, hab.prob, hab.num, hab.num', hab.numEdges, hab.nodes, hab.edges, hab.mat, hab.ends⟩, rfl, rfl, fun h => by cases h⟩

/-! ### `mst_to_one_tree` -/

omit [Rounding] in
theorem scanSpoke_eq {n : Nat} {g : Graph} {s s' : SubProblem} (h : ConsRel n s s') {src : Nat} (hs : src < n) {dest : Nat} (hd : dest < n) (a : Scan) : scanSpoke g s' src a dest = scanSpoke g s src a dest := by
  unfold scanSpoke
  rw [h.mand, h.forb]
  rcases h.cons with ⟨h0, h1⟩ | hc
  · simp [h0, h1]
  · rw [hc src hs dest hd]

omit [Rounding] in
theorem forList_congr {α β : Type} {f g : β → α → Res β} {l : List α} (h : ∀ a, ∀ b ∈ l, f a b = g a b) (a : β) : forList f l a = forList g l a := by
  induction l generalizing a with
  | nil => rfl
  | cons v l ih =>
    rw [forList, forList, h a v (by simp)]
    congr 1
    funext x
    exact ih (fun a b hb => h a b (by simp [hb])) x

theorem addAt_rel {g : Graph} {t t' : MST} (h : TRel c.maxV t t') (pos : Int) : RRel (fun a b => TRel c.maxV a b ∧ a.numEdges = t.numEdges + 1) (addAt c g t pos) (addAt c g t' pos) := by
  unfold addAt
  refine RRel.ite Iff.rfl (fun _ => RRel.err _) (fun _ => RRel.ite Iff.rfl (fun _ => RRel.err _) (fun _ => addEdge_rel h _))

/-- the result of `mst_to_one_tree`: only the tree changes -/
def TreeRel (n : Nat) (s s' : SubProblem) (a b : BBType × SubProblem) : Prop :=
  b.1 = a.1 ∧ TRel n a.2.oneTree b.2.oneTree ∧ a.2 = { s with oneTree := a.2.oneTree } ∧ b.2 = { s' with oneTree := b.2.oneTree } ∧ (a.1 = .opened → a.2.oneTree.numEdges = s.oneTree.numEdges + 2)

theorem mstToOneTree_rel {g : Graph} {cand : Nat} (hpos : (g.nodes cand).pos < c.maxV) (hl : ∀ v ∈ (g.nodes cand).list, v < c.maxV) {s s' : SubProblem} (h : ConsRel c.maxV s s') (ht : TRel c.maxV s.oneTree s'.oneTree) :
    RRel (TreeRel c.maxV s s') (mstToOneTree c g s cand) (mstToOneTree c g s' cand) := by
  unfold mstToOneTree
  dsimp only
  rw [forList_congr (fun a v hv => scanSpoke_eq h hpos (hl v hv) a)]
  refine RRel.bind (R := fun a b => b = a) (RRel.refl fun _ _ => rfl) ?_
  rintro _ sc rfl
  have two : ∀ (p q : Int), RRel (TreeRel c.maxV s s')
      (do let t1 ← addAt c g s.oneTree p
          let t2 ← addAt c g t1 q
          pure (BBType.opened, { s with oneTree := t2 }))
      (do let t1 ← addAt c g s'.oneTree p
          let t2 ← addAt c g t1 q
          pure (BBType.opened, { s' with oneTree := t2 })) := by
    intro p q
    refine RRel.bind (addAt_rel ht p) ?_
    rintro t1 t1' ⟨k1, k2⟩
    refine RRel.bind (addAt_rel k1 q) ?_
    rintro t2 t2' ⟨k3, k4⟩
    exact RRel.pure ⟨rfl, k3, rfl, rfl, fun _ => by show t2.numEdges = _; rw [k4, k2]⟩
  refine RRel.ite Iff.rfl (fun _ => RRel.pure ⟨rfl, ht, rfl, rfl, fun h => by cases h⟩) (fun _ => ?_)
  refine RRel.ite Iff.rfl (fun _ => two _ _) (fun _ => ?_)
  refine RRel.ite Iff.rfl (fun _ => two _ _) (fun _ => two _ _)

end Verif
