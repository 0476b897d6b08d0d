import Verif.Props.Dfs
import Verif.Props.Fixing
import Verif.Model.Search

/-!
# The nearest neighbour tours
-/
namespace Verif
open Verif.Spec
set_option autoImplicit false

variable [Rounding] {c : Cfg} {g : Graph}

omit [Rounding] in
theorem mat_prob (st : Stored g) {u v : Nat} (h : s(u, v) ∈ edgeSet g) : (g.mat u v).prob = edgeProb g s(u, v) := by
  obtain ⟨i, hi, hj⟩ := mem_edgeSet_adj.1 h
  have h1 := st.mat i hi u v hj
  have hj' : Joins (g.edges i) (s(u, v) : Sym2 Nat).inf (s(u, v) : Sym2 Nat).sup := by
    rcases le_total u v with hh | hh
    · simpa [Sym2.inf_mk, Sym2.sup_mk, hh] using hj
    · have : Joins (g.edges i) v u := hj.symm
      simpa [Sym2.inf_mk, Sym2.sup_mk, hh] using this
  have h2 := st.mat i hi _ _ hj'
  simp only [content, Prod.mk.injEq] at h1 h2
  unfold edgeProb
  rw [h1.2.2.2.2, h2.2.2.2.2]

/-- what the search for the next city minimises -/
def nnKey (prob : Bool) (g : Graph) (e : Sym2 Nat) : ℚ := if prob then - edgeProb g e else weight g e

def nnSgn (prob : Bool) (x : ℚ) : ℚ := if prob then -x else x

omit [Rounding] in
theorem nnPick_list (st : Stored g) {prob : Bool} {cur : Nat} {vis : Nat → Bool} : ∀ (l : List Nat) (s : ℚ × Nat), (∀ v ∈ l, v < c.maxV ∧ s(cur, v) ∈ edgeSet g) →
    ∃ r, forList (nnPick c prob g cur vis) l s = .ok r ∧ nnSgn prob r.1 ≤ nnSgn prob s.1 ∧
      (∀ v ∈ l, vis v = false → nnSgn prob r.1 ≤ nnKey prob g s(cur, v)) ∧
      (r = s ∨ (r.2 ∈ l ∧ vis r.2 = false ∧ nnSgn prob r.1 = nnKey prob g s(cur, r.2))) := by
  intro l
  induction l with
  | nil => intro s _; exact ⟨s, rfl, le_refl _, by simp, Or.inl rfl⟩
  | cons v l ih =>
    intro s hl
    obtain ⟨hv, hE⟩ := hl v (by simp)
    have hw := (st.mat_weight hE).1
    have hp := mat_prob st hE
    obtain ⟨s1, e1, k1, k2, k3⟩ : ∃ s1, nnPick c prob g cur vis s v = .ok s1 ∧ nnSgn prob s1.1 ≤ nnSgn prob s.1 ∧
        (vis v = false → nnSgn prob s1.1 ≤ nnKey prob g s(cur, v)) ∧ (s1 = s ∨ (s1.2 = v ∧ vis v = false ∧ nnSgn prob s1.1 = nnKey prob g s(cur, v))) := by
      unfold nnPick
      rw [if_neg (by omega)]
      simp only
      cases prob with
      | false =>
        simp only [Bool.false_eq_true, ↓reduceIte, nnSgn, nnKey, hw]
        split
        · next h => exact ⟨_, rfl, le_of_lt h.1, fun _ => le_refl _, Or.inr ⟨rfl, h.2, rfl⟩⟩
        · next h => exact ⟨_, rfl, le_refl _, fun h' => not_lt.1 fun h'' => h ⟨h'', h'⟩, Or.inl rfl⟩
      | true =>
        simp only [↓reduceIte, nnSgn, nnKey, hp]
        split
        · next h => exact ⟨_, rfl, neg_le_neg (le_of_lt h.1), fun _ => le_refl _, Or.inr ⟨rfl, h.2, rfl⟩⟩
        · next h => exact ⟨_, rfl, le_refl _, fun h' => neg_le_neg (not_lt.1 fun h'' => h ⟨h'', h'⟩), Or.inl rfl⟩
    obtain ⟨r, e2, q1, q2, q3⟩ := ih s1 (fun v' h' => hl v' (by simp [h']))
    refine ⟨r, by rw [forList, e1]; exact e2, q1.trans k1, ?_, ?_⟩
    · intro v' hv' hvis
      rcases List.mem_cons.1 hv' with rfl | h'
      · exact q1.trans (k2 hvis)
      · exact q2 v' h' hvis
    · rcases q3 with rfl | ⟨q4, q5, q6⟩
      · rcases k3 with h | ⟨rfl, h2, h3⟩
        · exact Or.inl h
        · exact Or.inr ⟨by simp, h2, h3⟩
      · exact Or.inr ⟨by simp [q4], q5, q6⟩

/-- the edges along a path, from the matrix -/
def matE (g : Graph) : List Nat → List Edge
  | [] => []
  | [_] => []
  | a :: b :: l => g.mat a b :: matE g (b :: l)

omit [Rounding] in
theorem matE_snoc (g : Graph) (q : List Nat) (a b : Nat) : matE g (q ++ [a, b]) = matE g (q ++ [a]) ++ [g.mat a b] := by
  induction q with
  | nil => simp [matE]
  | cons x q ih =>
    cases q with
    | nil => simp [matE]
    | cons y q => simp only [List.cons_append, matE] at ih ⊢; rw [ih]

omit [Rounding] in
theorem pathE_snoc (q : List Nat) (a b : Nat) : pathE (q ++ [a, b]) = pathE (q ++ [a]) ++ [s(a, b)] := by
  induction q with
  | nil => simp [pathE]
  | cons x q ih =>
    cases q with
    | nil => simp [pathE]
    | cons y q => simp only [List.cons_append, pathE] at ih ⊢; rw [ih]

omit [Rounding] in
theorem simpleList_of {n : Nat} {L : List Edge} (h1 : ∀ e ∈ L, ∀ x ∈ epair e, x < n) (h2 : ∀ e ∈ L, ¬ (epair e).IsDiag) (h3 : (L.map epair).Nodup) : SimpleList n L := by
  refine ⟨?_, ?_⟩
  · intro e he
    refine ⟨h1 e he _ (by simp [epair]), h1 e he _ (by simp [epair]), fun h => h2 e he (by rw [epair, h]; simp)⟩
  · have := List.pairwise_map.1 h3
    exact this

/-- the subproblem after some edges have been added and recorded -/
structure NNRec (c : Cfg) (n : Nat) (sp0 sp : SubProblem) (L : List Edge) (P : List (Sym2 Nat)) : Prop where
  rep : TreeRep c sp.oneTree n L
  num : sp.numCycle = P.length
  cyc : (List.range P.length).map (fun i => s((sp.cycle i).1, (sp.cycle i).2)) = P
  frame : sp = { sp0 with oneTree := sp.oneTree, cycle := sp.cycle, numCycle := sp.numCycle }

theorem nnAdd_ok {n : Nat} (hn : n = c.maxV) {sp0 sp : SubProblem} {L : List Edge} {P : List (Sym2 Nat)} (h : NNRec c n sp0 sp L P) {u v : Nat}
    (hs : SimpleList n (L ++ [g.mat u v])) (hL : L.length < n) (hP : P.length < n) :
    ∃ sp', nnAdd c g sp u v = .ok sp' ∧ NNRec c n sp0 sp' (L ++ [g.mat u v]) (P ++ [s(u, v)]) := by
  obtain ⟨h1, h2, -⟩ := hs.1 (g.mat u v) (by simp)
  obtain ⟨t, e⟩ := add_ok h.rep (le_of_eq hn) h1 h2 (by omega) (fun x hx => by
    have := nbrs_length_le hs hx; omega)
  have hnum := h.num
  refine ⟨_, by unfold nnAdd; rw [e]; simp only [ok_bind]; rw [if_neg (by omega)]; rfl, ?_⟩
  refine ⟨treeRep_add h.rep h1 h2 e, by simp [hnum], ?_, ?_⟩
  · rw [List.length_append, List.length_singleton, List.range_succ, List.map_append]
    congr 1
    · conv_rhs => rw [← h.cyc]
      apply List.map_congr_left
      intro i hi
      rw [List.mem_range] at hi
      simp only
      rw [upd_ne _ _ (by omega)]
    · simp [hnum]
  · rw [h.frame]

/-- after `k` rounds: the path `t` has been walked -/
structure NNInv (c : Cfg) (prob : Bool) (g : Graph) (sp0 : SubProblem) (start : Nat) (s : NNState) (q : List Nat) : Prop where
  head : (q ++ [s.cur]).head? = some start
  nodup : (q ++ [s.cur]).Nodup
  lt : ∀ x ∈ q ++ [s.cur], x < c.maxV
  vis : ∀ x < c.maxV, (s.visited x = true ↔ x ∈ q)
  walked : NNRec c c.maxV sp0 s.sp (matE g (q ++ [s.cur])) (pathE (q ++ [s.cur]))
  near : NearestFirst c.maxV (nnKey prob g) (q ++ [s.cur])

/-- a complete graph that fills the arrays, with finite weights and (when they matter) probabilities above -1 -/
structure NNReady (c : Cfg) (prob : Bool) (g : Graph) : Prop where
  stored : Stored g
  nodes : g.numNodes = c.maxV
  three : 3 ≤ c.maxV
  complete : ∀ u < c.maxV, ∀ v < c.maxV, u ≠ v → s(u, v) ∈ edgeSet g
  key : ∀ e ∈ edgeSet g, nnKey prob g e < nnSgn prob (if prob then -1 else INFINITE)

omit [Rounding] in
theorem matE_epair (h : Stored g) : ∀ t : List Nat, (∀ e ∈ pathE t, e ∈ edgeSet g) → (matE g t).map epair = pathE t := by
  intro t
  induction t with
  | nil => intro _; rfl
  | cons a t ih =>
    intro hE
    cases t with
    | nil => rfl
    | cons b t =>
      rw [matE, pathE, List.map_cons, ih (fun e he => hE e (by simp [pathE, he]))]
      congr 1
      exact mat_ends h (hE _ (by simp [pathE]))

omit [Rounding] in
theorem pathE_edge {prob : Bool} (h : NNReady c prob g) {t : List Nat} (nd : t.Nodup) (hlt : ∀ x ∈ t, x < c.maxV) : ∀ e ∈ pathE t, e ∈ edgeSet g := by
  intro e he
  have h1 := pathE_mem he
  induction e using Sym2.ind with
  | _ u v => exact h.complete u (hlt u (h1 u (by simp))) v (hlt v (h1 v (by simp))) (by rintro rfl; exact pathE_loopless nd he)

omit [Rounding] in
theorem near_snoc {n : Nat} {w : Sym2 Nat → ℚ} {q : List Nat} {a b : Nat} (h : NearestFirst n w (q ++ [a])) (hb : ∀ v < n, v ∉ q → v ≠ a → w s(a, b) ≤ w s(a, v)) :
    NearestFirst n w (q ++ [a, b]) := by
  intro A x y B e
  by_cases hB : B = []
  · subst hB
    have e' : (q ++ [a]) ++ [b] = (A ++ [x]) ++ [y] := by simpa using e
    obtain ⟨e1, e2⟩ := List.append_inj' e' rfl
    obtain ⟨e3, e4⟩ := List.append_inj' e1 rfl
    simp only [List.cons.injEq, and_true] at e2 e4
    subst e2 e3 e4
    exact hb
  · obtain ⟨B', z, rfl⟩ := List.eq_nil_or_concat B |>.resolve_left hB
    refine h A x y B' ?_
    have e' : (q ++ [a]) ++ [b] = (A ++ x :: y :: B') ++ [z] := by simpa using e
    exact (List.append_inj' e' rfl).1

theorem NNInv.length {prob : Bool} {sp0 : SubProblem} {start : Nat} {s : NNState} {q : List Nat} (h : NNInv c prob g sp0 start s q) : q.length + 1 ≤ c.maxV := by
  have h1 : (q ++ [s.cur]).toFinset ⊆ Finset.range c.maxV := by
    intro x hx; rw [List.mem_toFinset] at hx; exact Finset.mem_range.2 (h.lt x hx)
  have := Finset.card_le_card h1
  rw [List.toFinset_card_of_nodup h.nodup, Finset.card_range] at this
  simpa using this

omit [Rounding] in
theorem matE_length (g : Graph) : ∀ t, (matE g t).length = t.length - 1
  | [] => rfl
  | [_] => rfl
  | a :: b :: l => by rw [matE, List.length_cons, matE_length g (b :: l)]; simp

omit [Rounding] in
theorem path_simple {prob : Bool} (h : NNReady c prob g) {t : List Nat} (nd : t.Nodup) (hlt : ∀ x ∈ t, x < c.maxV) : SimpleList c.maxV (matE g t) := by
  have hm := matE_epair h.stored t (pathE_edge h nd hlt)
  have hmem : ∀ e ∈ matE g t, epair e ∈ pathE t := fun e he => by rw [← hm]; exact List.mem_map_of_mem he
  refine simpleList_of (fun e he x hx => hlt x (pathE_mem (hmem e he) x hx)) ?_ (by rw [hm]; exact pathE_nodup nd)
  intro e he hd
  have := hmem e he
  revert hd this
  generalize epair e = e'
  induction e' using Sym2.ind with
  | _ u v =>
    intro hd h'
    have : u = v := by simpa using hd
    subst this
    exact pathE_loopless nd h'

theorem nnStep_mid {prob : Bool} (h : NNReady c prob g) {sp0 : SubProblem} {start : Nat} {s : NNState} {q : List Nat} (hi : NNInv c prob g sp0 start s q)
    (hk : q.length + 1 < c.maxV) : ∃ s', nnStep c prob g start s q.length = .ok s' ∧ NNInv c prob g sp0 start s' (q ++ [s.cur]) := by
  have hcur : s.cur < c.maxV := hi.lt _ (by simp)
  -- the neighbours
  have hnb : ∀ v, v ∈ (g.nodes s.cur).list ↔ v < c.maxV ∧ v ≠ s.cur := by
    intro v
    rw [h.stored.nbr _ (by rw [h.nodes]; exact hcur), ← mem_edgeSet_adj]
    constructor
    · intro h'
      have := h.stored.within _ _ h'
      rw [h.nodes, Finset.mem_range, Finset.mem_range] at this
      exact ⟨this.2, by rintro rfl; exact h.stored.noloop _ h'⟩
    · rintro ⟨h1, h2⟩; exact h.complete _ hcur _ h1 (Ne.symm h2)
  obtain ⟨r, e1, k1, k2, k3⟩ := nnPick_list (c := c) h.stored (prob := prob) (vis := s.visited) (cur := s.cur) (g.nodes s.cur).list
    (if prob then -1 else INFINITE, s.cur) (fun v hv => by
      have := (hnb v).1 hv
      exact ⟨this.1, h.complete _ hcur _ this.1 (Ne.symm this.2)⟩)
  -- one of them is free
  have hfree : ∃ v < c.maxV, v ∉ q ++ [s.cur] := by
    by_contra hcon
    have hsub : Finset.range c.maxV ⊆ (q ++ [s.cur]).toFinset := by
      intro v hv
      rw [Finset.mem_range] at hv
      rw [List.mem_toFinset]
      by_contra h'
      exact hcon ⟨v, hv, h'⟩
    have := Finset.card_le_card hsub
    have h2 := List.toFinset_card_le (q ++ [s.cur])
    simp only [Finset.card_range, List.length_append, List.length_singleton] at this h2
    omega
  obtain ⟨v, hv, hvq⟩ := hfree
  simp only [List.mem_append, List.mem_singleton, not_or] at hvq
  have hvv : s.visited v = false := by
    rw [← Bool.not_eq_true, hi.vis v hv]; exact hvq.1
  have hlt : nnSgn prob r.1 < nnSgn prob (if prob then -1 else INFINITE) :=
    lt_of_le_of_lt (k2 v ((hnb v).2 ⟨hv, hvq.2⟩) hvv) (h.key _ (h.complete _ hcur _ hv (Ne.symm hvq.2)))
  rcases k3 with rfl | ⟨k4, k5, k6⟩
  · exact absurd hlt (lt_irrefl _)
  obtain ⟨hr1, hr2⟩ := (hnb r.2).1 k4
  have hrq : r.2 ∉ q := by rw [← hi.vis _ hr1, k5]; simp
  have nd' : (q ++ [s.cur, r.2]).Nodup := by
    rw [show q ++ [s.cur, r.2] = (q ++ [s.cur]) ++ [r.2] by simp, List.nodup_append]
    refine ⟨hi.nodup, by simp, ?_⟩
    intro a ha b hb
    simp only [List.mem_append, List.mem_singleton] at ha hb
    subst hb
    rintro rfl
    rcases ha with ha | ha
    · exact hrq ha
    · exact hr2 ha
  have lt' : ∀ x ∈ q ++ [s.cur, r.2], x < c.maxV := by
    intro x hx
    rw [show q ++ [s.cur, r.2] = (q ++ [s.cur]) ++ [r.2] by simp, List.mem_append, List.mem_singleton] at hx
    rcases hx with hx | rfl
    · exact hi.lt x hx
    · exact hr1
  have hsim := path_simple h nd' lt'
  rw [matE_snoc] at hsim
  obtain ⟨sp', e2, hw⟩ := nnAdd_ok (g := g) rfl hi.walked hsim (by rw [matE_length]; simp; omega) (by rw [pathE_length]; simp; omega)
  refine ⟨_, by
    unfold nnStep
    rw [if_neg (by omega), h.nodes, if_neg (by omega), e1]
    simp only [ok_bind, e2]
    rfl, ?_⟩
  refine ⟨?_, by simpa using nd', by simpa using lt', ?_, ?_, ?_⟩
  · have := hi.head
    simp only at this ⊢
    rw [List.append_assoc] at *
    cases q with
    | nil => simpa using this
    | cons a q => simpa using this
  · intro x hx
    simp only [List.mem_append, List.mem_singleton]
    rw [← hi.vis x hx, upd_apply]
    split
    · next h' => simp [h']
    · next h' => simp [h']
  · simp only
    rw [List.append_assoc]
    simp only [List.singleton_append]
    rw [matE_snoc, pathE_snoc]; exact hw
  · simp only
    rw [List.append_assoc]
    simp only [List.singleton_append]
    refine near_snoc hi.near ?_
    intro v hv hvq hvne
    rw [← k6]
    refine k2 v ((hnb v).2 ⟨hv, hvne⟩) ?_
    rw [← Bool.not_eq_true, hi.vis v hv]; exact hvq

theorem nnLoop_ok {prob : Bool} (h : NNReady c prob g) {sp0 : SubProblem} {start : Nat} (hst : start < c.maxV)
    (h0 : NNRec c c.maxV sp0 sp0 [] []) : ∀ k, k + 1 ≤ c.maxV →
    ∃ s q, forList (nnStep c prob g start) (List.range k) { sp := sp0, cur := start, visited := fun _ => false } = .ok s ∧ q.length = k ∧ NNInv c prob g sp0 start s q := by
  intro k
  induction k with
  | zero =>
    intro _
    refine ⟨_, [], rfl, rfl, rfl, by simp, by simpa using hst, by simp, h0, ?_⟩
    intro A a b B e
    have := congrArg List.length e
    simp at this
    omega
  | succ k ih =>
    intro hk
    obtain ⟨s, q, e, hq, hi⟩ := ih (by omega)
    obtain ⟨s', e', hi'⟩ := nnStep_mid h hi (by omega)
    refine ⟨s', q ++ [s.cur], ?_, by simp [hq], hi'⟩
    rw [List.range_succ, forList_snoc, e]
    rw [hq] at e'
    exact e'

theorem nnTour_ok {prob : Bool} (h : NNReady c prob g) (mem : SubProblem) {start : Nat} (hst : start < c.maxV) :
    ∃ sp t, nnTour c prob mem g start = .ok sp ∧ Solution c.maxV (weight g) sp t ∧ t.head? = some start ∧ NearestFirst c.maxV (nnKey prob g) t ∧
      sp.type = (if prob then .closedNNHybrid else .closedNN) ∧ sp.oneTree.isValid = true ∧ sp.numForbidden = 0 ∧ sp.numMandatory = 0 := by
  have h3 := h.three
  set sp0 : SubProblem := { mem with numForbidden := 0, numMandatory := 0, numCycle := 0, oneTree := createMst mem.oneTree g.nodes g.numNodes } with hsp0
  have h0 : NNRec c c.maxV sp0 sp0 [] [] := ⟨by rw [← h.nodes]; exact treeRep_create c _ _ _, rfl, rfl, rfl⟩
  obtain ⟨s, q, e, hq, hi⟩ := nnLoop_ok h hst h0 (c.maxV - 1) (by omega)
  -- the closing edge
  set t := q ++ [s.cur] with htd
  have htl : t.length = c.maxV := by simp [htd, hq]; omega
  obtain ⟨p, htp⟩ : ∃ p, t = start :: p := by
    have key : ∀ l : List Nat, l.head? = some start → ∃ p, l = start :: p := by
      intro l hh
      cases l with
      | nil => simp at hh
      | cons a p => simp at hh; exact ⟨p, by rw [hh]⟩
    exact key t hi.head
  have hpl : p.length = c.maxV - 1 := by rw [htp] at htl; simp at htl; omega
  have hlast : (start :: p).getLast (by simp) = s.cur := by
    have h1 : t.getLast? = some s.cur := by simp [htd]
    rw [htp, List.getLast?_eq_some_getLast (by simp)] at h1
    exact Option.some.inj h1
  have hst' : steps t = pathE t ++ [s(s.cur, start)] := by rw [htp, steps_cons, hlast]
  have hnd : (steps t).Nodup := by rw [htp]; exact steps_nodup (by rw [← htp]; exact hi.nodup) (by omega)
  have hcs : s.cur ≠ start := by
    intro h'
    have : s.cur ∈ p := by
      rw [← hlast, List.getLast_cons (by intro h''; rw [h''] at hpl; simp at hpl; omega)]
      exact List.getLast_mem _
    have hnd2 := hi.nodup
    rw [← htd, htp, List.nodup_cons] at hnd2
    exact hnd2.1 (h' ▸ this)
  have hcur : s.cur < c.maxV := hi.lt _ (by simp)
  have hcE := h.complete _ hcur _ hst hcs
  have hmE : (matE g t).map epair = pathE t := matE_epair h.stored t (pathE_edge h hi.nodup hi.lt)
  have hme : (matE g t ++ [g.mat s.cur start]).map epair = steps t := by
    rw [List.map_append, hmE, hst', List.map_cons, List.map_nil]
    congr 2
    exact mat_ends h.stored hcE
  have hE : ∀ e ∈ steps t, e ∈ edgeSet g := by
    intro e he
    rw [hst', List.mem_append, List.mem_singleton] at he
    rcases he with he | rfl
    · exact pathE_edge h hi.nodup hi.lt e he
    · exact hcE
  have hmem : ∀ e ∈ matE g t ++ [g.mat s.cur start], epair e ∈ edgeSet g := fun e he => hE _ (by rw [← hme]; exact List.mem_map_of_mem he)
  have hsim : SimpleList c.maxV (matE g t ++ [g.mat s.cur start]) := by
    refine simpleList_of ?_ ?_ (by rw [hme]; exact hnd)
    · intro e he x hx
      have := hmem e he
      revert hx this
      generalize epair e = e'
      induction e' using Sym2.ind with
      | _ u v =>
        intro hx h'
        have := h.stored.within _ _ h'
        rw [h.nodes, Finset.mem_range, Finset.mem_range] at this
        rcases Sym2.mem_iff.1 hx with rfl | rfl
        · exact this.1
        · exact this.2
    · intro e he hd
      have := hmem e he
      revert hd this
      generalize epair e = e'
      induction e' using Sym2.ind with
      | _ u v =>
        intro hd h'
        have : u = v := by simpa using hd
        subst this
        exact h.stored.noloop _ h'
  obtain ⟨sp', e2, hw⟩ := nnAdd_ok (g := g) rfl hi.walked hsim (by rw [matE_length, ← htd, htl]; omega) (by rw [pathE_length, ← htd, htl]; omega)
  rw [← htd, ← hst'] at hw
  have hrun : forList (nnStep c prob g start) (List.range g.numNodes) { sp := sp0, cur := start, visited := fun _ => false } = .ok { s with sp := sp' } := by
    rw [h.nodes, show c.maxV = (c.maxV - 1) + 1 by omega, List.range_succ, forList_snoc, e]
    simp only [ok_bind]
    unfold nnStep
    rw [if_neg (by omega), h.nodes, if_pos (by omega), e2]
    rfl
  have key : ∀ (t : List Nat), (∀ e ∈ pathE t, e ∈ edgeSet g) → ∀ e ∈ matE g t, e.weight = weight g (epair e) := by
    intro t
    induction t with
    | nil => intro _ e he; simp [matE] at he
    | cons a t ih =>
      intro hE e he
      cases t with
      | nil => simp [matE] at he
      | cons b t =>
        rw [matE, List.mem_cons] at he
        rcases he with rfl | he
        · have := hE s(a, b) (by simp [pathE])
          rw [(h.stored.mat_weight this).1, epair, mat_ends h.stored this]
        · exact ih (fun e he => hE e (by simp [pathE, he])) e he
  have hwL : ∀ e ∈ matE g t ++ [g.mat s.cur start], weight g (epair e) = e.weight := by
    intro e he
    rw [List.mem_append, List.mem_singleton] at he
    rcases he with he | rfl
    · exact (key t (pathE_edge h hi.nodup hi.lt) e he).symm
    · rw [(h.stored.mat_weight hcE).1, epair, mat_ends h.stored hcE]
  have htour : IsTour c.maxV t := isTour_of hi.nodup htl hi.lt
  have hadd : AddsUp (weight g) (tourEdges t) sp'.oneTree.cost := by
    have := hw.rep.addsUp hsim hwL
    rwa [pairs, hme] at this
  refine ⟨_, t, by unfold nnTour; simp only; rw [← hsp0, hrun]; rfl, ⟨htour, ⟨hadd, fun hx => ?_⟩, ?_, ?_⟩, by rw [htp]; rfl, hi.near, rfl, rfl, ?_, ?_⟩
  · show sp'.oneTree.cost = _
    rw [hadd.exact hx, htour.cost h.three]
  · have hl : (steps t).length = t.length := by simp [steps]
    refine ⟨?_, ?_⟩
    · show sp'.numCycle = _
      rw [hw.num, hl]
    · show (List.range sp'.numCycle).map (fun i => s((sp'.cycle i).1, (sp'.cycle i).2)) = _
      rw [hw.num]; exact hw.cyc
  · have hT : treeEdges sp'.oneTree = tourEdges t := by
      have : treeEdges sp'.oneTree = pairs (matE g t ++ [g.mat s.cur start]) := hw.rep.treeEdges
      rw [this, pairs, hme]; rfl
    exact hT
  · show sp'.numForbidden = 0
    rw [hw.frame]
  · show sp'.numMandatory = 0
    rw [hw.frame]

end Verif
