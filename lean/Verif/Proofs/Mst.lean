import Verif.Model.Mst
import Verif.Spec.TreeList
import Mathlib.Tactic.FieldSimp
import Mathlib.Tactic.Ring
import Mathlib.Algebra.BigOperators.Group.List.Lemmas

namespace Verif
open Verif.Spec
set_option autoImplicit false

variable [Rounding]

omit [Rounding] in
@[simp] theorem Node.list_push (u : Node) (v : Nat) : (u.push v).list = u.list ++ [v] := by
  unfold Node.list Node.push
  simp only [List.range_succ, List.map_append, List.map_cons, List.map_nil, upd_self]
  congr 1
  apply List.map_congr_left
  intro i hi
  rw [List.mem_range] at hi
  exact upd_ne _ _ (by omega)

omit [Rounding] in
theorem Node.nn_eq (u : Node) : u.nn = u.list.length := by simp [Node.list]

/-- the tree `t` on `n` nodes records exactly the edges `L`, added in this order -/
structure TreeRep (c : Cfg) (t : MST) (n : Nat) (L : List Edge) : Prop where
  num : t.numEdges = L.length
  nn : t.numNodes = n
  edges : ∀ i (hi : i < L.length), t.edges i = { L[i] with pos := i }
  nodes : ∀ u < n, (t.nodes u).list = nbrs L u
  sum : t.cost = flSum (L.map (·.weight))
  mean : Exact → if c.hybrid then t.prob * L.length = totalProb L else t.prob = 0
  none : ∀ u < n, ∀ v < n, (∀ e ∈ L, ¬ Joins e u v) → t.mat u v = -1
  last : ∀ u < n, ∀ v < n, ∀ A B e, L = A ++ e :: B → Joins e u v → (∀ e' ∈ B, ¬ Joins e' u v) → t.mat u v = A.length
  pos0 : ∀ u < n, (t.nodes u).nn = (nbrs L u).length

theorem flSum_exact (hx : Exact) (l : List ℚ) : flSum l = l.sum := by
  induction l using List.reverseRecOn with
  | nil => rfl
  | append_singleton l x ih => rw [flSum_append, hx, ih, List.sum_append]; simp

theorem flSum_nonneg {l : List ℚ} (h : ∀ x ∈ l, 0 ≤ x) : 0 ≤ flSum l := by
  induction l using List.reverseRecOn with
  | nil => simp
  | append_singleton l x ih =>
    rw [flSum_append]
    have h1 := ih fun y hy => h y (by simp [hy])
    have h2 := h x (by simp)
    exact fl_nonneg (add_nonneg h1 h2)

theorem TreeRep.cost {c : Cfg} {t : MST} {n : Nat} {L : List Edge} (h : TreeRep c t n L) (hx : Exact) : t.cost = totalWeight L := by
  rw [h.sum, flSum_exact hx]; rfl

theorem treeRep_create (c : Cfg) (t : MST) (nodes : Nat → Node) (n : Nat) : TreeRep c (createMst t nodes n) n [] := by
  constructor
  · rfl
  · rfl
  · intro i hi; simp at hi
  · intro u hu; simp [createMst, hu, nbrs, Node.list]
  · simp [createMst]
  · intro _; simp [createMst, totalProb]
  · intro u hu v hv _; simp [createMst, hu, hv]
  · intro u hu v hv A B e h; simp at h
  · intro u hu; simp [createMst, hu, nbrs]

omit [Rounding] in
theorem nbrs_append (L : List Edge) (e : Edge) (u : Nat) : nbrs (L ++ [e]) u =
    nbrs L u ++ ((if e.src = u then [e.dest] else []) ++ (if e.dest = u then [e.src] else [])) := by
  simp [nbrs, List.flatMap_append]

theorem treeRep_add {c : Cfg} {t : MST} {n : Nat} {L : List Edge} (h : TreeRep c t n L) {e : Edge}
    (hs : e.src < n) (hd : e.dest < n) {t' : MST} (he : addEdge c t e = .ok t') : TreeRep c t' n (L ++ [e]) := by
  have key : ∀ p : ℚ, (Exact → if c.hybrid then p * (L.length + 1 : ℕ) = totalProb (L ++ [e]) else p = 0) →
      TreeRep c { t with
        edges := upd t.edges t.numEdges { src := e.src, dest := e.dest, weight := e.weight, symbol := e.symbol, prob := e.prob, pos := t.numEdges }
        nodes := upd (upd t.nodes e.src ((t.nodes e.src).push e.dest)) e.dest
          (((upd t.nodes e.src ((t.nodes e.src).push e.dest)) e.dest).push e.src)
        mat := upd2 (upd2 t.mat e.src e.dest t.numEdges) e.dest e.src t.numEdges
        numEdges := t.numEdges + 1
        cost := fl (t.cost + e.weight)
        prob := p } n (L ++ [e]) := by
    intro p hp
    have hlist : ∀ u < n, ((upd (upd t.nodes e.src ((t.nodes e.src).push e.dest)) e.dest
          (((upd t.nodes e.src ((t.nodes e.src).push e.dest)) e.dest).push e.src)) u).list = nbrs (L ++ [e]) u := by
      intro u hu
      rw [nbrs_append, ← h.nodes u hu]
      simp only [upd_apply]
      by_cases h1 : e.dest = u <;> by_cases h2 : e.src = u
      · subst h1; simp [h2]
      · subst h1
        have : ¬ e.dest = e.src := fun h => h2 h.symm
        simp [h2, this]
      · subst h2
        have : ¬ e.src = e.dest := fun h => h1 h.symm
        simp [h1, this]
      · simp [h1, h2, Ne.symm h1, Ne.symm h2]
    constructor
    · simp [h.num]
    · exact h.nn
    · intro i hi
      simp only [upd_apply, h.num]
      by_cases hil : i = L.length
      · subst hil; simp
      · have : i < L.length := by simp at hi; omega
        simp only [hil, ↓reduceIte, List.getElem_append_left this]
        exact h.edges i this
    · exact hlist
    · rw [List.map_append, List.map_singleton, flSum_append, h.sum]
    · simpa using hp
    · intro u hu v hv hno
      have h1 : ¬ Joins e u v := hno e (by simp)
      unfold Joins at h1
      push Not at h1
      simp only [upd2_apply]
      rw [if_neg (by rintro ⟨rfl, rfl⟩; exact h1.2 rfl rfl), if_neg (by rintro ⟨rfl, rfl⟩; exact h1.1 rfl rfl)]
      exact h.none u hu v hv (fun e' he' => hno e' (by simp [he']))
    · intro u hu v hv A B e' hL hj hB
      simp only [upd2_apply]
      rcases List.eq_nil_or_concat B with rfl | ⟨B', e2, rfl⟩
      · have : L = A ∧ e = e' := by
          have := List.append_inj' hL rfl
          exact ⟨this.1, by simpa using this.2⟩
        obtain ⟨rfl, rfl⟩ := this
        rcases hj with ⟨rfl, rfl⟩ | ⟨rfl, rfl⟩
        · split
          · simp [h.num]
          · simp [h.num]
        · simp [h.num]
      · have : L = A ++ e' :: B' ∧ e = e2 := by
          have hL' : L ++ [e] = (A ++ e' :: B') ++ [e2] := by simpa using hL
          have := List.append_inj' hL' rfl
          exact ⟨this.1, by simpa using this.2⟩
        obtain ⟨hL2, rfl⟩ := this
        have h1 : ¬ Joins e u v := hB e (by simp)
        unfold Joins at h1
        push Not at h1
        rw [if_neg (by rintro ⟨rfl, rfl⟩; exact h1.2 rfl rfl), if_neg (by rintro ⟨rfl, rfl⟩; exact h1.1 rfl rfl)]
        exact h.last u hu v hv A B' e' hL2 hj (fun e3 he3 => hB e3 (by simp [he3]))
    · intro u hu
      rw [← hlist u hu, Node.nn_eq]
  unfold addEdge at he
  simp only at he
  split at he
  · cases he
  · split at he
    · cases he
    · split at he
      · cases he
      · simp only [Except.ok.injEq] at he
        subst he
        cases hh : c.hybrid with
        | false =>
          have := key t.prob (fun hx => by have := h.mean hx; simpa [hh] using this)
          simpa using this
        | true =>
          simp only [↓reduceIte]
          split
          · rename_i h1
            have hn0 : t.numEdges = 0 := by simpa using h1
            have hL0 : L = [] := by rw [h.num] at hn0; exact List.length_eq_zero_iff.1 hn0
            refine key e.prob fun _ => ?_
            subst hL0
            simp [hh, totalProb]
          · refine key _ fun hx => ?_
            have hp := h.mean hx
            simp only [hh, ↓reduceIte] at hp
            simp only [hx _, hh, ↓reduceIte, h.num, totalProb, List.map_append, List.sum_append, List.map_cons, List.map_nil,
              List.sum_cons, List.sum_nil, add_zero]
            push_cast
            have : ((L.length : ℚ) + 1) ≠ 0 := Nat.cast_add_one_ne_zero _
            field_simp
            simp only [totalProb] at hp
            rw [← hp]; ring

/-- `add_edge` succeeds while there is room -/
theorem add_ok {c : Cfg} {t : MST} {n : Nat} {L : List Edge} (h : TreeRep c t n L) {e : Edge} (hn : n ≤ c.maxV)
    (hs : e.src < n) (hd : e.dest < n) (hL : L.length < c.maxV)
    (hroom : ∀ u < n, (nbrs (L ++ [e]) u).length ≤ c.maxV - 1) : ∃ t', addEdge c t e = .ok t' := by
  unfold addEdge
  simp only
  have h1 : ¬ (t.numEdges ≥ c.maxV ∨ e.src ≥ c.maxV ∨ e.dest ≥ c.maxV) := by rw [h.num]; omega
  have ns := hroom e.src hs
  have nd := hroom e.dest hd
  rw [nbrs_append] at ns nd
  simp only [List.length_append] at ns nd
  have h2 : ¬ (t.nodes e.src).nn ≥ c.maxV - 1 := by
    rw [h.pos0 e.src hs]; simp only [↓reduceIte, List.length_singleton] at ns; omega
  have h3 : ¬ ((upd t.nodes e.src ((t.nodes e.src).push e.dest)) e.dest).nn ≥ c.maxV - 1 := by
    rw [upd_apply]
    by_cases hsd : e.dest = e.src
    · rw [if_pos hsd]
      simp only [hsd, ↓reduceIte, List.length_singleton] at ns
      show ¬ (t.nodes e.src).nn + 1 ≥ _
      rw [h.pos0 e.src hs]; omega
    · rw [if_neg hsd, h.pos0 e.dest hd]
      simp only [↓reduceIte, List.length_singleton] at nd
      omega
  simp only [h1, h2, h3, ↓reduceIte]
  exact ⟨_, rfl⟩

/-- adding a list of edges -/
theorem addAll_rep {c : Cfg} {n : Nat} : ∀ (es : List Edge) {t t' : MST} {L : List Edge}, TreeRep c t n L →
    (∀ e ∈ es, e.src < n ∧ e.dest < n) → forList (addEdge c) es t = .ok t' → TreeRep c t' n (L ++ es) := by
  intro es
  induction es with
  | nil => intro t t' L h _ he; simp [forList] at he; subst he; simpa using h
  | cons e es ih =>
    intro t t' L h hes he
    rw [forList, bind_eq_ok] at he
    obtain ⟨t1, e1, e2⟩ := he
    have := ih (treeRep_add h (hes e (by simp)).1 (hes e (by simp)).2 e1) (fun e' he' => hes e' (by simp [he'])) e2
    simpa using this

omit [Rounding] in
theorem nbrs_length_append (L M : List Edge) (u : Nat) : (nbrs (L ++ M) u).length = (nbrs L u).length + (nbrs M u).length := by
  simp [nbrs, List.flatMap_append]

theorem addAll_ok {c : Cfg} {n : Nat} (hn : n ≤ c.maxV) : ∀ (es : List Edge) {t : MST} {L : List Edge}, TreeRep c t n L →
    (∀ e ∈ es, e.src < n ∧ e.dest < n) → (L ++ es).length ≤ c.maxV → (∀ u < n, (nbrs (L ++ es) u).length ≤ c.maxV - 1) →
    ∃ t', forList (addEdge c) es t = .ok t' ∧ TreeRep c t' n (L ++ es) := by
  intro es
  induction es with
  | nil => intro t L h _ _ _; exact ⟨t, rfl, by simpa using h⟩
  | cons e es ih =>
    intro t L h hes hlen hroom
    obtain ⟨t1, e1⟩ := add_ok h hn (hes e (by simp)).1 (hes e (by simp)).2 (by simp at hlen; omega) (by
      intro u hu
      have := hroom u hu
      rw [show L ++ e :: es = (L ++ [e]) ++ es by simp, nbrs_length_append] at this
      omega)
    have h1 := treeRep_add h (hes e (by simp)).1 (hes e (by simp)).2 e1
    obtain ⟨t2, e2, h2⟩ := ih h1 (fun e' he' => hes e' (by simp [he'])) (by simpa using hlen) (by simpa using hroom)
    exact ⟨t2, by rw [forList, e1]; exact e2, by simpa using h2⟩

end Verif
