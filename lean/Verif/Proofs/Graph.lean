import Verif.Proofs.Mst
import Verif.Model.Graph
import Mathlib.Data.List.Nodup

namespace Verif
open Verif.Spec
set_option autoImplicit false

variable [Rounding]

/-- the graph `g` on `n` nodes records exactly the edges `L` -/
structure GraphRep (g : Graph) (xs : List (ℚ × ℚ)) (L : List Edge) : Prop where
  num : g.numEdges = L.length
  nn : g.numNodes = xs.length
  ord : g.ordered = false
  edges : ∀ i (hi : i < L.length), g.edges i = { L[i] with pos := i }
  coord : ∀ u (hu : u < xs.length), (g.nodes u).pos = u ∧ (g.nodes u).x = xs[u].1 ∧ (g.nodes u).y = xs[u].2
  nodes : ∀ u < xs.length, (g.nodes u).list = nbrs L u
  sum : g.cost = flSum (L.map (·.weight))
  last : ∀ u v A B e, L = A ++ e :: B → Joins e u v → (∀ e' ∈ B, ¬ Joins e' u v) → g.mat u v = { e with pos := A.length }

theorem GraphRep.cost {g : Graph} {xs : List (ℚ × ℚ)} {L : List Edge} (h : GraphRep g xs L) (hx : Exact) : g.cost = totalWeight L := by
  rw [h.sum, flSum_exact hx]; rfl

theorem addNode_rep {c : Cfg} {g : Graph} {xs : List (ℚ × ℚ)} (h : GraphRep g xs []) (p : ℚ × ℚ) :
    (xs.length < c.maxV → ∃ g', addNode c g p = .ok g') ∧ ∀ g', addNode c g p = .ok g' → GraphRep g' (xs ++ [p]) [] := by
  unfold addNode
  constructor
  · intro hx
    have : ¬ g.numNodes ≥ c.maxV := by rw [h.nn]; omega
    simp only [this, ↓reduceIte]; exact ⟨_, rfl⟩
  · intro g' he
    split at he
    · cases he
    · cases he
      constructor
      · exact h.num
      · simp [h.nn]
      · exact h.ord
      · intro i hi; simp at hi
      · intro u hu
        simp only [upd_apply, h.nn]
        by_cases hul : u = xs.length
        · subst hul; simp
        · have hu' : u < xs.length := by simp at hu; omega
          simp only [hul, ↓reduceIte, List.getElem_append_left hu']
          exact h.coord u hu'
      · intro u hu
        simp only [upd_apply, h.nn]
        by_cases hul : u = xs.length
        · subst hul; simp [nbrs, Node.list]
        · have hu' : u < xs.length := by simp at hu; omega
          simp only [hul, ↓reduceIte]
          exact h.nodes u hu'
      · exact h.sum
      · intro u v A B e hL; simp at hL

theorem addNodes {c : Cfg} : ∀ (ps : List (ℚ × ℚ)) {g : Graph} {xs : List (ℚ × ℚ)}, GraphRep g xs [] →
    ((xs ++ ps).length ≤ c.maxV → ∃ g', forList (addNode c) ps g = .ok g') ∧
    ∀ g', forList (addNode c) ps g = .ok g' → GraphRep g' (xs ++ ps) [] := by
  intro ps
  induction ps with
  | nil => intro g xs h; exact ⟨fun _ => ⟨g, rfl⟩, fun g' e => by simp [forList] at e; subst e; simpa using h⟩
  | cons p ps ih =>
    intro g xs h
    obtain ⟨a1, a2⟩ := addNode_rep (c := c) h p
    constructor
    · intro hl
      obtain ⟨g1, e1⟩ := a1 (by simp at hl; omega)
      obtain ⟨g2, e2⟩ := (ih (a2 g1 e1)).1 (by simpa using hl)
      exact ⟨g2, by rw [forList, e1]; exact e2⟩
    · intro g' e
      rw [forList, bind_eq_ok] at e
      obtain ⟨g1, e1, e2⟩ := e
      have := (ih (a2 g1 e1)).2 g' e2
      simpa using this

theorem addGraphEdge_rep {c : Cfg} {g : Graph} {xs : List (ℚ × ℚ)} {L : List Edge} (h : GraphRep g xs L) {e : Edge}
    (hs : e.src < xs.length) (hd : e.dest < xs.length) :
    (xs.length ≤ c.maxV → L.length < c.maxE → (∀ u < xs.length, (nbrs (L ++ [e]) u).length ≤ c.maxV - 1) →
      ∃ g', addGraphEdge c g e = .ok g') ∧
    ∀ g', addGraphEdge c g e = .ok g' → GraphRep g' xs (L ++ [e]) := by
  have hnn : ∀ u < xs.length, (g.nodes u).nn = (nbrs L u).length := by
    intro u hu; rw [← h.nodes u hu, Node.nn_eq]
  unfold addGraphEdge
  simp only
  constructor
  · intro hn hL hroom
    have h1 : ¬ (g.numEdges ≥ c.maxE ∨ e.src ≥ c.maxV ∨ e.dest ≥ c.maxV) := by rw [h.num]; omega
    have ns := hroom e.src hs
    have nd := hroom e.dest hd
    rw [nbrs_append] at ns nd
    simp only [List.length_append] at ns nd
    have h2 : ¬ (g.nodes e.src).nn ≥ c.maxV - 1 := by
      rw [hnn e.src hs]; simp only [↓reduceIte, List.length_singleton] at ns; omega
    have h3 : ¬ ((upd g.nodes e.src ((g.nodes e.src).push e.dest)) e.dest).nn ≥ c.maxV - 1 := by
      rw [upd_apply]
      by_cases hsd : e.dest = e.src
      · rw [if_pos hsd]
        simp only [hsd, ↓reduceIte, List.length_singleton] at ns
        show ¬ (g.nodes e.src).nn + 1 ≥ _
        rw [hnn e.src hs]; omega
      · rw [if_neg hsd, hnn e.dest hd]
        simp only [↓reduceIte, List.length_singleton] at nd
        omega
    simp only [h1, h2, h3, ↓reduceIte]
    exact ⟨_, rfl⟩
  · intro g' he
    split at he
    · cases he
    · split at he
      · cases he
      · split at he
        · cases he
        · simp only [Except.ok.injEq] at he
          subst he
          constructor
          · simp [h.num]
          · exact h.nn
          · exact h.ord
          · intro i hi
            simp only [upd_apply, h.num]
            by_cases hil : i = L.length
            · subst hil; simp
            · have : i < L.length := by simp at hi; omega
              simp only [hil, ↓reduceIte, List.getElem_append_left this]
              exact h.edges i this
          · intro u hu
            simp only [upd_apply]
            have := h.coord u hu
            by_cases h1 : u = e.dest <;> by_cases h2 : u = e.src
            · subst h1; simp only [↓reduceIte, h2] at *; exact this
            · subst h1; simp only [↓reduceIte, h2] at *; exact this
            · subst h2; simp only [↓reduceIte, h1] at *; exact this
            · simp only [↓reduceIte, h1, h2] at *; exact this
          · intro u hu
            rw [nbrs_append, ← h.nodes u hu]
            simp only [upd_apply]
            by_cases h1 : e.dest = u <;> by_cases h2 : e.src = u
            · subst h1; simp [h2]
            · subst h1
              have : ¬ e.dest = e.src := fun h => h2 h.symm
              simp [h2, this]
            · subst h2
              have : ¬ e.src = e.dest := fun h => h1 h.symm
              simp [h1, this]
            · simp [h1, h2, Ne.symm h1, Ne.symm h2]
          · rw [List.map_append, List.map_singleton, flSum_append, h.sum]
          · intro u v A B e' hL hj hB
            simp only [upd2_apply]
            rcases List.eq_nil_or_concat B with rfl | ⟨B', e2, rfl⟩
            · have : L = A ∧ e = e' := by
                have := List.append_inj' hL rfl
                exact ⟨this.1, by simpa using this.2⟩
              obtain ⟨rfl, rfl⟩ := this
              rcases hj with ⟨rfl, rfl⟩ | ⟨rfl, rfl⟩
              · simp [h.num]
              · simp [h.num]
            · have : L = A ++ e' :: B' ∧ e = e2 := by
                have hL' : L ++ [e] = (A ++ e' :: B') ++ [e2] := by simpa using hL
                have := List.append_inj' hL' rfl
                exact ⟨this.1, by simpa using this.2⟩
              obtain ⟨hL2, rfl⟩ := this
              have h1 : ¬ Joins e u v := hB e (by simp)
              unfold Joins at h1
              push Not at h1
              rw [if_neg (by rintro ⟨rfl, rfl⟩; exact h1.2 rfl rfl), if_neg (by rintro ⟨rfl, rfl⟩; exact h1.1 rfl rfl)]
              exact h.last u v A B' e' hL2 hj (fun e3 he3 => hB e3 (by simp [he3]))

theorem addGraphEdges {c : Cfg} : ∀ (es : List Edge) {g : Graph} {xs : List (ℚ × ℚ)} {L : List Edge}, GraphRep g xs L →
    (∀ e ∈ es, e.src < xs.length ∧ e.dest < xs.length) →
    (xs.length ≤ c.maxV → (L ++ es).length ≤ c.maxE → (∀ u < xs.length, (nbrs (L ++ es) u).length ≤ c.maxV - 1) →
      ∃ g', forList (addGraphEdge c) es g = .ok g') ∧
    ∀ g', forList (addGraphEdge c) es g = .ok g' → GraphRep g' xs (L ++ es) := by
  intro es
  induction es with
  | nil => intro g xs L h _; exact ⟨fun _ _ _ => ⟨g, rfl⟩, fun g' e => by simp [forList] at e; subst e; simpa using h⟩
  | cons e es ih =>
    intro g xs L h hes
    obtain ⟨a1, a2⟩ := addGraphEdge_rep (c := c) h (hes e (by simp)).1 (hes e (by simp)).2
    constructor
    · intro hn hl hroom
      obtain ⟨g1, e1⟩ := a1 hn (by simp at hl; omega) (by
        intro u hu
        have := hroom u hu
        rw [show L ++ e :: es = (L ++ [e]) ++ es by simp, nbrs_length_append] at this
        omega)
      obtain ⟨g2, e2⟩ := (ih (a2 g1 e1) (fun e' he' => hes e' (by simp [he']))).1 hn (by simpa using hl) (by simpa using hroom)
      exact ⟨g2, by rw [forList, e1]; exact e2⟩
    · intro g' e'
      rw [forList, bind_eq_ok] at e'
      obtain ⟨g1, e1, e2⟩ := e'
      have := (ih (a2 g1 e1) (fun e' he' => hes e' (by simp [he']))).2 g' e2
      simpa using this

theorem createGraph_rep {c : Cfg} {g : Graph} {xs : List (ℚ × ℚ)} {L : List Edge}
    (hL : ∀ e ∈ L, e.src < xs.length ∧ e.dest < xs.length) :
    (xs.length ≤ c.maxV → L.length ≤ c.maxE → (∀ u < xs.length, (nbrs L u).length ≤ c.maxV - 1) →
      ∃ g', createGraph c g xs L = .ok g') ∧
    ∀ g', createGraph c g xs L = .ok g' → GraphRep g' xs L := by
  have h0 : GraphRep { g with numEdges := 0, numNodes := 0, ordered := false, cost := 0 } [] [] := by
    constructor <;> simp
  have hn := addNodes (c := c) xs h0
  unfold createGraph
  simp only [List.nil_append] at hn ⊢
  constructor
  · intro h1 h2 h3
    obtain ⟨g1, e1⟩ := hn.1 h1
    obtain ⟨g2, e2⟩ := (addGraphEdges (c := c) L (hn.2 g1 e1) hL).1 h1 (by simpa using h2) (by simpa using h3)
    exact ⟨g2, by rw [e1]; exact e2⟩
  · intro g' e
    rw [bind_eq_ok] at e
    obtain ⟨g1, e1, e2⟩ := e
    simpa using (addGraphEdges (c := c) L (hn.2 g1 e1) hL).2 g' e2

/-- the edges listed by the two nested loops -/
def euclList (dist : ListNode → ListNode → ℚ) : Nat → List ListNode → List Edge
  | _, [] => []
  | z, s :: rest => (rest.mapIdx fun i d =>
      ({ src := s.pos, dest := d.pos, symbol := z + i + 1, pos := z + i, prob := 0, weight := dist s d } : Edge)) ++
      euclList dist (z + rest.length) rest

omit [Rounding] in
theorem euclInner_eq (c : Cfg) (dist : ListNode → ListNode → ℚ) (s : ListNode) : ∀ (rest : List ListNode) (acc : List Edge),
    acc.length + rest.length ≤ c.maxE → euclInner c dist s rest acc = .ok (acc ++ rest.mapIdx fun i d =>
      ({ src := s.pos, dest := d.pos, symbol := acc.length + i + 1, pos := acc.length + i, prob := 0, weight := dist s d } : Edge)) := by
  intro rest
  induction rest with
  | nil => intro acc _; simp [euclInner]
  | cons d rest ih =>
    intro acc h
    rw [euclInner]
    have : ¬ acc.length ≥ c.maxE := by simp at h; omega
    simp only [this, ↓reduceIte]
    rw [ih _ (by simp at h ⊢; omega)]
    simp only [List.mapIdx_cons, List.append_assoc, List.cons_append, List.nil_append, List.length_append, List.length_cons, List.length_nil]
    congr 3
    apply List.ext_getElem
    · simp
    · intro i h1 h2
      simp; omega

omit [Rounding] in
theorem euclList_length (dist : ListNode → ListNode → ℚ) : ∀ (l : List ListNode) (z : Nat),
    2 * (euclList dist z l).length = l.length * (l.length - 1) := by
  intro l
  induction l with
  | nil => intro z; simp [euclList]
  | cons s rest ih =>
    intro z
    simp only [euclList, List.length_append, List.length_mapIdx, List.length_cons, Nat.add_sub_cancel]
    have := ih (z + rest.length)
    cases hr : rest.length with
    | zero => rw [hr] at this; simp at this ⊢; exact this
    | succ k => rw [hr] at this; simp only [Nat.add_sub_cancel] at this; ring_nf at this ⊢; omega

omit [Rounding] in
theorem euclOuter_eq (c : Cfg) (dist : ListNode → ListNode → ℚ) : ∀ (l : List ListNode) (acc : List Edge),
    acc.length + (euclList dist acc.length l).length ≤ c.maxE →
    euclOuter c dist l acc = .ok (acc ++ euclList dist acc.length l) := by
  intro l
  induction l with
  | nil => intro acc _; simp [euclOuter, euclList]
  | cons s rest ih =>
    intro acc h
    simp only [euclList, List.length_append, List.length_mapIdx] at h
    rw [euclOuter, euclInner_eq c dist s rest acc (by omega)]
    simp only [ok_bind]
    rw [ih _ (by simp; omega)]
    simp [euclList]

end Verif
