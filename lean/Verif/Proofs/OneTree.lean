import Verif.Model.OneTree
import Verif.Proofs.Tour

/-!
# mst_to_one_tree: main lemma
-/
namespace Verif
open Verif.Spec
set_option autoImplicit false

variable [Rounding]

variable {c : Cfg} {g : Graph} {sp : SubProblem} {cand src : Nat} {M F : EdgeSet}

def mandB (sp : SubProblem) (src d : Nat) : Bool := decide (sp.numMandatory > 0 ∧ sp.cons src d = .mandatory)
def otherB (sp : SubProblem) (src d : Nat) : Bool := !mandB sp src d && decide (sp.numForbidden = 0 ∨ sp.cons src d = .nothing)

/-- the scan has seen the neighbours `p` -/
structure ScanInv (g : Graph) (sp : SubProblem) (src : Nat) (p : List Nat) (s : Scan) : Prop where
  toAdd : s.toAdd = (p.filter (mandB sp src)).length
  pos : ∀ i (h : i < (p.filter (mandB sp src)).length), s.pos i = (g.mat src (p.filter (mandB sp src))[i]).pos
  others : s.others = p.filter (otherB sp src)

omit [Rounding] in
theorem scan_ok (p : List Nat) : ((p.filter (mandB sp src)).length ≤ 2 →
      ∃ s, forList (scanSpoke g sp src) p ⟨0, fun _ => 0, []⟩ = .ok s ∧ ScanInv g sp src p s) ∧
    (2 < (p.filter (mandB sp src)).length → forList (scanSpoke g sp src) p ⟨0, fun _ => 0, []⟩ = .error (.oobAt .bestEdges)) := by
  induction p using List.reverseRecOn with
  | nil => exact ⟨fun _ => ⟨_, rfl, by constructor <;> simp⟩, by simp⟩
  | append_singleton p d ih =>
    rw [forList_snoc]
    by_cases hm : mandB sp src d = true
    · have hf : (p ++ [d]).filter (mandB sp src) = p.filter (mandB sp src) ++ [d] := by simp [hm]
      have ho : (p ++ [d]).filter (otherB sp src) = p.filter (otherB sp src) := by simp [otherB, hm]
      rw [hf, List.length_append, List.length_singleton]
      have hm' : sp.numMandatory > 0 ∧ sp.cons src d = .mandatory := of_decide_eq_true hm
      constructor
      · intro hl
        obtain ⟨s, e, hi⟩ := ih.1 (by omega)
        rw [e, ok_bind]
        unfold scanSpoke
        rw [if_pos (by rw [hi.toAdd]; omega), if_pos hm', if_neg (by rw [hi.toAdd]; omega)]
        refine ⟨_, rfl, ?_, ?_, ?_⟩
        · rw [hf]; simp [hi.toAdd]
        · intro i h
          simp only [hf] at h ⊢
          simp only [upd_apply, hi.toAdd]
          by_cases hil : i = (p.filter (mandB sp src)).length
          · subst hil; simp
          · have h' : i < (p.filter (mandB sp src)).length := by simp at h; omega
            rw [if_neg hil, List.getElem_append_left h', hi.pos i h']
        · rw [ho]; exact hi.others
      · intro hl
        by_cases h2 : 2 < (p.filter (mandB sp src)).length
        · rw [ih.2 h2]; rfl
        · obtain ⟨s, e, hi⟩ := ih.1 (by omega)
          rw [e, ok_bind]
          unfold scanSpoke
          rw [if_pos (by rw [hi.toAdd]; omega), if_pos hm', if_pos (by rw [hi.toAdd]; omega)]
    · have hf : (p ++ [d]).filter (mandB sp src) = p.filter (mandB sp src) := by simp [hm]
      have hm' : ¬ (sp.numMandatory > 0 ∧ sp.cons src d = .mandatory) := fun h => hm (decide_eq_true h)
      rw [hf]
      constructor
      · intro hl
        obtain ⟨s, e, hi⟩ := ih.1 hl
        rw [e, ok_bind]
        unfold scanSpoke
        rw [if_pos (by rw [hi.toAdd]; omega), if_neg hm']
        by_cases hn : sp.numForbidden = 0 ∨ sp.cons src d = .nothing
        · rw [if_pos hn]
          refine ⟨_, rfl, ?_, ?_, ?_⟩
          · rw [hf]; exact hi.toAdd
          · intro i h; simp only [hf] at h ⊢; exact hi.pos i h
          · show s.others ++ [d] = _
            have : otherB sp src d = true := by simp [otherB, hm, hn]
            simp [hi.others, this]
        · rw [if_neg hn]
          refine ⟨_, rfl, ?_, ?_, ?_⟩
          · rw [hf]; exact hi.toAdd
          · intro i h; simp only [hf] at h ⊢; exact hi.pos i h
          · have : otherB sp src d = false := by simp [otherB, hn]
            simp [hi.others, this]
      · intro hl; rw [ih.2 hl]; rfl

omit [Rounding] in
theorem best1_ok (g : Graph) (src : Nat) : ∀ (l : List Nat),
    ((∀ d ∈ l, INFINITE ≤ (g.mat src d).weight) ∧ l.foldl (best1 g src) (-1, INFINITE) = (-1, INFINITE)) ∨
    ∃ d ∈ l, (g.mat src d).weight < INFINITE ∧ l.foldl (best1 g src) (-1, INFINITE) = (((g.mat src d).pos : Int), (g.mat src d).weight) ∧
      ∀ d' ∈ l, (g.mat src d).weight ≤ (g.mat src d').weight := by
  intro l
  induction l using List.reverseRecOn with
  | nil => exact Or.inl ⟨by simp, rfl⟩
  | append_singleton l x ih =>
    rw [List.foldl_append]
    rcases ih with ⟨hall, e⟩ | ⟨d, hd, hdi, e, hmin⟩
    · rw [e]
      simp only [List.foldl_cons, List.foldl_nil, best1]
      by_cases hx : INFINITE > (g.mat src x).weight
      · right
        refine ⟨x, by simp, hx, by rw [if_pos hx], ?_⟩
        intro d' hd'
        rcases List.mem_append.1 hd' with h' | h'
        · exact le_trans hx.le (hall d' h')
        · simp at h'; subst h'; exact le_refl _
      · left
        refine ⟨?_, by rw [if_neg hx]⟩
        intro d' hd'
        rcases List.mem_append.1 hd' with h' | h'
        · exact hall d' h'
        · simp at h'; subst h'; exact not_lt.1 hx
    · right
      rw [e]
      simp only [List.foldl_cons, List.foldl_nil, best1]
      by_cases hlt : (g.mat src d).weight > (g.mat src x).weight
      · rw [if_pos hlt]
        refine ⟨x, by simp, lt_trans hlt hdi, rfl, ?_⟩
        intro d' hd'
        rcases List.mem_append.1 hd' with h' | h'
        · exact le_trans hlt.le (hmin d' h')
        · simp at h'; subst h'; exact le_refl _
      · rw [if_neg hlt]
        refine ⟨d, by simp [hd], hdi, rfl, ?_⟩
        intro d' hd'
        rcases List.mem_append.1 hd' with h' | h'
        · exact hmin d' h'
        · simp at h'; subst h'; exact not_lt.1 hlt

omit [Rounding] in
theorem best2_ok (g : Graph) (src : Nat) : ∀ (l : List Nat), l.Nodup →
    ((∀ d ∈ l, INFINITE ≤ (g.mat src d).weight) ∧ l.foldl (best2 g src) ((-1, INFINITE), (-1, INFINITE)) = ((-1, INFINITE), (-1, INFINITE))) ∨
    (∃ a ∈ l, (g.mat src a).weight < INFINITE ∧ (∀ d ∈ l, d ≠ a → INFINITE ≤ (g.mat src d).weight) ∧
      l.foldl (best2 g src) ((-1, INFINITE), (-1, INFINITE)) = ((((g.mat src a).pos : Int), (g.mat src a).weight), (-1, INFINITE))) ∨
    ∃ a ∈ l, ∃ b ∈ l, a ≠ b ∧ (g.mat src b).weight < INFINITE ∧ l.foldl (best2 g src) ((-1, INFINITE), (-1, INFINITE)) =
        ((((g.mat src a).pos : Int), (g.mat src a).weight), (((g.mat src b).pos : Int), (g.mat src b).weight)) ∧
      (∀ d ∈ l, (g.mat src a).weight ≤ (g.mat src d).weight) ∧ ∀ d ∈ l, d ≠ a → (g.mat src b).weight ≤ (g.mat src d).weight := by
  intro l
  induction l using List.reverseRecOn with
  | nil => intro _; exact Or.inl ⟨by simp, rfl⟩
  | append_singleton l x ih =>
    intro nd
    have nd' : l.Nodup := (List.nodup_append.1 nd).1
    have hx : x ∉ l := fun hx => (List.nodup_append.1 nd).2.2 x hx x (by simp) rfl
    rw [List.foldl_append]
    rcases ih nd' with ⟨hall, e⟩ | ⟨a, ha, hai, hall, e⟩ | ⟨a, ha, b, hb, hab, hbi, e, h1, h2⟩
    · rw [e]
      simp only [List.foldl_cons, List.foldl_nil, best2]
      by_cases hxw : INFINITE > (g.mat src x).weight
      · right; left
        refine ⟨x, by simp, hxw, ?_, by rw [if_pos hxw]⟩
        intro d hd hne
        rcases List.mem_append.1 hd with h' | h'
        · exact hall d h'
        · simp at h'; exact absurd h' hne
      · left
        refine ⟨?_, by rw [if_neg hxw, if_neg hxw]⟩
        intro d hd
        rcases List.mem_append.1 hd with h' | h'
        · exact hall d h'
        · simp at h'; subst h'; exact not_lt.1 hxw
    · right
      have hxa : x ≠ a := by rintro rfl; exact hx ha
      rw [e]
      simp only [List.foldl_cons, List.foldl_nil, best2]
      by_cases hlt : (g.mat src a).weight > (g.mat src x).weight
      · right
        rw [if_pos hlt]
        refine ⟨x, by simp, a, by simp [ha], hxa, hai, rfl, ?_, ?_⟩
        · intro d hd
          rcases List.mem_append.1 hd with h' | h'
          · by_cases hda : d = a
            · subst hda; exact hlt.le
            · exact le_trans (lt_trans hlt hai).le (hall d h' hda)
          · simp at h'; subst h'; exact le_refl _
        · intro d hd hne
          rcases List.mem_append.1 hd with h' | h'
          · by_cases hda : d = a
            · subst hda; exact le_refl _
            · exact le_trans hai.le (hall d h' hda)
          · simp at h'; exact absurd h' hne
      · rw [if_neg hlt]
        by_cases hxw : INFINITE > (g.mat src x).weight
        · right
          rw [if_pos hxw]
          refine ⟨a, by simp [ha], x, by simp, hxa.symm, hxw, rfl, ?_, ?_⟩
          · intro d hd
            rcases List.mem_append.1 hd with h' | h'
            · by_cases hda : d = a
              · subst hda; exact le_refl _
              · exact le_trans hai.le (hall d h' hda)
            · simp at h'; subst h'; exact not_lt.1 hlt
          · intro d hd hne
            rcases List.mem_append.1 hd with h' | h'
            · exact le_trans hxw.le (hall d h' hne)
            · simp at h'; subst h'; exact le_refl _
        · left
          rw [if_neg hxw]
          refine ⟨a, by simp [ha], hai, ?_, rfl⟩
          intro d hd hne
          rcases List.mem_append.1 hd with h' | h'
          · exact hall d h' hne
          · simp at h'; subst h'; exact not_lt.1 hxw
    · right; right
      have hxa : x ≠ a := by rintro rfl; exact hx ha
      have hxb : x ≠ b := by rintro rfl; exact hx hb
      have hab' : (g.mat src a).weight ≤ (g.mat src b).weight := h1 b hb
      rw [e]
      simp only [List.foldl_cons, List.foldl_nil, best2]
      by_cases hlt : (g.mat src a).weight > (g.mat src x).weight
      · rw [if_pos hlt]
        refine ⟨x, by simp, a, by simp [ha], hxa, lt_of_le_of_lt hab' hbi, rfl, ?_, ?_⟩
        · intro d hd
          rcases List.mem_append.1 hd with h' | h'
          · exact le_trans hlt.le (h1 d h')
          · simp at h'; subst h'; exact le_refl _
        · intro d hd hne
          rcases List.mem_append.1 hd with h' | h'
          · exact h1 d h'
          · simp at h'; exact absurd h' hne
      · rw [if_neg hlt]
        by_cases hlt2 : (g.mat src b).weight > (g.mat src x).weight
        · rw [if_pos hlt2]
          refine ⟨a, by simp [ha], x, by simp, hxa.symm, lt_trans hlt2 hbi, rfl, ?_, ?_⟩
          · intro d hd
            rcases List.mem_append.1 hd with h' | h'
            · exact h1 d h'
            · simp at h'; subst h'; exact not_lt.1 hlt
          · intro d hd hne
            rcases List.mem_append.1 hd with h' | h'
            · exact le_trans hlt2.le (h2 d h' hne)
            · simp at h'; subst h'; exact le_refl _
        · rw [if_neg hlt2]
          refine ⟨a, by simp [ha], b, by simp [hb], hab, hbi, rfl, ?_, ?_⟩
          · intro d hd
            rcases List.mem_append.1 hd with h' | h'
            · exact h1 d h'
            · simp at h'; subst h'; exact not_lt.1 hlt
          · intro d hd hne
            rcases List.mem_append.1 hd with h' | h'
            · exact h2 d h' hne
            · simp at h'; subst h'; exact not_lt.1 hlt2

omit [Rounding] in
theorem mem_spokes {E : EdgeSet} {e : Sym2 Nat} : e ∈ spokes cand E ↔ e ∈ E ∧ cand ∈ e := by simp [spokes]

/-- what `mst_to_one_tree` needs -/
structure OReady (c : Cfg) (g : Graph) (sp : SubProblem) (cand : Nat) (M F : EdgeSet) (L : List Edge) : Prop where
  ready : CReady c g sp cand M F
  pos : (g.nodes cand).pos = cand
  rep : TreeRep c sp.oneTree g.numNodes L
  simple : SimpleList g.numNodes L
  off : ∀ e ∈ pairs L, cand ∉ e
  len : L.length + 2 ≤ g.numNodes

def spokeSet (cand : Nat) (l : List Nat) : EdgeSet := (l.map fun d => s(cand, d)).toFinset

omit [Rounding] in
theorem mem_spokeSet {l : List Nat} {d : Nat} : s(cand, d) ∈ spokeSet cand l ↔ d ∈ l := by
  simp only [spokeSet, List.mem_toFinset, List.mem_map]
  constructor
  · rintro ⟨a, ha, h⟩
    rw [Sym2.eq_iff] at h
    rcases h with ⟨-, rfl⟩ | ⟨h1, h2⟩
    · exact ha
    · have : d = a := by omega
      rw [this]; exact ha
  · intro h; exact ⟨d, h, rfl⟩

omit [Rounding] in
theorem spokeSet_touch {l : List Nat} {e : Sym2 Nat} (h : e ∈ spokeSet cand l) : cand ∈ e := by
  simp only [spokeSet, List.mem_toFinset, List.mem_map] at h
  obtain ⟨a, -, rfl⟩ := h; simp

omit [Rounding] in
theorem spokeSet_card {l : List Nat} (h : l.Nodup) : (spokeSet cand l).card = l.length := by
  unfold spokeSet
  rw [List.toFinset_card_of_nodup, List.length_map]
  rw [List.nodup_map_iff_inj_on h]
  intro x _ y _ hxy
  rw [Sym2.eq_iff] at hxy; omega

omit [Rounding] in
theorem spokeSet_ext {l : List Nat} {E : EdgeSet} (h : ∀ d, s(cand, d) ∈ E ↔ d ∈ l) : spokes cand E = spokeSet cand l := by
  ext e
  rw [mem_spokes]
  constructor
  · rintro ⟨h1, h2⟩
    obtain ⟨d, rfl⟩ := h2
    exact mem_spokeSet.2 ((h d).1 h1)
  · intro h1
    have h2 := spokeSet_touch h1
    refine ⟨?_, h2⟩
    obtain ⟨d, rfl⟩ := h2
    exact (h d).2 (mem_spokeSet.1 h1)

omit [Rounding] in
theorem CReady.spoke_edge (h : CReady c g sp cand M F) {d : Nat} (hd : s(cand, d) ∈ edgeSet g) :
    (g.mat cand d).pos < g.numEdges ∧ epair (g.edges (g.mat cand d).pos) = s(cand, d) ∧
    (g.edges (g.mat cand d).pos).weight = weight g s(cand, d) ∧ (g.mat cand d).weight = weight g s(cand, d) := by
  obtain ⟨j, hj, hjo⟩ := mem_edgeSet_adj.1 hd
  have hp := h.positions j hj
  have hpos : (g.mat cand d).pos = j := by
    rcases hjo with ⟨q1, q2⟩ | ⟨q1, q2⟩
    · rw [← q1, ← q2]; exact hp.2.1
    · rw [← q1, ← q2]; exact hp.2.2
  have he : epair (g.edges j) = s(cand, d) := (joins_iff).1 hjo
  rw [hpos]
  exact ⟨hj, he, by rw [← he, h.stored.weight_eq hj], (h.stored.mat_weight hd).1⟩

/-- adding two spokes -/
theorem OReady.add_two {L : List Edge} (h : OReady c g sp cand M F L) {a b : Nat} (hab : a ≠ b) (ha : s(cand, a) ∈ edgeSet g) (hb : s(cand, b) ∈ edgeSet g) :
    ∃ t1 t2, addAt c g sp.oneTree ((g.mat cand a).pos : Int) = .ok t1 ∧ addAt c g t1 ((g.mat cand b).pos : Int) = .ok t2 ∧
      TreeRep c t2 g.numNodes (L ++ [g.edges (g.mat cand a).pos, g.edges (g.mat cand b).pos]) ∧
      SimpleList g.numNodes (L ++ [g.edges (g.mat cand a).pos, g.edges (g.mat cand b).pos]) ∧ t2.isValid = sp.oneTree.isValid ∧
      ∀ i, (t2.nodes i).pos = (sp.oneTree.nodes i).pos := by
  obtain ⟨pa, ea, -, -⟩ := h.ready.spoke_edge ha
  obtain ⟨pb, eb, -, -⟩ := h.ready.spoke_edge hb
  have s1 := h.ready.stored.ends _ pa
  have s2 := h.ready.stored.ends _ pb
  have hsim1 : SimpleList g.numNodes (L ++ [g.edges (g.mat cand a).pos]) :=
    SimpleList.append h.simple s1.1 s1.2.1 s1.2.2 (by rw [ea]; intro h'; exact h.off _ h' (by simp))
  have hsim : SimpleList g.numNodes (L ++ [g.edges (g.mat cand a).pos, g.edges (g.mat cand b).pos]) := by
    rw [show L ++ [g.edges (g.mat cand a).pos, g.edges (g.mat cand b).pos] = (L ++ [g.edges (g.mat cand a).pos]) ++ [g.edges (g.mat cand b).pos] by simp]
    refine SimpleList.append hsim1 s2.1 s2.2.1 s2.2.2 ?_
    rw [pairs_append, Finset.mem_insert, ea, eb]
    rintro (h' | h')
    · rw [Sym2.eq_iff] at h'; omega
    · exact h.off _ h' (by simp)
  have hnV := h.ready.nodes
  obtain ⟨t2, e2, r2⟩ := addAll_ok hnV [g.edges (g.mat cand a).pos, g.edges (g.mat cand b).pos] h.rep (by
    intro e he; exact ⟨(hsim.1 e (by simp at he ⊢; tauto)).1, (hsim.1 e (by simp at he ⊢; tauto)).2.1⟩) (by have := h.len; simp; omega)
    (fun u hu => le_trans (nbrs_length_le hsim hu) (by omega))
  have hcopy := e2
  rw [forList, bind_eq_ok] at e2
  obtain ⟨t1, h1, h2⟩ := e2
  rw [forList, bind_eq_ok] at h2
  obtain ⟨t2', h2, h3⟩ := h2
  simp only [forList, Except.ok.injEq] at h3
  subst h3
  have hE := h.ready.edges
  have valid : ∀ {x y : MST} {e : Edge}, addEdge c x e = .ok y → y.isValid = x.isValid := by
    intro x y e hxy
    unfold addEdge at hxy
    simp only at hxy
    split at hxy
    · cases hxy
    split at hxy
    · cases hxy
    split at hxy
    · cases hxy
    simp only [Except.ok.injEq] at hxy
    rw [← hxy]
    split
    · split <;> rfl
    · rfl
  refine ⟨t1, t2', ?_, ?_, r2, hsim, by rw [valid h2, valid h1], addAll_nodepos _ hcopy⟩
  · unfold addAt; rw [if_neg (by omega), if_neg (by omega)]; exact h1
  · unfold addAt; rw [if_neg (by omega), if_neg (by omega)]; exact h2

omit [Rounding] in
theorem exists_other {l : List Nat} (nd : l.Nodup) (h : 2 ≤ l.length) (a : Nat) : ∃ b ∈ l, b ≠ a := by
  match l, nd, h with
  | x :: y :: r, nd, _ =>
    by_cases hx : x = a
    · refine ⟨y, by simp, ?_⟩
      rintro rfl
      rw [hx] at nd
      simp at nd
    · exact ⟨x, by simp, hx⟩

omit [Rounding] in
theorem card_two {P : EdgeSet} {x y : Sym2 Nat} (hP : P.card = 2) (hx : x ∈ P) (hy : y ∈ P) (hne : x ≠ y) : P = {x, y} := by
  refine (Finset.eq_of_subset_of_card_le ?_ ?_).symm
  · intro z hz
    rw [Finset.mem_insert, Finset.mem_singleton] at hz
    rcases hz with rfl | rfl <;> assumption
  · rw [hP, Finset.card_pair hne]

omit [Rounding] in
theorem total_pair (w : Sym2 Nat → ℚ) {x y : Sym2 Nat} (h : x ≠ y) : total w {x, y} = w x + w y := by
  unfold total; exact Finset.sum_pair h

/-- the three outcomes of `mst_to_one_tree`: outside its arrays (too many mandatory edges, or no edge below `INFINITE` found), infeasible, a 1-tree -/
theorem mstToOneTree_main {L : List Edge} (h : OReady c g sp cand M F L) :
    ((2 < (spokes cand M).card ∧ mstToOneTree c g sp cand = .error (.oobAt .bestEdges)) ∨
      (∃ e ∈ spokes cand (edgeSet g \ F), INFINITE ≤ weight g e) ∧ mstToOneTree c g sp cand = .error (.oobAt .minusOne)) ∨
    ((spokes cand M).card ≤ 2 ∧ (spokes cand (edgeSet g \ F)).card < 2 ∧ mstToOneTree c g sp cand = .ok (.closedUnfeasible, sp)) ∨
    ((spokes cand M).card ≤ 2 ∧ 2 ≤ (spokes cand (edgeSet g \ F)).card ∧ ∃ t ea eb,
      mstToOneTree c g sp cand = .ok (.opened, { sp with oneTree := t }) ∧ TreeRep c t g.numNodes (L ++ [ea, eb]) ∧
      SimpleList g.numNodes (L ++ [ea, eb]) ∧ t.isValid = sp.oneTree.isValid ∧ (∀ i, (t.nodes i).pos = (sp.oneTree.nodes i).pos) ∧
      (∃ i < g.numEdges, ea = g.edges i) ∧ (∃ i < g.numEdges, eb = g.edges i) ∧
      ({epair ea, epair eb} : EdgeSet) ⊆ spokes cand (edgeSet g \ F) ∧ ({epair ea, epair eb} : EdgeSet).card = 2 ∧
      spokes cand M ⊆ {epair ea, epair eb} ∧
      ∀ Q ⊆ spokes cand (edgeSet g \ F), Q.card = 2 → spokes cand M ⊆ Q → total (weight g) {epair ea, epair eb} ≤ total (weight g) Q) := by
  have hst := h.ready.stored
  have hcn := h.ready.cand
  have hdesc := h.ready.desc
  have hl : ∀ d, d ∈ (g.nodes cand).list ↔ s(cand, d) ∈ edgeSet g := fun d => by
    rw [hst.nbr cand hcn d, mem_edgeSet_adj]
  have hnd : (g.nodes cand).list.Nodup := hst.nodup cand hcn
  have hb : ∀ d, s(cand, d) ∈ edgeSet g → d < g.numNodes ∧ cand ≠ d := by
    intro d hd
    have := hst.within cand d hd
    simp only [Finset.mem_range] at this
    refine ⟨this.2, ?_⟩
    rintro rfl; exact hst.noloop _ hd
  have hmand : ∀ d, s(cand, d) ∈ M ↔ d ∈ (g.nodes cand).list.filter (mandB sp cand) := by
    intro d
    rw [List.mem_filter, hl]
    constructor
    · intro hM
      have hE := h.ready.mand_sub hM
      obtain ⟨h1, h2⟩ := hb d hE
      exact ⟨hE, decide_eq_true ((hdesc.mand cand hcn d h1 h2).1 hM)⟩
    · rintro ⟨hE, hm⟩
      obtain ⟨h1, h2⟩ := hb d hE
      exact (hdesc.mand cand hcn d h1 h2).2 (of_decide_eq_true hm)
  have hoth : ∀ d, d ∈ (g.nodes cand).list.filter (otherB sp cand) ↔ s(cand, d) ∈ edgeSet g ∧ s(cand, d) ∉ M ∧ s(cand, d) ∉ F := by
    intro d
    rw [List.mem_filter, hl]
    refine and_congr_right fun hE => ?_
    obtain ⟨h1, h2⟩ := hb d hE
    rw [← hdesc.free cand hcn d h1 h2]
    unfold otherB mandB
    simp only [Bool.and_eq_true, Bool.not_eq_true', decide_eq_false_iff_not, decide_eq_true_eq]
    tauto
  have hall : ∀ d, s(cand, d) ∈ edgeSet g \ F ↔ d ∈ (g.nodes cand).list.filter (mandB sp cand) ++ (g.nodes cand).list.filter (otherB sp cand) := by
    intro d
    rw [List.mem_append, ← hmand, hoth, Finset.mem_sdiff]
    constructor
    · rintro ⟨h1, h2⟩
      by_cases hM : s(cand, d) ∈ M
      · exact Or.inl hM
      · exact Or.inr ⟨h1, hM, h2⟩
    · rintro (h1 | h1)
      · exact ⟨h.ready.mand_sub h1, hdesc.disjoint h1⟩
      · exact ⟨h1.1, h1.2.2⟩
  have ndm : ((g.nodes cand).list.filter (mandB sp cand)).Nodup := hnd.filter _
  have ndo : ((g.nodes cand).list.filter (otherB sp cand)).Nodup := hnd.filter _
  have ndall : ((g.nodes cand).list.filter (mandB sp cand) ++ (g.nodes cand).list.filter (otherB sp cand)).Nodup := by
    rw [List.nodup_append]
    refine ⟨ndm, ndo, ?_⟩
    rintro a ha b hb' rfl
    exact ((hoth a).1 hb').2.1 ((hmand a).2 ha)
  have hcm : (spokes cand M).card = ((g.nodes cand).list.filter (mandB sp cand)).length := by rw [spokeSet_ext hmand, spokeSet_card ndm]
  have hca : (spokes cand (edgeSet g \ F)).card = ((g.nodes cand).list.filter (mandB sp cand)).length + ((g.nodes cand).list.filter (otherB sp cand)).length := by
    rw [spokeSet_ext hall, spokeSet_card ndall, List.length_append]
  -- packaging of a successful pair
  have pack : ∀ a b, a ≠ b → s(cand, a) ∈ edgeSet g \ F → s(cand, b) ∈ edgeSet g \ F → spokes cand M ⊆ {s(cand, a), s(cand, b)} →
      (∀ Q ⊆ spokes cand (edgeSet g \ F), Q.card = 2 → spokes cand M ⊆ Q → total (weight g) {s(cand, a), s(cand, b)} ≤ total (weight g) Q) →
      (∀ t1 t2, addAt c g sp.oneTree ((g.mat cand a).pos : Int) = .ok t1 → addAt c g t1 ((g.mat cand b).pos : Int) = .ok t2 →
        mstToOneTree c g sp cand = .ok (.opened, { sp with oneTree := t2 })) →
      ∃ t ea eb,
      mstToOneTree c g sp cand = .ok (.opened, { sp with oneTree := t }) ∧ TreeRep c t g.numNodes (L ++ [ea, eb]) ∧
      SimpleList g.numNodes (L ++ [ea, eb]) ∧ t.isValid = sp.oneTree.isValid ∧ (∀ i, (t.nodes i).pos = (sp.oneTree.nodes i).pos) ∧
      (∃ i < g.numEdges, ea = g.edges i) ∧ (∃ i < g.numEdges, eb = g.edges i) ∧
      ({epair ea, epair eb} : EdgeSet) ⊆ spokes cand (edgeSet g \ F) ∧ ({epair ea, epair eb} : EdgeSet).card = 2 ∧
      spokes cand M ⊆ {epair ea, epair eb} ∧
      ∀ Q ⊆ spokes cand (edgeSet g \ F), Q.card = 2 → spokes cand M ⊆ Q → total (weight g) {epair ea, epair eb} ≤ total (weight g) Q := by
    intro a b hab ha hb' hM hmin hrun
    have ha0 := (Finset.mem_sdiff.1 ha).1
    have hb0 := (Finset.mem_sdiff.1 hb').1
    obtain ⟨t1, t2, e1, e2, r, hs, hv, hp⟩ := h.add_two hab ha0 hb0
    obtain ⟨pa, ea, -, -⟩ := h.ready.spoke_edge ha0
    obtain ⟨pb, eb, -, -⟩ := h.ready.spoke_edge hb0
    refine ⟨t2, _, _, hrun t1 t2 e1 e2, r, hs, hv, hp, ⟨_, pa, rfl⟩, ⟨_, pb, rfl⟩, ?_⟩
    rw [ea, eb]
    refine ⟨?_, ?_, hM, hmin⟩
    · intro e he
      rw [Finset.mem_insert, Finset.mem_singleton] at he
      rcases he with rfl | rfl
      · exact mem_spokes.2 ⟨ha, by simp⟩
      · exact mem_spokes.2 ⟨hb', by simp⟩
    · rw [Finset.card_pair]
      intro h'; rw [Sym2.eq_iff] at h'; omega
  have hpairne : ∀ {a b : Nat}, a ≠ b → s(cand, a) ≠ s(cand, b) := by
    intro a b hab h'; rw [Sym2.eq_iff] at h'; omega
  have hwd : ∀ d, s(cand, d) ∈ edgeSet g \ F → (g.mat cand d).weight = weight g s(cand, d) := fun d hd =>
    (h.ready.spoke_edge (Finset.mem_sdiff.1 hd).1).2.2.2
  rw [hcm, hca]
  have hscan := scan_ok (g := g) (sp := sp) (src := cand) (g.nodes cand).list
  by_cases h3 : 2 < ((g.nodes cand).list.filter (mandB sp cand)).length
  · left
    refine Or.inl ⟨h3, ?_⟩
    unfold mstToOneTree
    simp only [h.pos, hscan.2 h3, error_bind]
  obtain ⟨s, es, hinv⟩ := hscan.1 (by omega)
  generalize hlm : (g.nodes cand).list.filter (mandB sp cand) = lm at *
  generalize hlo : (g.nodes cand).list.filter (otherB sp cand) = lo at *
  have htoAdd := hinv.toAdd
  have hothers := hinv.others
  rw [hlm] at htoAdd
  rw [hlo] at hothers
  have hposi : ∀ i (hi : i < lm.length), s.pos i = (g.mat cand lm[i]).pos := by
    subst hlm; exact hinv.pos
  by_cases h2 : lm.length + lo.length < 2
  · right; left
    refine ⟨by omega, h2, ?_⟩
    unfold mstToOneTree
    simp only [h.pos, es, ok_bind]
    rw [if_pos (by rw [htoAdd, hothers]; exact Or.inr h2)]; rfl
  have hn2 : ¬ (s.toAdd > 2 ∨ s.toAdd + s.others.length < 2) := by rw [htoAdd, hothers]; omega
  match lm, h3, h2, hmand, hall, htoAdd, hposi, ndall, ndm with
  | [a, b], _, _, hmand, hall, htoAdd, hposi, ndall, ndm =>
    have hab : a ≠ b := by simp at ndm; exact ndm
    have hMset : spokes cand M = {s(cand, a), s(cand, b)} := by
      rw [spokeSet_ext hmand]; simp [spokeSet]
    have p0 : s.pos 0 = (g.mat cand a).pos := hposi 0 (by simp)
    have p1 : s.pos 1 = (g.mat cand b).pos := hposi 1 (by simp)
    refine Or.inr (Or.inr ⟨by simp, by simp, pack a b hab ((hall a).2 (by simp)) ((hall b).2 (by simp)) (by rw [hMset]) ?_ ?_⟩)
    · intro Q hQ hc2 hMQ
      rw [hMset] at hMQ
      rw [Finset.eq_of_subset_of_card_le hMQ (by rw [hc2, Finset.card_pair (hpairne hab)])]
    · intro t1 t2 e1 e2
      unfold mstToOneTree
      simp only [h.pos, es, ok_bind]
      rw [if_neg hn2, if_pos (by rw [htoAdd]; rfl)]
      simp only [p0, p1, e1, e2, ok_bind, pure_eq_ok]
  | [a], _, h2, hmand, hall, htoAdd, hposi, ndall, ndm =>
    have hMset : spokes cand M = {s(cand, a)} := by rw [spokeSet_ext hmand]; rfl
    have p0 : s.pos 0 = (g.mat cand a).pos := hposi 0 (by simp)
    have t1ok : ∃ t1, addAt c g sp.oneTree ((g.mat cand a).pos : Int) = .ok t1 := by
      obtain ⟨b, hb'⟩ : ∃ b, b ∈ lo := List.exists_mem_of_length_pos (by simp at h2; omega)
      have hne : a ≠ b := by rintro rfl; simp at ndall; exact ndall.1 hb'
      obtain ⟨t1, t2, e1, -⟩ := h.add_two hne (Finset.mem_sdiff.1 ((hall a).2 (by simp))).1 (Finset.mem_sdiff.1 ((hall b).2 (by simp [hb']))).1
      exact ⟨t1, e1⟩
    rcases best1_ok g cand lo with ⟨hbig, eb⟩ | ⟨d, hd, -, eb, hmin⟩
    · left
      obtain ⟨b, hb'⟩ : ∃ b, b ∈ lo := List.exists_mem_of_length_pos (by simp at h2; omega)
      have hbE := (hall b).2 (by simp [hb'])
      obtain ⟨t1, e1⟩ := t1ok
      refine Or.inr ⟨⟨s(cand, b), mem_spokes.2 ⟨hbE, by simp⟩, by rw [← hwd b hbE]; exact hbig b hb'⟩, ?_⟩
      unfold mstToOneTree
      simp only [h.pos, es, ok_bind]
      rw [if_neg hn2, if_neg (by rw [htoAdd]; simp), if_pos (by rw [htoAdd]; rfl)]
      simp only [p0, hothers, eb, e1, ok_bind]
      simp [addAt]
    refine Or.inr (Or.inr ⟨by simp, by simp at h2 ⊢; omega, ?_⟩)
    have had : a ≠ d := by
      rintro rfl
      simp at ndall; exact ndall.1 hd
    refine pack a d had ((hall a).2 (by simp)) ((hall d).2 (by simp [hd])) (by rw [hMset]; simp) ?_ ?_
    · intro Q hQ hc2 hMQ
      rw [hMset, Finset.singleton_subset_iff] at hMQ
      obtain ⟨y, hy, hya⟩ : ∃ y ∈ Q, y ≠ s(cand, a) := Finset.exists_mem_ne (by omega) _
      have hy' := hQ hy
      rw [mem_spokes] at hy'
      obtain ⟨hyE, x, rfl⟩ := hy'
      have hxa : x ≠ a := by rintro rfl; exact hya rfl
      have hxo : x ∈ lo := by
        have := (hall x).1 hyE
        simp at this
        exact this.resolve_left hxa
      rw [card_two hc2 hMQ hy hya.symm, total_pair _ (hpairne had), total_pair _ hya.symm]
      have := hmin x hxo
      rw [hwd d ((hall d).2 (by simp [hd])), hwd x hyE] at this
      linarith
    · intro t1 t2 e1 e2
      unfold mstToOneTree
      simp only [h.pos, es, ok_bind]
      rw [if_neg hn2, if_neg (by rw [htoAdd]; simp), if_pos (by rw [htoAdd]; rfl)]
      simp only [p0, hothers, eb, e1, e2, ok_bind, pure_eq_ok]
  | [], _, h2, hmand, hall, htoAdd, hposi, ndall, ndm =>
    rcases best2_ok g cand lo ndo with ⟨hbig, eb⟩ | ⟨a, ha, hai, hbig, eb⟩ | ⟨a, ha, b, hb', hab, -, eb, hm1, hm2⟩
    · left
      obtain ⟨b, hb'⟩ : ∃ b, b ∈ lo := List.exists_mem_of_length_pos (by simp at h2; omega)
      have hbE := (hall b).2 (by simp [hb'])
      refine Or.inr ⟨⟨s(cand, b), mem_spokes.2 ⟨hbE, by simp⟩, by rw [← hwd b hbE]; exact hbig b hb'⟩, ?_⟩
      unfold mstToOneTree
      simp only [h.pos, es, ok_bind]
      rw [if_neg hn2, if_neg (by rw [htoAdd]; simp), if_neg (by rw [htoAdd]; simp)]
      simp only [hothers, eb]
      simp [addAt]
    · left
      obtain ⟨b, hb', hba⟩ : ∃ b ∈ lo, b ≠ a := exists_other ndo (by simp at h2; exact h2) a
      have hbE := (hall b).2 (by simp [hb'])
      have haE := (hall a).2 (by simp [ha])
      obtain ⟨t1, t2, e1, -⟩ := h.add_two hba.symm (Finset.mem_sdiff.1 haE).1 (Finset.mem_sdiff.1 hbE).1
      refine Or.inr ⟨⟨s(cand, b), mem_spokes.2 ⟨hbE, by simp⟩, by rw [← hwd b hbE]; exact hbig b hb' hba⟩, ?_⟩
      unfold mstToOneTree
      simp only [h.pos, es, ok_bind]
      rw [if_neg hn2, if_neg (by rw [htoAdd]; simp), if_neg (by rw [htoAdd]; simp)]
      simp only [hothers, eb, e1, ok_bind]
      simp [addAt]
    refine Or.inr (Or.inr ⟨by simp, by simp at h2 ⊢; omega, ?_⟩)
    have haE := (hall a).2 (by simp [ha])
    have hbE := (hall b).2 (by simp [hb'])
    refine pack a b hab haE hbE (by rw [spokeSet_ext hmand]; simp [spokeSet]) ?_ ?_
    · intro Q hQ hc2 _
      obtain ⟨x', y', hne, rfl⟩ := Finset.card_eq_two.1 hc2
      have hx' := hQ (show x' ∈ ({x', y'} : EdgeSet) by simp)
      have hy' := hQ (show y' ∈ ({x', y'} : EdgeSet) by simp)
      rw [mem_spokes] at hx' hy'
      obtain ⟨hxE, x, rfl⟩ := hx'
      obtain ⟨hyE, y, rfl⟩ := hy'
      have hxy : x ≠ y := by rintro rfl; exact hne rfl
      have hxo : x ∈ lo := by simpa using (hall x).1 hxE
      have hyo : y ∈ lo := by simpa using (hall y).1 hyE
      rw [total_pair _ (hpairne hab), total_pair _ hne, ← hwd a haE, ← hwd b hbE, ← hwd x hxE, ← hwd y hyE]
      have q1 := hm1 x hxo
      have q2 := hm1 y hyo
      by_cases hxa : x = a
      · subst hxa; have := hm2 y hyo (Ne.symm hxy); linarith
      · have := hm2 x hxo hxa; linarith
    · intro t1 t2 e1 e2
      unfold mstToOneTree
      simp only [h.pos, es, ok_bind]
      rw [if_neg hn2, if_neg (by rw [htoAdd]; simp), if_neg (by rw [htoAdd]; simp)]
      simp only [hothers, eb, e1, e2, ok_bind, pure_eq_ok]
  | a :: b :: d :: rest, h3, _, _, _, _, _, _, _ => simp at h3

end Verif
