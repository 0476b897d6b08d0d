import Verif.Props.Branch
import Verif.Props.OneTreeFails

/-!
# C27, C34: where the code leaves its arrays; examples for C32 – C36
-/
namespace Verif
open Verif.Spec
set_option autoImplicit false

namespace Ex

/-- the value is there and satisfies the test -/
def okAnd {α : Type} (x : Res α) (p : α → Bool) : Bool := match x with | .ok a => p a | .error _ => false

theorem okAnd_elim {α : Type} {x : Res α} {p : α → Bool} (h : okAnd x p = true) : ∃ a, x = .ok a ∧ p a = true := by
  cases x with
  | ok a => exact ⟨a, rfl, h⟩
  | error e => cases h

/-- the computation ends with this fault -/
def isOob {α : Type} (f : Fault) (x : Res α) : Bool := match x with | .error k => decide (k = f) | _ => false

theorem isOob_elim {α : Type} {f : Fault} {x : Res α} (h : isOob f x = true) : x = .error f := by
  cases x with
  | ok a => cases h
  | error e => rw [of_decide_eq_true h]

def edge (u v : Nat) : Edge := ⟨u, v, 0, 1, 0, 0⟩

/-- the matrix of the example below -/
def mat5 (u v : Nat) : CType :=
  if u = v ∨ (u = 0 ∧ v ≤ 2) ∨ (v = 0 ∧ u ≤ 2) then .forbidden else if u = 0 ∨ v = 0 then .mandatory else .nothing

/-- child `i` of a branching on the edge `u – v`, after inference -/
def child (c : Cfg) (cur : SubProblem) (u v i : Nat) : Res ((SubProblem × Nat) × Bool) := do
  let ch ← makeChild c sub cur (edge u v) 1 i
  inferConstraints c ch 0

theorem child_made {c : Cfg} {cur : SubProblem} {u v i : Nat} {r : (SubProblem × Nat) × Bool} (h : Made c cur) (hu : u < c.maxV) (hv : v < c.maxV) (huv : u ≠ v)
    (e : child c cur u v i = .ok r) (hr : r.2 = true) : Made c r.1.1 := by
  unfold child at e
  obtain ⟨ch, h1, h2⟩ := bind_eq_ok.1 e
  exact Made.child sub (edge u v) 1 i 0 h hu hv huv h1 h2 hr

end Ex

/-- C34 fails in the last clause: on four nodes, after requiring `0 – 1` and then forbidding `2 – 3`, `infer_constraints` writes a
fifth entry to the list of mandatory edges, which has four. -/
theorem C34_list_overflow : ∃ (c : Cfg) (cur child : SubProblem) (e : Edge), c.maxV = 4 ∧ Made c cur ∧ cur.cons e.src e.dest = .nothing ∧
    makeChild c Ex.sub cur e 2 1 = .ok child ∧ Bookkeeping c.maxV child ∧ inferConstraints c child 0 = .error (.oobAt .mandatoryEdges) := by
  let c : Cfg := ⟨4, false, 0, 0, 0, 0⟩
  have h : Ex.okAnd (Ex.child c (initializeMatrix c Ex.sub) 0 1 0) (fun r => r.2 && decide (r.1.1.cons 2 3 = .nothing) &&
      Ex.okAnd (makeChild c Ex.sub r.1.1 (Ex.edge 2 3) 2 1) (fun ch => Ex.isOob (.oobAt .mandatoryEdges) (inferConstraints c ch 0))) = true := by decide +kernel
  obtain ⟨r, h1, h2⟩ := Ex.okAnd_elim h
  simp only [Bool.and_eq_true, decide_eq_true_eq] at h2
  obtain ⟨⟨h2, h3⟩, h4⟩ := h2
  obtain ⟨ch, h5, h6⟩ := Ex.okAnd_elim h4
  have hm := Ex.child_made (Made.root Ex.sub) (by decide) (by decide) (by decide) h1 h2
  exact ⟨c, r.1.1, ch, Ex.edge 2 3, rfl, hm, h3, h5, (makeChild_ok (C34_bookkeeping_partial hm).sym (by decide) (by decide) (by decide) h5).1, Ex.isOob_elim h6⟩

/-- C27 (partial). `mst_to_one_tree` stays inside its arrays and ends normally whenever the candidate has at most two mandatory edges. Missing: the
constraint matrices accepted by `infer_constraints` in which it has more, for which the claim is false (`C27_overflow`). -/
theorem C27_in_bounds_partial {c : Cfg} {g : Graph} {sp : SubProblem} {cand : Nat} {M F : EdgeSet} {L : List Edge} (h : OReady c g sp cand M F L)
    (hfin : ∀ e ∈ spokes cand (edgeSet g \ F), weight g e < INFINITE) (h2 : (spokes cand M).card ≤ 2) : ∃ r, mstToOneTree c g sp cand = .ok r := by
  obtain ⟨-, h3, h4⟩ := C26_candidate_edges h hfin
  by_cases h5 : (spokes cand (edgeSet g \ F)).card < 2
  · exact ⟨_, h3 h2 h5⟩
  · obtain ⟨t, P, e, -⟩ := h4 h2 (by omega)
    exact ⟨_, e⟩

/-- C27 fails: on the complete graph with five nodes and weights 1, forbid `2 – 4` and `0 – 3`, require `1 – 2`, forbid `3 – 4`, in four
branchings whose inferences all answer `true`. Then node 1 has three mandatory edges, `constrained_prim` finds a valid tree of the other
nodes, and `mst_to_one_tree` writes outside its two-element arrays. -/
theorem C27_overflow (mem : Graph) (loc : PState) : ∃ (c : Cfg) (g : Graph) (sp sp1 : SubProblem), Made c sp ∧ Stored g ∧ g.numNodes = c.maxV ∧
    (∀ u < c.maxV, ∀ v < c.maxV, u ≠ v → s(u, v) ∈ edgeSet g ∧ weight g s(u, v) = 1) ∧
    constrainedPrim c g.numNodes g sp 1 loc = .ok sp1 ∧ sp1.oneTree.isValid = true ∧ mstToOneTree c g sp1 1 = .error (.oobAt .bestEdges) := by
  let c : Cfg := ⟨5, false, 0, 0, 0, 0⟩
  have h : Ex.okAnd (Ex.child c (initializeMatrix c Ex.sub) 2 4 1) (fun r1 => r1.2 && Ex.okAnd (Ex.child c r1.1.1 0 3 1) (fun r2 => r2.2 &&
      Ex.okAnd (Ex.child c r2.1.1 1 2 0) (fun r3 => r3.2 && Ex.okAnd (Ex.child c r3.1.1 3 4 1) (fun r4 => r4.2 &&
        decide (rowCount 5 r4.1.1.cons 1 .mandatory = 3) && decide (r4.1.1.cons 0 4 ≠ .forbidden) && decide (r4.1.1.cons 0 2 ≠ .forbidden) &&
        decide (r4.1.1.cons 2 3 ≠ .forbidden))))) = true := by decide +kernel
  obtain ⟨r1, e1, h⟩ := Ex.okAnd_elim h
  rw [Bool.and_eq_true] at h
  obtain ⟨v1, h⟩ := h
  obtain ⟨r2, e2, h⟩ := Ex.okAnd_elim h
  rw [Bool.and_eq_true] at h
  obtain ⟨v2, h⟩ := h
  obtain ⟨r3, e3, h⟩ := Ex.okAnd_elim h
  rw [Bool.and_eq_true] at h
  obtain ⟨v3, h⟩ := h
  obtain ⟨r4, e4, h⟩ := Ex.okAnd_elim h
  simp only [Bool.and_eq_true, decide_eq_true_eq] at h
  obtain ⟨⟨⟨⟨v4, h1⟩, h2⟩, h3⟩, h4⟩ := h
  have hm := Ex.child_made (Ex.child_made (Ex.child_made (Ex.child_made (Made.root Ex.sub) (by decide) (by decide) (by decide) e1 v1)
    (by decide) (by decide) (by decide) e2 v2) (by decide) (by decide) (by decide) e3 v3) (by decide) (by decide) (by decide) e4 v4
  have hb := C34_bookkeeping_partial hm
  obtain ⟨g, st, ps, -, hn, hme, hE, hw, hnp⟩ := Ex.complete' c mem 5 (le_refl 5) (fun _ _ => 1)
  have hr := cready_of_book (c := c) (cand := 1) st ps hn (Ex.maxE_bound (le_refl 5) hme) hE (by decide) (by decide) hb
  have hw1 : ∀ e ∈ edgeSet g, weight g e = 1 := all_pairs st hn (fun u v huv hv => hw u v huv hv)
  have hflt : (1:ℚ) < FLT_MAX := by decide +kernel
  have hsmall : ∀ e ∈ edgeSet g, weight g e < FLT_MAX := fun e he => by rw [hw1 e he]; exact hflt
  have hconn : Connected (others g 1) (usable g 1 (consSet c.maxV r4.1.1.cons .forbidden)) := by
    have ed : ∀ u v, u < 5 → v < 5 → u ≠ v → u ≠ 1 → v ≠ 1 → r4.1.1.cons u v ≠ .forbidden → Conn (usable g 1 (consSet c.maxV r4.1.1.cons .forbidden)) u v := by
      intro u v hu hv huv hu1 hv1 hc
      refine Conn.edge (mem_usable.2 ⟨hE u hu v hv huv, ?_, notMem_pair.2 ⟨hu1, hv1⟩⟩)
      intro hmem
      exact hc ((mem_consSet hb.sym).1 hmem).2.2.2
    have c4 := ed 0 4 (by decide) (by decide) (by decide) (by decide) (by decide) h2
    have c2 := ed 0 2 (by decide) (by decide) (by decide) (by decide) (by decide) h3
    have c3 := c2.trans' (ed 2 3 (by decide) (by decide) (by decide) (by decide) (by decide) h4)
    have all : ∀ u ∈ others g 1, Conn (usable g 1 (consSet c.maxV r4.1.1.cons .forbidden)) 0 u := by
      intro u hu
      obtain ⟨q1, q2⟩ := mem_others.1 hu
      rw [hn] at q1
      interval_cases u
      · exact Conn.refl' _ _
      · exact absurd rfl q2
      · exact c2
      · exact c3
      · exact c4
    exact fun u hu v hv => (all u hu).symm'.trans' (all v hv)
  rcases constrainedPrim_main (pn := g.numNodes) hr loc with ⟨-, h57⟩ | ⟨t, L, e, -, -, -, -, -, -, -, -, hc, -⟩
  · omega
  have hv := (hc (fun e he => hsmall e (mem_usable.1 he).1)).2 hconn
  refine ⟨c, g, r4.1.1, _, hm, st, hn, fun u hu v hv huv => ⟨hE u hu v hv huv, hw1 _ (hE u hu v hv huv)⟩, e, hv, ?_⟩
  rcases relaxation hr (hnp 1 (by decide)) (by omega) e hv with (⟨-, h'⟩ | ⟨⟨x, hx, hbig⟩, -⟩) | ⟨h', -⟩ | ⟨t', L', -, -, -, -, ho, hsub, -⟩
  · exact h'
  · exact absurd (lt_trans (hsmall x (Finset.mem_sdiff.1 (mem_spokes.1 hx).1).1) flt_le_dbl) (not_lt.2 hbig)
  · have q := oready hr (hnp 1 (by decide)) e hv
    obtain ⟨t2, L2, -, q2, -⟩ := q
    refine (C26_candidate_edges q2 (fun e he => lt_trans (hsmall e (Finset.mem_sdiff.1 (mem_spokes.1 he).1).1) flt_le_dbl)).1 ?_
    rw [spokes_card hb.sym (by decide) (by decide)]
    exact lt_of_lt_of_eq (by omega) h1.symm
  · have hle : (spokes 1 (consSet c.maxV r4.1.1.cons .mandatory)).card ≤ (spokes 1 (pairs L')).card := by
      refine Finset.card_le_card ?_
      intro x hx
      exact mem_spokes.2 ⟨hsub hx, (mem_spokes.1 hx).2⟩
    rw [ho.two, spokes_card hb.sym (by decide) (by decide)] at hle
    exact absurd (h1 ▸ hle : 3 ≤ 2) (by omega)

/-- C32, C33, C34 and C35 meet non-trivial cases: on five nodes, after forbidding `0 – 1` and `0 – 2` one after the other, inference makes
`0 – 3` and `0 – 4` mandatory, and then forbids nothing else; `0,3,1,2,4` is an allowed tour. -/
example : ∃ (c : Cfg) (sp : SubProblem), Made c sp ∧ Bookkeeping 5 sp ∧ sp.cons 0 3 = .mandatory ∧ sp.cons 0 4 = .mandatory ∧ sp.cons 1 2 = .nothing ∧
    sp.cons 0 1 = .forbidden ∧ AllowedBy 5 sp.cons [0, 3, 1, 2, 4] := by
  let c : Cfg := ⟨5, false, 0, 0, 0, 0⟩
  have h : Ex.okAnd (Ex.child c (initializeMatrix c Ex.sub) 0 1 1) (fun r1 => r1.2 && Ex.okAnd (Ex.child c r1.1.1 0 2 1) (fun r2 => r2.2 &&
      (List.range 5).all (fun u => (List.range 5).all fun v => decide (r2.1.1.cons u v = Ex.mat5 u v)))) = true := by
    decide +kernel
  obtain ⟨r1, e1, h⟩ := Ex.okAnd_elim h
  rw [Bool.and_eq_true] at h
  obtain ⟨v1, h⟩ := h
  obtain ⟨r2, e2, h⟩ := Ex.okAnd_elim h
  simp only [Bool.and_eq_true] at h
  obtain ⟨v2, h3⟩ := h
  have h3 : ∀ u < 5, ∀ v < 5, r2.1.1.cons u v = Ex.mat5 u v := by
    intro u hu v hv
    have := List.all_eq_true.1 (List.all_eq_true.1 h3 u (List.mem_range.2 hu)) v (List.mem_range.2 hv)
    exact of_decide_eq_true this
  have hm := Ex.child_made (Ex.child_made (Made.root Ex.sub) (by decide) (by decide) (by decide) e1 v1) (by decide) (by decide) (by decide) e2 v2
  refine ⟨c, _, hm, C34_bookkeeping_partial hm, ?_, ?_, ?_, ?_, ?_, ?_⟩
  · rw [h3 0 (by decide) 3 (by decide)]; decide
  · rw [h3 0 (by decide) 4 (by decide)]; decide
  · rw [h3 1 (by decide) 2 (by decide)]; decide
  · rw [h3 0 (by decide) 1 (by decide)]; decide
  · unfold IsTour; decide
  · intro u hu v hv huv
    rw [h3 u hu v hv]
    interval_cases u <;> interval_cases v <;> decide

/-- C33: three mandatory edges at node 0 of five nodes; the answer is `false` -/
example : ∃ (c : Cfg) (sp : SubProblem) (r : (SubProblem × Nat) × Bool), c.maxV = 5 ∧ SymMatrix 5 sp.cons ∧ inferConstraints c sp 0 = .ok r ∧ r.2 = false := by
  let c : Cfg := ⟨5, false, 0, 0, 0, 0⟩
  let sp : SubProblem := { Ex.sub with cons := fun u v => if u = v then .forbidden else if u = 0 ∧ v ≤ 3 ∨ v = 0 ∧ u ≤ 3 then .mandatory else .nothing }
  have h : Ex.okAnd (inferConstraints c sp 0) (fun r => !r.2) = true := by decide +kernel
  obtain ⟨r, e, h⟩ := Ex.okAnd_elim h
  exact ⟨c, sp, r, rfl, ⟨by decide, by decide⟩, e, by simpa using h⟩

/-- C35: branching at the root of five nodes on the edge `0 – 1` keeps both children, in front of an older subproblem of larger value -/
example : ∃ (c : Cfg) (p p2 : Problem) (cur old : SubProblem) (open2 : List SubProblem), SymMatrix 5 cur.cons ∧ c.maxV = 5 ∧
    branch c (fun _ => Ex.sub) p [old] cur = .ok (open2, p2) ∧ open2.length = 3 ∧ (open2.map SubProblem.id) = [8, 9, 5] ∧ p2.generated = 9 := by
  let c : Cfg := ⟨5, false, 0, 0, 0, 0⟩
  let cur : SubProblem := { initializeMatrix c Ex.sub with edgeToBranch := 0 }
  let old : SubProblem := { Ex.sub with id := 5, value := 10 }
  let g : Graph := ⟨0, 5, 1, false, fun _ => ⟨0, 0, 0, 0, fun _ => 0⟩, fun _ => Ex.edge 0 1, fun _ _ => Ex.edge 0 1⟩
  let p : Problem := ⟨g, g, 0, 0, Ex.sub, 100, 7, 3, 0, false⟩
  have h : Ex.okAnd (branch c (fun _ => Ex.sub) p [old] cur) (fun r => decide (r.1.length = 3) && decide (r.1.map SubProblem.id = [8, 9, 5]) && decide (r.2.generated = 9)) = true := by
    decide +kernel
  obtain ⟨⟨o2, p2⟩, e, h⟩ := Ex.okAnd_elim h
  simp only [Bool.and_eq_true, decide_eq_true_eq] at h
  refine ⟨c, p, p2, cur, old, o2, ?_, rfl, e, h.1.1, h.1.2, h.2⟩
  exact (C34_bookkeeping_partial (Made.root (c := c) Ex.sub)).sym

/-- C35, order: in hybrid mode an edge whose probability is below `PROB_BRANCH` gives the child that forbids it first; both children are kept and
come between an older subproblem of smaller value and one of larger value -/
example : ∃ (c : Cfg) (p p2 : Problem) (cur low high : SubProblem) (open2 : List SubProblem), 0 ≤ c.eps ∧ c.hybrid = true ∧ SymMatrix 5 cur.cons ∧ c.maxV = 5 ∧
    branch c (fun _ => Ex.sub) p [low, high] cur = .ok (open2, p2) ∧ (open2.map SubProblem.id) = [4, 8, 9, 5] ∧
    (open2.map fun s => s.cons 0 1) = [low.cons 0 1, .forbidden, .mandatory, high.cons 0 1] := by
  let c : Cfg := { maxV := 5, hybrid := true, eps := 1 / 100, probBranch := 1 / 2, betterProb := 1 / 10, eps2 := 0 }
  let cur : SubProblem := { initializeMatrix c Ex.sub with edgeToBranch := 0 }
  let low : SubProblem := { Ex.sub with id := 4, value := cur.value - 10 }
  let high : SubProblem := { Ex.sub with id := 5, value := cur.value + 10 }
  let g : Graph := ⟨0, 5, 1, false, fun _ => ⟨0, 0, 0, 0, fun _ => 0⟩, fun _ => { Ex.edge 0 1 with prob := 1 / 3 }, fun _ _ => Ex.edge 0 1⟩
  let p : Problem := ⟨g, g, 0, 0, Ex.sub, 100, 7, 3, 0, false⟩
  have h : Ex.okAnd (branch c (fun _ => Ex.sub) p [low, high] cur) (fun r => decide (r.1.map SubProblem.id = [4, 8, 9, 5]) &&
      decide ((r.1.map fun s => s.cons 0 1) = [low.cons 0 1, .forbidden, .mandatory, high.cons 0 1])) = true := by
    decide +kernel
  obtain ⟨⟨o2, p2⟩, e, h⟩ := Ex.okAnd_elim h
  simp only [Bool.and_eq_true, decide_eq_true_eq] at h
  refine ⟨c, p, p2, cur, low, high, o2, by norm_num [c], rfl, ?_, rfl, e, h.1, h.2⟩
  exact (C34_bookkeeping_partial (Made.root (c := c) Ex.sub)).sym

/-- C36: a history with three insertions and a removal -/
example (c : Cfg) : OpenHistory c ((insertOpen c { Ex.sub with value := 3 } (insertOpen c { Ex.sub with value := 1 } [])).drop 1) := by
  have h : OpenHistory c (insertOpen c { Ex.sub with value := 3 } (insertOpen c { Ex.sub with value := 1 } [])) := .insert _ (.insert _ .empty)
  generalize insertOpen c { Ex.sub with value := 3 } (insertOpen c { Ex.sub with value := 1 } []) = l at h
  cases l with
  | nil => exact h
  | cons x l => exact h.pop

end Verif
