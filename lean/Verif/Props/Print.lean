import Verif.Spec.DirectedTour
import Verif.Model.Main
import Verif.Spec.StoredTree

/-!
# C53: the printed cycle
-/
namespace Verif
open Verif.Spec
set_option autoImplicit false


theorem steps_getElem {t : List Nat} {i : Nat} (hi : i < t.length) (h : i < (steps t).length) :
    (steps t)[i] = s(t[i], t[(i + 1) % t.length]'(Nat.mod_lt _ (by omega))) := by
  have := List.getElem_zipWith (f := fun a b : Nat => s(a, b)) (l := t) (l' := t.rotate 1) (i := i) (h := h)
  rw [List.getElem_rotate] at this
  exact this

theorem RecordsCycle_get {sp : SubProblem} {t : List Nat} (h : RecordsCycle sp t) {i : Nat} (hi : i < t.length) :
    s((sp.cycle i).1, (sp.cycle i).2) = s(t[i], t[(i + 1) % t.length]'(Nat.mod_lt _ (by omega))) := by
  obtain ⟨h1, h2⟩ := h
  have hl : i < (steps t).length := by rw [← h2]; simp [h1, hi]
  rw [← steps_getElem hi hl]
  have := List.getElem_of_eq h2 (i := i) (by simp [h1, hi])
  rw [← this]
  simp

theorem printLegs_ok {sp : SubProblem} {t : List Nat} (h : RecordsCycle sp t) (hd : t.Nodup) (h3 : 3 ≤ t.length) :
    ∀ (k i last : Nat), i + k = t.length → (i ≠ 0 → ∀ hi : i < t.length, last = t[i]) → printLegs sp k last i = (legs t).drop i := by
  have hlen : (legs t).length = t.length := by simp [legs]
  have hleg : ∀ (i last : Nat) (hi : i < t.length), (i ≠ 0 → last = t[i]) → printLeg sp last i = (t[i], t[(i + 1) % t.length]'(Nat.mod_lt _ (by omega))) := by
    intro i last hi hlast
    have e := RecordsCycle_get h hi
    have hne : t[i] ≠ t[(i + 1) % t.length]'(Nat.mod_lt _ (by omega)) := by
      intro e'
      have := (List.Nodup.getElem_inj_iff hd).1 e'
      rcases Nat.lt_or_ge (i + 1) t.length with h' | h'
      · rw [Nat.mod_eq_of_lt h'] at this; omega
      · rw [show i + 1 = t.length by omega, Nat.mod_self] at this; omega
    unfold printLeg
    rcases Nat.eq_zero_or_pos i with rfl | hpos
    · rw [if_pos rfl]
      have hl : sp.numCycle - 1 < t.length := by rw [h.1]; omega
      have e2 := RecordsCycle_get h hl
      have hz : (sp.numCycle - 1 + 1) % t.length = 0 := by rw [h.1, Nat.sub_add_cancel (by omega), Nat.mod_self]
      have hone : (0 + 1) % t.length = 1 := Nat.mod_eq_of_lt (by omega)
      simp only [hz] at e2
      simp only [hone] at e hne ⊢
      have n1 : t[1] ≠ t[0] := fun e' => by have := (List.Nodup.getElem_inj_iff hd).1 e'; omega
      have n2 : t[1] ≠ t[sp.numCycle - 1] := fun e' => by have := (List.Nodup.getElem_inj_iff hd).1 e'; rw [h.1] at this; omega
      rcases Sym2.eq_iff.1 e with ⟨a1, a2⟩ | ⟨a1, a2⟩
      · rw [a1, a2, if_pos]
        rcases Sym2.eq_iff.1 e2 with ⟨b1, b2⟩ | ⟨b1, b2⟩
        · left; rw [b2]
        · right; rw [b1]
      · rw [a1, a2, if_neg]
        rcases Sym2.eq_iff.1 e2 with ⟨b1, b2⟩ | ⟨b1, b2⟩
        · rw [b1, b2]; rintro (h' | h'); exact n1 h'; exact n2 h'
        · rw [b1, b2]; rintro (h' | h'); exact n2 h'; exact n1 h'
    · rw [if_neg (by omega), hlast (by omega)]
      rcases Sym2.eq_iff.1 e with ⟨a1, a2⟩ | ⟨a1, a2⟩
      · rw [a1, a2, if_pos rfl]
      · rw [a1, a2, if_neg (Ne.symm hne)]
  intro k
  induction k with
  | zero => intro i last hi _; rw [printLegs, List.drop_eq_nil_of_le (by omega)]
  | succ k ih =>
    intro i last hi hlast
    have hit : i < t.length := by omega
    have e := hleg i last hit (fun h0 => hlast h0 hit)
    rw [printLegs, e, List.drop_eq_getElem_cons (by omega)]
    congr 1
    · unfold legs
      rw [List.getElem_zip, List.getElem_rotate]
    · refine ih (i + 1) _ (by omega) ?_
      intro _ hi1
      simp only [Nat.mod_eq_of_lt hi1]

/-- C53. Whatever the orientation of the stored edges, for a recorded cycle through at least three different cities `t`, `print_subProblem` prints the legs of the closed walk `t`, in order. -/
theorem C53_print {sp : SubProblem} {t : List Nat} (h : RecordsCycle sp t) (hd : t.Nodup) (h3 : 3 ≤ t.length) : printCycle sp = legs t := by
  unfold printCycle
  rw [h.1, printLegs_ok h hd h3 t.length 0 0 (by omega) (fun h0 => absurd rfl h0), List.drop_zero]

/-- C53, in other words: as many legs as edges; every leg is the edge at its place in the record; every leg starts where the previous one ended, and the last one ends where the first one started. -/
theorem C53_closed_walk {sp : SubProblem} {t : List Nat} (h : RecordsCycle sp t) (hd : t.Nodup) (h3 : 3 ≤ t.length) :
    ∃ hl : (printCycle sp).length = sp.numCycle, (∀ i (hi : i < sp.numCycle), s(((printCycle sp)[i]'(hl ▸ hi)).1, ((printCycle sp)[i]'(hl ▸ hi)).2) = s((sp.cycle i).1, (sp.cycle i).2)) ∧
      (∀ i (hi : i + 1 < sp.numCycle), ((printCycle sp)[i]'(by omega)).2 = ((printCycle sp)[i + 1]'(hl ▸ hi)).1) ∧
      ∀ h0 : 0 < sp.numCycle, ((printCycle sp)[sp.numCycle - 1]'(by omega)).2 = ((printCycle sp)[0]'(by omega)).1 := by
  have e := C53_print h hd h3
  have hl : (printCycle sp).length = sp.numCycle := by rw [e, h.1]; simp [legs]
  have hg : ∀ i (hi : i < (printCycle sp).length) (hi' : i < t.length), (printCycle sp)[i] = (t[i], t[(i + 1) % t.length]'(Nat.mod_lt _ (by omega))) := by
    intro i hi hi'
    simp only [e]
    unfold legs
    rw [List.getElem_zip, List.getElem_rotate]
  have h1 := h.1
  refine ⟨hl, ?_, ?_, ?_⟩
  · intro i hi
    rw [hg i (by omega) (by omega), RecordsCycle_get h (by omega)]
  · intro i hi
    rw [hg i (by omega) (by omega), hg (i + 1) (by omega) (by omega)]
    simp only [Nat.mod_eq_of_lt (show i + 1 < t.length by omega)]
  · intro h0
    rw [hg _ (by omega) (by omega), hg 0 (by omega) (by omega)]
    simp only [show sp.numCycle - 1 + 1 = t.length by omega, Nat.mod_self]

/-- C53: a cycle through three cities with mixed orientations -/
example (sp : SubProblem) : ∃ sp' : SubProblem, RecordsCycle sp' [2, 0, 1] ∧ [2, 0, 1].Nodup ∧ 3 ≤ [2, 0, 1].length ∧ sp'.cycle 0 = (0, 2) ∧ printCycle sp' = [(2, 0), (0, 1), (1, 2)] := by
  refine ⟨{ sp with numCycle := 3, cycle := fun i => if i = 0 then (0, 2) else if i = 1 then (0, 1) else (2, 1) }, ⟨rfl, ?_⟩, by decide, by decide, rfl, ?_⟩
  · show (List.range 3).map (fun i => s((if i = 0 then (0, 2) else if i = 1 then (0, 1) else (2, 1) : Nat × Nat).1, (if i = 0 then (0, 2) else if i = 1 then (0, 1) else (2, 1) : Nat × Nat).2)) = _
    decide
  · rfl

end Verif
