import Verif.Props.Means
import Verif.Props.ResultExamples

/-!
# C98 meets a non-trivial case
-/
namespace Verif
open Verif.Spec
set_option autoImplicit false

namespace Ex

/-- the hybrid runs: the instances 7 and 12 solved, 9 interrupted -/
def hybReps : List Report := [rep 12 .closed1Tree false, rep 9 .closedNN true, rep 7 .closedNNHybrid false]
/-- the classic runs: 7, 12 and 9 solved, 5 interrupted -/
def claReps : List Report := [rep 7 .closedNN false, rep 9 .closed1Tree false, { rep 12 .closedNN false with elapsed := 7 / 4 }, rep 5 .closedNN true]

def hybDirectory (c : Cfg) : List (List Char × List Char) :=
  [(resultName 12, (rep 12 .closed1Tree false).text c), (chars! "plot.png", []), (resultName 9, (rep 9 .closedNN true).text c), (resultName 7, (rep 7 .closedNNHybrid false).text c)]

def claDirectory (c : Cfg) : List (List Char × List Char) :=
  [(resultName 7, (rep 7 .closedNN false).text c), (resultName 9, (rep 9 .closed1Tree false).text c), (resultName 12, Report.text c { rep 12 .closedNN false with elapsed := 7 / 4 }), (resultName 5, (rep 5 .closedNN true).text c)]

theorem both_modes (c c' : Cfg) : BothModes c c' hybReps claReps (hybDirectory c) (claDirectory c') := by
  refine ⟨.run (r := rep 12 .closed1Tree false) (.other (Or.inl (by decide +kernel)) (.run (r := rep 9 .closedNN true) (.run (r := rep 7 .closedNNHybrid false) .nil))),
    .run (r := rep 7 .closedNN false) (.run (r := rep 9 .closed1Tree false) (.run (r := { rep 12 .closedNN false with elapsed := 7 / 4 }) (.run (r := rep 5 .closedNN true) .nil))), ?_, ?_, by decide, by decide,
    ⟨rep 7 .closedNNHybrid false, by simp [hybReps], rfl⟩, ⟨rep 7 .closedNN false, by simp [claReps], rfl⟩⟩
  · intro r hr
    simp only [hybReps, List.mem_cons, List.not_mem_nil, or_false] at hr
    rcases hr with rfl | rfl | rfl <;> exact rep_plain _ _ _
  · intro r hr
    simp only [claReps, List.mem_cons, List.not_mem_nil, or_false] at hr
    rcases hr with rfl | rfl | rfl | rfl
    · exact rep_plain _ _ _
    · exact rep_plain _ _ _
    · exact { rep_plain 12 .closedNN false with elapsed := by show (0 : ℚ) ≤ 7 / 4; norm_num }
    · exact rep_plain _ _ _

/-- the instances that are solved in both modes -/
theorem both_order : SetOrder [12, 7] hybReps claReps ∧ SetOrder [7, 12] hybReps claReps := by
  have key : ∀ k, ((∃ r ∈ hybReps, r.inst = k ∧ r.problem.interrupted = false) ∧ ∃ r ∈ claReps, r.inst = k ∧ r.problem.interrupted = false) ↔ k = 12 ∨ k = 7 := by
    intro k
    simp only [hybReps, claReps, List.mem_cons, List.not_mem_nil, or_false, exists_eq_or_imp, exists_eq_left, rep, repProblem, Bool.true_eq_false, and_false, false_or, and_true]
    omega
  exact ⟨⟨by decide, fun k => by rw [key]; simp⟩, ⟨by decide, fun k => by rw [key]; simp [or_comm]⟩⟩

/-- a test that does not depend on the order of the pairs: the sum of the differences -/
def sumTest (vh vc : List ℚ) : Res (Option ℚ) := .ok (some (vh.sum - vc.sum))

theorem sumTest_pairs : PairTest sumTest := by
  intro l l' h
  unfold sumTest
  rw [(h.map Prod.fst).sum_eq, (h.map Prod.snd).sum_eq]

end Ex

/-- C98 on the example: ten rows -/
example (c c' : Cfg) : ∃ rows, meanRows Ex.sumTest (fun _ => [12, 7]) (Ex.hybDirectory c) (Ex.claDirectory c') = .ok rows ∧ rows.length = 10 ∧
    meanRows Ex.sumTest (fun _ => [7, 12]) (Ex.hybDirectory c) (Ex.claDirectory c') = .ok rows := by
  obtain ⟨rows, e⟩ := C98_succeeds (Ex.both_modes c c') (fun _ => Ex.both_order.1) (test := Ex.sumTest) fun _ _ _ => ⟨_, rfl⟩
  refine ⟨rows, e, ?_, ?_⟩
  · have := (C98_same (Ex.both_modes c c') (fun _ => Ex.both_order.1) e).length_eq
    simpa using this.symm
  · rw [← e]
    exact C98_order (Ex.both_modes c c') (Ex.both_modes c c') (List.Perm.refl _) (List.Perm.refl _) Ex.sumTest_pairs (fun _ => Ex.both_order.2) fun _ => Ex.both_order.1

/-- the pairs of the example -/
example : SameInstances Ex.hybReps Ex.claReps (pairsOf [12, 7] Ex.hybReps Ex.claReps (Ex.rep 0 .closedNN false)) ∧ (pairsOf [12, 7] Ex.hybReps Ex.claReps (Ex.rep 0 .closedNN false)).length = 2 :=
  ⟨pairs_same Ex.both_order.1 (by decide) (by decide) _, rfl⟩

end Verif
