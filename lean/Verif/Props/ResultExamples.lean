import Verif.Props.ResultFails
import Verif.Props.MainExamples

/-!
# C82, C83 meet a non-trivial case
-/
namespace Verif
open Verif.Spec
set_option autoImplicit false

namespace Ex

/-- the best solution of the example: the tour 0, 1, 2, 3 -/
def repSub (t : BBType) : SubProblem :=
  { Ex.sub with type := t, id := 7, value := 5889294001 / 1000000000, treeLevel := 3, prob := -1 / 4, numCycle := 4, cycle := fun i => (i, (i + 1) % 4), numForbidden := 2, numMandatory := 1, edgeToBranch := -1 }

/-- the problem at the end of the run -/
def repProblem (t : BBType) (b : Bool) : Problem :=
  { Ex.prob Ex.mem with cand := 2, totLevels := 12, best := repSub t, bestValue := 5889294001 / 1000000000, generated := 105, explored := 34, fixed := 0, interrupted := b }

/-- a run with two improvements -/
def rep (i : Nat) (t : BBType) (b : Bool) : Spec.Report :=
  { inst := i, problem := repProblem t b, ghosh := 254 / 100, elapsed := 3 / 4, reach := 1 / 3, updates := [(61 / 10, 1 / 5), (5889294001 / 1000000000, 197784 / 1000000)],
    cities := [(chars! "0.5", chars! "1e-05"), (chars! "0.25", chars! "0.75")], wallText := chars! "12.75", wall := 51 / 4 }

theorem rep_plain (i : Nat) (t : BBType) (b : Bool) : (rep i t b).Plain := by
  refine ⟨?_, ?_, ?_, ?_, ?_, ?_⟩
  · show (0 : ℚ) ≤ 5889294001 / 1000000000; norm_num
  · show (0 : ℚ) ≤ 3 / 4; norm_num
  · show (0 : ℚ) ≤ 1 / 3; norm_num
  · show ∀ u ∈ [((61 / 10 : ℚ), (1 / 5 : ℚ)), (5889294001 / 1000000000, 197784 / 1000000)], 0 ≤ u.1 ∧ 0 ≤ u.2
    decide +kernel
  · show ∀ q ∈ [(chars! "0.5", chars! "1e-05"), (chars! "0.25", chars! "0.75")], FloatChars q.1 ∧ FloatChars q.2
    unfold FloatChars
    decide +kernel
  · refine ⟨chars! "12", chars! "75", by rfl, by simp, by simp, by decide +kernel, ?_⟩
    show (51 / 4 : ℚ) * 10 ^ 2 = (Nat.ofDigits 10 ((chars! "12" ++ chars! "75").reverse.map fun ch => ch.toNat - '0'.toNat) : Nat)
    decide +kernel

set_option maxRecDepth 100000 in
/-- the text of the modelled file -/
theorem rep_text : (rep 7 .closedNN false).text ⟨4, false, 254 / 100000, 0, 0, 0⟩ = chars! "Updated best value: 6.100000, at time: 0.200000
Updated best value: 5.889294, at time: 0.197784
Optimal tour found with candidate node = 2, elapsed time = 0.750000s and interrupted = FALSE

MST solved with: Prim algorithm

GHOSH_UB = 2.540000, SUBPROBLEM_UB = 0.002540

B-&-B tree with generated BBNodes = 105,  explored BBNodes = 34 and max tree level = 12

Number of fixed edges = 0

SUBPROBLEM with cost = 5.889294, type = CLOSED_NEAREST_NEIGHBOR, level of the BB tree = 3, prob_tour = -0.250000, BBNode number = 7 and time to obtain = 0.333333s, edge to branch = -1

Cycle with 4 edges: 0 <-> 1,  1 <-> 2,  2 <-> 3,  3 <-> 0
1 Mandatory edges:
2 Forbidden edges:

Nodes: 
\t0 : 0.5 1e-05
\t1 : 0.25 0.75

Time taken: 12.75s
" := by decide +kernel

/-- a directory with an interrupted and an uninterrupted run and the analyzer's own output -/
def repDir (c : Cfg) : List (List Char × List Char) :=
  [(chars! "mean_results.txt", []), (resultName 12, (rep 12 .closed1Tree false).text c), (chars! "plot.png", []), (resultName 7, (rep 7 .closedNNHybrid true).text c)]

theorem repDir_ok (c : Cfg) : Spec.Directory c [rep 12 .closed1Tree false, rep 7 .closedNNHybrid true] (repDir c) := by
  refine .other (Or.inr (by decide +kernel)) (.run (r := rep 12 .closed1Tree false) (.other (Or.inl (by decide +kernel)) (.run (r := rep 7 .closedNNHybrid true) .nil)))

end Ex

/-- C82 on the example -/
example (c : Cfg) : ∃ x, readText 7 ((Ex.rep 7 .closedNN false).text c) = .ok x ∧ (Ex.rep 7 .closedNN false).ReadAs x := C82_read_back (Ex.rep_plain 7 .closedNN false)

example (c : Cfg) : ∃ s fr rows, readDirectory (Ex.repDir c) = .ok ((s, fr), rows) ∧ fr.head? = some (((1 : Nat) : ℚ) / ((2 : Nat) : ℚ)) ∧ s.notResolved = [7] ∧ s.resolved = 1 :=
  C82_directory (Ex.repDir_ok c) (by intro r hr; simp only [List.mem_cons, List.not_mem_nil, or_false] at hr; rcases hr with rfl | rfl <;> exact Ex.rep_plain _ _ _)
    (r := Ex.rep 12 .closed1Tree false) (by simp) rfl

/-- C83 on the example: the only resolved instance was solved by a 1-tree; the statistics say that none was -/
theorem C83_fails_example (c : Cfg) : ∃ s fr rows, readDirectory (Ex.repDir c) = .ok ((s, fr), rows) ∧ s.oneTree = 0 ∧
    [Ex.rep 12 .closed1Tree false, Ex.rep 7 .closedNNHybrid true].countP (fun r => !r.problem.interrupted && decide (Spec.trueClass r.problem.best.type = .oneTree)) = 1 := by
  have hp : ∀ r ∈ [Ex.rep 12 .closed1Tree false, Ex.rep 7 .closedNNHybrid true], r.Plain := by
    intro r hr; simp only [List.mem_cons, List.not_mem_nil, or_false] at hr; rcases hr with rfl | rfl <;> exact Ex.rep_plain _ _ _
  obtain ⟨s, fr, rows, e, -⟩ := C82_directory (Ex.repDir_ok c) hp (r := Ex.rep 12 .closed1Tree false) (by simp) rfl
  exact ⟨s, fr, rows, e, C83_fails (Ex.repDir_ok c) hp e, rfl⟩

/-- C82_fails_crash on an example: the log is cut off in the middle of a line -/
example (before after : List (List Char × List Char)) : ∃ e, readDirectory (before ++ (resultName 3, chars! "Updated be" ++ driverText [(chars! "0.5", chars! "0.5")] (chars! "1.5")) :: after) = .error e := by
  refine C82_fails_crash (updates := [(1, 1)]) ?_ ?_ ?_ before after
  · exact ⟨(updateLine (1, 1)).drop 10, by decide +kernel⟩
  · unfold Spec.FloatChars; decide +kernel
  · unfold Spec.FloatChars; decide +kernel

/-- C82_fails_time on an example -/
example (c : Cfg) (before after : List (List Char × List Char)) :
    ∃ e, readDirectory (before ++ (resultName 7, Spec.Report.text c { Ex.rep 7 .closedNNHybrid false with reach := -1 / 2 }) :: after) = .error e := by
  refine C82_fails_time (r := { Ex.rep 7 .closedNNHybrid false with reach := -1 / 2 }) ?_ (by norm_num) before after
  exact { Ex.rep_plain 7 .closedNNHybrid false with reach := le_refl _ }

/-- C82_fails_infeasible on an example: three cities of which two are at the same place -/
def Ex.twoSame : List Char := "(0,0);(3,0);(3,0)\n(0,0);(3,0);(3,0);\n(3,0);(0,0);(0,0);\n(3,0);(0,0);(0,0);\n".toList

example : ∃ g, readCsv ⟨3, false, 0, 0, 0, 0⟩ Ex.num Ex.mem Ex.twoSame = .ok g ∧ checkFeasibility g = false := by
  have h : (match readCsv ⟨3, false, 0, 0, 0, 0⟩ Ex.num Ex.mem Ex.twoSame with | .ok g => !checkFeasibility g | .error _ => false) = true := by decide +kernel
  revert h
  cases readCsv ⟨3, false, 0, 0, 0, 0⟩ Ex.num Ex.mem Ex.twoSame with
  | error e => intro h; cases h
  | ok g => intro h; exact ⟨g, rfl, by simpa using h⟩

end Verif
