import Verif.Props.MeanText
import Verif.Props.MeansExamples
import Verif.Props.TablesExamples

/-!
# C102 meets a non-trivial case
-/
namespace Verif
open Verif.Spec
set_option autoImplicit false

namespace Ex

/-- numbers with six decimals, `NaN` -/
noncomputable def display : Display where
  pct x := lfText (100 * x) ++ ['%']
  num _ _ _ x := match x with
    | none => chars! "NaN"
    | some y => lfText ((round (y * 1000000) : ℚ) / 1000000)
  width _ _ := 12
  curve _ _ := chars! "1.5"
  curveWidth _ := 10

/-- `float` reads them -/
def readNum : PyNum := { pyNum with float := fun t => if t = chars! "NaN" then some none else some (some (pyFloat t)) }

theorem digits_column (k n : Nat) : ∀ ch ∈ digitsFrom k n, columnChar ch = true := by
  have hd : ∀ m, m < 10 → columnChar m.digitChar = true := by decide
  induction k generalizing n with
  | zero => intro ch h; cases h
  | succ k ih =>
    intro ch h
    unfold digitsFrom at h
    split at h
    · next hn => 
      rw [List.mem_singleton] at h
      rw [h]; exact hd n hn
    · rw [List.mem_append, List.mem_singleton] at h
      rcases h with h | h
      · exact ih _ ch h
      · rw [h]; exact hd _ (Nat.mod_lt _ (by norm_num))

theorem lf_column (x : ℚ) : ∀ ch ∈ lfText x, columnChar ch = true := by
  have hd : ∀ m, m < 10 → columnChar m.digitChar = true := by decide
  have hx : ∀ m, columnChar (m % 10).digitChar = true := fun m => hd _ (Nat.mod_lt _ (by norm_num))
  intro ch h
  unfold lfText sixDigits at h
  simp only [List.mem_append, List.mem_cons, List.not_mem_nil, or_false] at h
  rcases h with ((h | h) | h) | h | h | h | h | h | h
  · split at h
    · rw [List.mem_singleton] at h; rw [h]; decide
    · cases h
  · exact digits_column _ _ ch h
  · rw [h]; decide
  all_goals rw [h]; exact hx _

theorem lf_nonempty (x : ℚ) : lfText x ≠ [] := by
  unfold lfText
  simp

theorem readable : Readable display readNum := by
  refine ⟨fun x => .inl ⟨by simp [display], ?_⟩, ?_, fun i j => .inl ⟨by simp [display], (by decide : ∀ ch ∈ chars! "1.5", columnChar ch = true)⟩⟩
  · intro ch h
    rcases List.mem_append.1 h with h | h
    · exact lf_column _ ch h
    · rw [List.mem_singleton.1 h]; decide
  · rintro x t ⟨f, i, j, rfl⟩
    refine ⟨?_, ?_⟩
    · cases x with
      | none => exact .inr rfl
      | some y => exact .inl ⟨lf_nonempty _, lf_column _⟩
    · simp only [readNum]
      split
      · exact ⟨_, rfl⟩
      · exact ⟨_, rfl⟩


end Ex

/-- C102 on the example: the six files are written, and so are the tables -/
example (c c' : Cfg) : ∃ (text : List Char) (col : Nat → Row → Columns), (∀ n ∈ tableSizes, FileColumns Ex.display Ex.sumTest Ex.hybReps Ex.claReps (col n)) ∧
    analyzeText Ex.display Ex.sumTest (fun _ => [12, 7]) (Ex.hybDirectory c) (Ex.claDirectory c') = .ok text ∧ createTables Ex.readNum (fun _ => some text) =
      .ok (fillIn (blockOps Ex.readNum 1 20 (col 20) ++ blockOps Ex.readNum 2 50 (col 50) ++ blockOps Ex.readNum 3 100 (col 100)) tableTemplate,
        fillIn (blockOps Ex.readNum 1 35 (col 35) ++ blockOps Ex.readNum 2 75 (col 75) ++ blockOps Ex.readNum 3 150 (col 150)) tableTemplate) := by
  obtain ⟨text, e⟩ := C102_succeeds Ex.display (Ex.both_modes c c') (fun _ => Ex.both_order.1) (test := Ex.sumTest) fun _ _ _ => ⟨_, rfl⟩
  obtain ⟨col, h1, h2, -⟩ := C102_tables_partial Ex.readable (P := Ex.readNum) Ex.pyNum_plain (c := fun _ => c) (c' := fun _ => c') (hyb := fun _ => Ex.hybReps) (cla := fun _ => Ex.claReps)
    (dirH := fun _ => Ex.hybDirectory c) (dirC := fun _ => Ex.claDirectory c') (fun _ _ => Ex.both_modes c c') (order := fun _ _ => [12, 7]) (test := Ex.sumTest) (fun _ _ _ => Ex.both_order.1) (files := fun _ => some text)
    fun _ _ => ⟨text, e, rfl⟩
  refine ⟨text, col, h1, e, ?_⟩
  with_reducible exact h2

/-- the percentages of the example: two of the three hybrid runs and three of the four classic ones were not interrupted -/
example : solvedRuns Ex.hybReps = 2 ∧ Ex.hybReps.length = 3 ∧ solvedRuns Ex.claReps = 3 ∧ Ex.claReps.length = 4 ∧ solvedAs Ex.hybReps .closedNNHybrid = 1 ∧ solvedAs Ex.claReps .closedNN = 2 := by decide

end Verif
