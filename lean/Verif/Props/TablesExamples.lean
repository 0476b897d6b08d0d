import Verif.Props.TablesFails

/-!
# C97 meets a non-trivial case, and the p-value that is rounded
-/
namespace Verif
open Verif.Spec
set_option autoImplicit false

namespace Ex

/-- decimal numbers without exponents; `round` to the nearest, `str` with six decimals -/
def pyNum : PyNum where
  float t := if t.all fun ch => ch.isDigit || ch == '.' then some (some (pyFloat t)) else none
  round2 x := (roundEven (x * 100) : ℚ) / 100
  str x := match x with | none => chars! "nan" | some q => lfText q

/-- a row: the p-value is given (and is the hybrid mean of one row) -/
def columns (p : List Char) (r : Row) : Columns := match r with
  | .solved | .nn | .pnn => ⟨chars! "93.33%", ['0'], chars! "86.67%", ['0'], ['-']⟩
  | .prob => ⟨chars! "0.9123", chars! "0.01", chars! "0.0", chars! "0.0", chars! "NaN"⟩
  | .depth => ⟨p, chars! "0.125", chars! "0.25", chars! "0.125", chars! "0.5"⟩
  | _ => ⟨chars! "10.517", chars! "0.25", chars! "12.25", chars! "0.5", p⟩

/-- the p-values of the examples -/
def pVals : List (List Char) := [chars! "0.0123", chars! "0.0461", chars! "0.5"]

/-- a line -/
def columnsLine (r : Row) (c : Columns) : List Char :=
  r.text ++ (chars! "   " ++ (c.hyb ++ (chars! " " ++ (c.hybInt ++ (chars! "  " ++ (c.cla ++ (chars! " " ++ (c.claInt ++ (chars! " " ++ (c.p ++ ['\n']))))))))))

/-- the file -/
def meanText (p : List Char) : List Char :=
  chars! "                     Hybrid Mean Hybrid Int Classic Mean\n" ++ columnsLine .solved (columns p .solved) ++ columnsLine .nn (columns p .nn) ++ columnsLine .pnn (columns p .pnn) ++
  chars! "Closed 1Tree  0.0%  0  0.0%  0  -\n" ++ columnsLine .totalTime (columns p .totalTime) ++ columnsLine .bbTime (columns p .bbTime) ++ columnsLine .timeToBest (columns p .timeToBest) ++
  columnsLine .generated (columns p .generated) ++ columnsLine .explored (columns p .explored) ++ columnsLine .beforeBest (columns p .beforeBest) ++ columnsLine .depth (columns p .depth) ++
  columnsLine .bestDepth (columns p .bestDepth) ++ columnsLine .prob (columns p .prob) ++ chars! "\nNot resolved 1 instances for hybrid: [7]"

theorem row_mem (r : Row) : r ∈ Row.all := by cases r <;> simp [Row.all]

theorem columns_ok {p : List Char} (hp : p ∈ pVals) (r : Row) : IsColumn (columns p r).hyb ∧ IsColumn (columns p r).hybInt ∧ IsColumn (columns p r).cla ∧ IsColumn (columns p r).claInt ∧ IsColumn (columns p r).p := by
  have h : ∀ p ∈ pVals, ∀ r ∈ Row.all, ∀ t ∈ [(columns p r).hyb, (columns p r).hybInt, (columns p r).cla, (columns p r).claInt, (columns p r).p], (t ≠ [] ∧ t.all columnChar = true) ∨ t = chars! "NaN" := by decide +kernel
  have k : ∀ t ∈ [(columns p r).hyb, (columns p r).hybInt, (columns p r).cla, (columns p r).claInt, (columns p r).p], IsColumn t := fun t ht =>
    (h p hp r (row_mem r) t ht).imp_left fun h => ⟨h.1, fun ch hch => List.all_eq_true.1 h.2 ch hch⟩
  exact ⟨k _ (by simp), k _ (by simp), k _ (by simp), k _ (by simp), k _ (by simp)⟩

theorem row_line {p : List Char} (hp : p ∈ pVals) (r : Row) : RowLine r (columns p r) (columnsLine r (columns p r)) := by
  obtain ⟨h1, h2, h3, h4, h5⟩ := columns_ok hp r
  have g : ∀ t : List Char, (t ≠ [] ∧ ∀ ch ∈ t, ch = ' ') → IsGap t := fun t h => h
  exact ⟨chars! "   ", chars! " ", chars! "  ", chars! " ", chars! " ", g _ (by decide), g _ (by decide), g _ (by decide), g _ (by decide), g _ (by decide), h1, h2, h3, h4, h5, rfl⟩

theorem other_line {line : List Char} (h : (Row.all.all fun r => !pyIn r.text line) = true) : ∀ r : Row, ¬ r.text <:+: line := by
  intro r
  have := List.all_eq_true.1 h r (by cases r <;> simp [Row.all])
  rw [← pyIn_iff (by cases r <;> simp [Row.text])]
  simpa using this

/-- the lines of the file -/
def meanLines (p : List Char) : List (List Char) :=
  [chars! "                     Hybrid Mean Hybrid Int Classic Mean\n", columnsLine .solved (columns p .solved), columnsLine .nn (columns p .nn), columnsLine .pnn (columns p .pnn),
    chars! "Closed 1Tree  0.0%  0  0.0%  0  -\n", columnsLine .totalTime (columns p .totalTime), columnsLine .bbTime (columns p .bbTime), columnsLine .timeToBest (columns p .timeToBest),
    columnsLine .generated (columns p .generated), columnsLine .explored (columns p .explored), columnsLine .beforeBest (columns p .beforeBest), columnsLine .depth (columns p .depth),
    columnsLine .bestDepth (columns p .bestDepth), columnsLine .prob (columns p .prob), ['\n'], chars! "Not resolved 1 instances for hybrid: [7]"]

theorem mean_rows {p : List Char} (hp : p ∈ pVals) : Rows (columns p) Row.all (meanLines p) := by
  have r := row_line hp
  refine .other (other_line (by decide +kernel)) (.row (r _) (.row (r _) (.row (r _) (.other (other_line (by decide +kernel)) (.row (r _) (.row (r _) (.row (r _) (.row (r _) (.row (r _) (.row (r _) (.row (r _)
    (.row (r _) (.row (r _) (.other (other_line (by decide +kernel)) (.other (other_line (by decide +kernel)) .nil)))))))))))))))

set_option maxRecDepth 100000 in
theorem mean_file (p : List Char) (hp : p ∈ pVals) : MeanFile (columns p) (meanText p) := by
  have hl : ∀ p ∈ pVals, fileLines (meanText p) = meanLines p := by decide +kernel
  unfold MeanFile
  rw [hl p hp]
  exact mean_rows hp

theorem mean_numbers (p : List Char) (hp : p ∈ pVals) : Numbers pyNum (columns p) := by
  have k : ∀ t : List Char, (t.all fun ch => ch.isDigit || ch == '.') = true → ∃ x, pyNum.float t = some x := by
    intro t h
    exact ⟨some (pyFloat t), by simp only [pyNum, h, if_true]⟩
  have h1 : ∀ p ∈ pVals, ∀ r ∈ Row.all, r ≠ .solved → r ≠ .nn → r ≠ .pnn → ∀ t ∈ [(columns p r).hyb, (columns p r).hybInt], (t.all fun ch => ch.isDigit || ch == '.') = true := by decide +kernel
  have h2 : ∀ p ∈ pVals, ∀ r ∈ Row.all, r ≠ .solved → r ≠ .nn → r ≠ .pnn → r ≠ .prob → ∀ t ∈ [(columns p r).cla, (columns p r).claInt, (columns p r).p], (t.all fun ch => ch.isDigit || ch == '.') = true := by
    decide +kernel
  constructor
  · intro r a b c
    exact ⟨k _ (h1 p hp r (row_mem r) a b c _ (by simp)), k _ (h1 p hp r (row_mem r) a b c _ (by simp))⟩
  · intro r a b c d
    exact ⟨k _ (h2 p hp r (row_mem r) a b c d _ (by simp)), k _ (h2 p hp r (row_mem r) a b c d _ (by simp)), k _ (h2 p hp r (row_mem r) a b c d _ (by simp))⟩

theorem digits_plain (k n : Nat) : '_' ∉ digitsFrom k n := by
  induction k generalizing n with
  | zero => simp [digitsFrom]
  | succ k ih =>
    have hd : ∀ m, m < 10 → '_' ≠ m.digitChar := by decide
    unfold digitsFrom
    split
    · next h => simpa using hd n h
    · rw [List.mem_append, not_or]
      exact ⟨ih _, by simpa using hd (n % 10) (Nat.mod_lt _ (by norm_num))⟩

theorem pyNum_plain : ∀ x, '_' ∉ pyNum.str x := by
  have hd : ∀ m, m < 10 → '_' ≠ m.digitChar := by decide
  have hx : ∀ m, '_' ≠ (m % 10).digitChar := fun m => hd _ (Nat.mod_lt _ (by norm_num))
  intro x
  cases x with
  | none => show '_' ∉ chars! "nan"; decide
  | some q =>
    show '_' ∉ lfText q
    unfold lfText sixDigits
    simp only [List.mem_append, List.mem_cons, List.not_mem_nil, or_false, not_or]
    refine ⟨⟨⟨?_, natText_plain _⟩, by decide⟩, hx _, hx _, hx _, hx _, hx _, hx _⟩
    split <;> decide

theorem files (p : List Char) (hp : p ∈ pVals) (n : Nat) : Files pyNum (fun _ => some (meanText p)) (fun _ => columns p) n :=
  ⟨⟨_, rfl, mean_file p hp⟩, mean_numbers p hp⟩

/-- the columns of the example are those of a table without a mistake -/
theorem tame (r : Row) (hr : Compared r) : Tame pyNum (columns (chars! "0.0123") r) := by
  obtain ⟨h1, h2, h3, h4⟩ := hr
  cases r <;> first | contradiction | exact ⟨by decide +kernel, by decide +kernel⟩

end Ex

/-- C97 on the example -/
example : createTables Ex.pyNum (fun _ => some (Ex.meanText (chars! "0.0123"))) = .ok (tableOf Ex.pyNum (fun _ => Ex.columns (chars! "0.0123")) 20 50 100, tableOf Ex.pyNum (fun _ => Ex.columns (chars! "0.0123")) 35 75 150) :=
  C97_tables_partial Ex.pyNum_plain (fun n _ => Ex.files _ (by simp [Ex.pVals]) n) fun _ _ r h1 h2 h3 h4 => Ex.tame r ⟨h1, h2, h3, h4⟩

/-- two cells of the table of the example -/
example : (blockCells Ex.pyNum 2 50 (Ex.columns (chars! "0.0123"))).lookup (chars! "ttime_4") = some (chars! "\\underline{\\textbf{10.520000}}") ∧
    (blockCells Ex.pyNum 2 50 (Ex.columns (chars! "0.0123"))).lookup (chars! "perc_3") = some (chars! "86.67\\%") := by decide +kernel

/-- `C97_all_filled` on the example -/
example : ∃ t1 t2, createTables Ex.pyNum (fun _ => some (Ex.meanText (chars! "0.0461"))) = .ok (t1, t2) ∧ t1.count '_' = 1 ∧ t2.count '_' = 1 :=
  C97_all_filled Ex.pyNum_plain fun n _ => Ex.files _ (by simp [Ex.pVals]) n

/-- `C97_bold_fails` and `C97_no_tab` on the example -/
example : (∃ t1 t2, createTables Ex.pyNum (fun _ => some (Ex.meanText (chars! "0.5"))) = .ok (t1, t2) ∧ ('\t' ∈ t1 ∨ '\t' ∈ t2)) ∧ classicBetter Ex.pyNum (Ex.columns (chars! "0.5") .depth) = true :=
  ⟨C97_bold_fails Ex.pyNum_plain (col := fun _ => Ex.columns (chars! "0.5")) (fun n _ => Ex.files _ (by simp [Ex.pVals]) n) (n := 20) (by simp) (r := .depth) ⟨by simp, by simp, by simp, by simp⟩
    (by decide +kernel) (by decide +kernel), by decide +kernel⟩

set_option maxRecDepth 100000 in
/-- C97 fails: a p-value of 0.0461 is significant, but is rounded to 0.05 before it is compared; the better mean is not underlined -/
theorem C97_rounded_fails : ∃ (P : PyNum) (files : Nat → Option (List Char)) (col : Nat → Row → Columns), (∀ x, '_' ∉ P.str x) ∧ (∀ n, Files P files col n) ∧ (∀ n r, Compared r → classicBetter P (col n r) = false) ∧
    number P (col 20 .totalTime).p = some (461 / 10000) ∧ significant P (col 20 .totalTime) = true ∧ createTables P files ≠ .ok (tableOf P col 20 50 100, tableOf P col 35 75 150) := by
  refine ⟨Ex.pyNum, fun _ => some (Ex.meanText (chars! "0.0461")), fun _ => Ex.columns (chars! "0.0461"), Ex.pyNum_plain, Ex.files _ (by simp [Ex.pVals]), ?_, by decide +kernel, by decide +kernel, ?_⟩
  · intro n r hr
    have h : ∀ r ∈ Row.all, r ≠ .prob → classicBetter Ex.pyNum (Ex.columns (chars! "0.0461") r) = false := by decide +kernel
    exact h r (Ex.row_mem r) hr.2.2.2
  · rw [C97_exact Ex.pyNum_plain (col := fun _ => Ex.columns (chars! "0.0461")) fun n _ => Ex.files _ (by simp [Ex.pVals]) n]
    intro h
    have h := congrArg (fun t => t.length) (Prod.mk.inj (Except.ok.inj h)).1
    revert h
    have : (fillIn (blockOps Ex.pyNum 1 20 (Ex.columns (chars! "0.0461")) ++ blockOps Ex.pyNum 2 50 (Ex.columns (chars! "0.0461")) ++ blockOps Ex.pyNum 3 100 (Ex.columns (chars! "0.0461"))) tableTemplate).length ≠
      (tableOf Ex.pyNum (fun _ => Ex.columns (chars! "0.0461")) 20 50 100).length := by decide +kernel
    exact this

end Verif
