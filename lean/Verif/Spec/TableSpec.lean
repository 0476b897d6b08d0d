import Verif.Model.Tables

/-!
# What a table should show

A template is a text with placeholders; `fillIn` replaces every placeholder by its value. A placeholder is a whole word (a longest run of small letters, digits and `_`).
-/
namespace Verif
namespace Spec
set_option autoImplicit false

/-- small letters, digits and `_` -/
def wordChar (ch : Char) : Bool := ch.isLower || ch.isDigit || ch == '_'

/-- the text cut into longest runs of word characters and longest runs of other characters -/
def runs (s : List Char) : List (List Char) := s.splitBy fun a b => wordChar a == wordChar b

/-- the text `s` with every run that has a value in the list replaced by its (first) value -/
def fillIn (vals : List (List Char × List Char)) (s : List Char) : List Char := (runs s).flatMap fun w => (vals.lookup w).getD w

/-- the rows of `mean_results.txt` that are shown in a table -/
inductive Row where
  | solved | nn | pnn | totalTime | bbTime | timeToBest | generated | explored | beforeBest | depth | bestDepth | prob
  deriving DecidableEq

/-- the label of a row, analyzer.py:323-331 and the keys of `all_stats`, 265-274 -/
def Row.text : Row → List Char
  | .solved => chars! "Resolved Instances" | .nn => chars! "Closed NN" | .pnn => chars! "Closed NN Hybrid" | .totalTime => chars! "total_time" | .bbTime => chars! "time_bb"
  | .timeToBest => chars! "time_to_best" | .generated => chars! "generate_bbnodes" | .explored => chars! "explored_bbnodes" | .beforeBest => chars! "bbnodes_before_best"
  | .depth => chars! "total_tree_level" | .bestDepth => chars! "best_level" | .prob => chars! "prob_best"

/-- the name of the placeholders for a row -/
def Row.name : Row → List Char
  | .solved => chars! "perc" | .nn => chars! "perc_nn" | .pnn => chars! "perc_pnn" | .totalTime => chars! "ttime" | .bbTime => chars! "bbtime" | .timeToBest => chars! "timetb"
  | .generated => chars! "gbbn" | .explored => chars! "ebbn" | .beforeBest => chars! "bbnbb" | .depth => chars! "tdep" | .bestDepth => chars! "bdep" | .prob => chars! "os"

/-- the rows in the order of the file -/
def Row.all : List Row := [.solved, .nn, .pnn, .totalTime, .bbTime, .timeToBest, .generated, .explored, .beforeBest, .depth, .bestDepth, .prob]

/-- the five columns of a row: mean and interval of the hybrid solver, mean and interval of the classic one, p-value -/
structure Columns where
  hyb : List Char
  hybInt : List Char
  cla : List Char
  claInt : List Char
  p : List Char

/-- the characters of numbers, percentages, `nan`, `inf` and `-` -/
def columnChar (ch : Char) : Bool := ch ∈ chars! "0123456789.%+-einaf"

/-- a non-empty text of such characters, or `NaN` (a missing number in a table that pandas prints) -/
def IsColumn (t : List Char) : Prop := (t ≠ [] ∧ ∀ ch ∈ t, columnChar ch = true) ∨ t = chars! "NaN"

/-- at least one blank -/
def IsGap (g : List Char) : Prop := g ≠ [] ∧ ∀ ch ∈ g, ch = ' '

/-- the line of a row: its label and its columns, with blanks before the columns -/
def RowLine (r : Row) (c : Columns) (line : List Char) : Prop :=
  ∃ g1 g2 g3 g4 g5, IsGap g1 ∧ IsGap g2 ∧ IsGap g3 ∧ IsGap g4 ∧ IsGap g5 ∧ IsColumn c.hyb ∧ IsColumn c.hybInt ∧ IsColumn c.cla ∧ IsColumn c.claInt ∧ IsColumn c.p ∧
    line = r.text ++ (g1 ++ (c.hyb ++ (g2 ++ (c.hybInt ++ (g3 ++ (c.cla ++ (g4 ++ (c.claInt ++ (g5 ++ (c.p ++ ['\n']))))))))))

/-- the lines have these rows, in this order; the other lines contain none of the labels -/
inductive Rows (col : Row → Columns) : List Row → List (List Char) → Prop where
  | nil : Rows col [] []
  | other {rs : List Row} {line : List Char} {lines : List (List Char)} (hq : ∀ r : Row, ¬ r.text <:+: line) (h : Rows col rs lines) : Rows col rs (line :: lines)
  | row {r : Row} {rs : List Row} {line : List Char} {lines : List (List Char)} (hr : RowLine r (col r) line) (h : Rows col rs lines) : Rows col (r :: rs) (line :: lines)

/-- the text of a file `mean_results.txt` with the columns `col` -/
def MeanFile (col : Row → Columns) (text : List Char) : Prop := Rows col Row.all (fileLines text)

/-- the columns that are read as numbers are numbers -/
structure Numbers (P : PyNum) (col : Row → Columns) : Prop where
  means : ∀ r, r ≠ .solved → r ≠ .nn → r ≠ .pnn → (∃ x, P.float (col r).hyb = some x) ∧ ∃ x, P.float (col r).hybInt = some x
  classic : ∀ r, r ≠ .solved → r ≠ .nn → r ≠ .pnn → r ≠ .prob → (∃ x, P.float (col r).cla = some x) ∧ (∃ x, P.float (col r).claInt = some x) ∧ ∃ x, P.float (col r).p = some x

/-- a number of the file -/
def number (P : PyNum) (t : List Char) : Option ℚ := (P.float t).getD none

/-- a number of the file, with two decimals -/
def number2 (P : PyNum) (t : List Char) : Option ℚ := (number P t).map P.round2

/-- `%` is written `\%` in LaTeX -/
def percent (t : List Char) : List Char := t.flatMap fun ch => if ch = '%' then ['\\', '%'] else [ch]

/-- the better of two means is printed in bold, and underlined too if the difference is significant -/
def emphasis (better significant : Bool) (t : List Char) : List Char :=
  if better then (if significant then chars! "\\underline{\\textbf{" ++ t ++ chars! "}}" else chars! "\\textbf{" ++ t ++ chars! "}") else t

/-- the mean of the classic solver, with two decimals, is the smaller one -/
def classicBetter (P : PyNum) (c : Columns) : Bool := pyLt (number2 P c.cla) (number2 P c.hyb)
/-- the mean of the hybrid solver, with two decimals, is the smaller one -/
def hybridBetter (P : PyNum) (c : Columns) : Bool := pyLt (number2 P c.hyb) (number2 P c.cla)
/-- the p-value is below 5 % -/
def significant (P : PyNum) (c : Columns) : Bool := pyLt (number P c.p) (some (5 / 100))

/-- the cells of the row `r` in the block number `j` of a table: the classic solver ("BB") has the placeholders with the numbers 1, 3, 5, the hybrid one ("GCBB") those with 2, 4, 6; the rows about
the probabilities have only one placeholder per block -/
def rowCells (P : PyNum) (j : Nat) (c : Columns) (r : Row) : List (List Char × List Char) := match r with
  | .solved | .nn => [(placeholder r.name (2 * j - 1), percent c.cla), (placeholder r.name (2 * j), percent c.hyb)]
  | .pnn => [(placeholder r.name j, percent c.hyb)]
  | .prob => [(placeholder (chars! "std_" ++ r.name) j, stdText P (number2 P c.hybInt)), (placeholder r.name j, P.str (number2 P c.hyb))]
  | _ => [(placeholder (chars! "std_" ++ r.name) (2 * j - 1), stdText P (number2 P c.claInt)), (placeholder r.name (2 * j - 1), emphasis (classicBetter P c) (significant P c) (P.str (number2 P c.cla))),
      (placeholder (chars! "std_" ++ r.name) (2 * j), stdText P (number2 P c.hybInt)), (placeholder r.name (2 * j), emphasis (hybridBetter P c) (significant P c) (P.str (number2 P c.hyb)))]

/-- all cells of the block number `j`, about the instances of `n` cities -/
def blockCells (P : PyNum) (j n : Nat) (col : Row → Columns) : List (List Char × List Char) :=
  (placeholder (chars! "numn") j, natText n) :: Row.all.flatMap fun r => rowCells P j (col r) r

/-- a table for three sizes -/
def tableOf (P : PyNum) (col : Nat → Row → Columns) (n1 n2 n3 : Nat) : List Char :=
  fillIn (blockCells P 1 n1 (col n1) ++ blockCells P 2 n2 (col n2) ++ blockCells P 3 n3 (col n3)) tableTemplate

end Spec
end Verif
