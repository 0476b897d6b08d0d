import Verif.Model.Means

/-!
# Model of the file `mean_results.txt` that `analyze` writes, `analyzer.py`

The frame (rows with a label and five cells) and its layout as lines of text. How pandas prints a number may depend on the whole frame, so the text of a number and the widths of the columns are parameters
(`Display`). The numbers of the curves at the end of the file are not modelled (their texts are a parameter). The file is complete: its text is what has been written when the program ends.
-/
namespace Verif
set_option autoImplicit false

/-- a cell of the frame: a text, or a number (`none` is `nan`) -/
inductive Cell where
  | text (t : List Char)
  | num (x : Option ℝ)

abbrev Frame := List (List Char × List Cell)

/-- how numbers are printed: percentages, `str(round(100 * x, 2)) + "%"` (analyzer.py:257-261); the text of the number `x` in the row `i` and the column `j` of a frame; the width of the labels (column 0) and of the columns (1, 2, …);
the texts of the curves -/
structure Display where
  pct : ℚ → List Char
  num : Frame → Nat → Nat → Option ℝ → List Char
  width : Frame → Nat → Nat
  curve : Nat → Nat → List Char
  curveWidth : Nat → Nat

/-- the names of the metrics: the keys of `all_stats`, analyzer.py:263-272 -/
def Metric.key : Metric → List Char
  | .totalTime => chars! "total_time"
  | .timeBb => chars! "time_bb"
  | .timeToBest => chars! "time_to_best"
  | .generated => chars! "generate_bbnodes"
  | .explored => chars! "explored_bbnodes"
  | .beforeBest => chars! "bbnodes_before_best"
  | .treeLevel => chars! "total_tree_level"
  | .bestLevel => chars! "best_level"
  | .prob => chars! "prob_best"
  | .bestValue => chars! "best_value"

/-- the labels of the rows of percentages, analyzer.py:321-330 -/
def percentLabels : List (List Char) := [chars! "Resolved Instances", chars! "Closed NN", chars! "Closed NN Hybrid", chars! "Closed 1Tree", chars! "Closed Subgradient"]

/-- the cells of a row of percentages, analyzer.py:320-329 -/
def percentCells (D : Display) (h c : ℚ) : List Cell := [.text (D.pct h), .num (some 0), .text (D.pct c), .num (some 0), .text ['-']]

/-- the cells of a row of means, analyzer.py:344-345 -/
def meanCells (r : TestRow) : List Cell := [.num (r.hybMean.map fun x : ℚ => (x : ℝ)), .num r.hybInt, .num (r.claMean.map fun x : ℚ => (x : ℝ)), .num r.claInt, .num (r.p.map fun x : ℚ => (x : ℝ))]

/-- the frame, analyzer.py:317-346; the percentages are in the order of `readValues` -/
def meanFrame (D : Display) (fh fc : List ℚ) (rows : List (Metric × TestRow)) : Frame :=
  List.zipWith (fun l q => (l, percentCells D q.1 q.2)) percentLabels (fh.zip fc) ++ rows.map fun r => (r.1.key, meanCells r.2)

/-- a text with blanks before it, to the width `w` -/
def rjust (w : Nat) (t : List Char) : List Char := List.replicate (w - t.length) ' ' ++ t

/-- a line of a printed frame: the label with blanks after it, then the texts of the cells, each after a blank, with blanks before them; `k` is the number of the next column -/
def cellsText (width : Nat → Nat) : Nat → List (List Char) → List Char
  | _, [] => []
  | k, t :: ts => ' ' :: rjust (width k) t ++ cellsText width (k + 1) ts

def frameLine (width : Nat → Nat) (label : List Char) (cells : List (List Char)) : List Char :=
  label ++ List.replicate (width 0 - label.length) ' ' ++ cellsText width 1 cells

/-- the text of a cell -/
def cellString (D : Display) (f : Frame) (i j : Nat) : Cell → List Char
  | .text t => t
  | .num x => D.num f i j x

/-- the names of the columns, analyzer.py:317 -/
def headers : List (List Char) := [chars! "Hybrid Mean", chars! "Hybrid Int", chars! "Classic Mean", chars! "Classic Int", chars! "P-val for Wilcoxon signed-rank test"]

/-- `df.to_string()`, analyzer.py:373 -/
def frameLines (D : Display) (f : Frame) : List (List Char) :=
  frameLine (D.width f) [] headers :: f.mapIdx fun i r => frameLine (D.width f) r.1 (r.2.mapIdx fun j c => cellString D f i j c)

/-- `curve_pts.to_string()`, analyzer.py:348-370, 379 -/
def curveLines (D : Display) : List (List Char) :=
  [frameLine D.curveWidth [] [chars! "H_mean_generated", chars! "H_mean_+_std", chars! "H_mean_-_std", chars! "C_mean_generated", chars! "C_mean_+_std", chars! "C_mean_-_std"],
    frameLine D.curveWidth (chars! "Log values") ((List.range 6).map (D.curve 0)), frameLine D.curveWidth (chars! "Original values") ((List.range 6).map (D.curve 1))]

/-- the text of a list of numbers -/
def listText (l : List Nat) : List Char := '[' :: [',', ' '].intercalate (l.map natText) ++ [']']

/-- `"Not resolved …"`, analyzer.py:375, 377; `not_resolved` is sorted, analyzer.py:274 -/
def notResolvedText (mode : List Char) (l : List Nat) : List Char :=
  chars! "Not resolved " ++ natText l.length ++ chars! " instances for " ++ mode ++ chars! ": " ++ listText (l.insertionSort (· ≤ ·))

/-- the text of the file, analyzer.py:372-379: lines with newlines between them -/
def meanFileText (D : Display) (f : Frame) (nh nc : List Nat) : List Char :=
  ['\n'].intercalate (frameLines D f ++ ([[], notResolvedText (chars! "hybrid") nh, [], notResolvedText (chars! "classic") nc, []] ++ curveLines D))

/-- `analyze`, analyzer.py:301-379: the text of the file. (`meanRows` reads the directories again, which changes nothing.) -/
noncomputable def analyzeText (D : Display) (test : List ℚ → List ℚ → Res (Option ℚ)) (order : Metric → List Nat) (dirH dirC : List (List Char × List Char)) : Res (List Char) := do
  let lh ← readFiles dirH
  let h ← readValues (lh.map Prod.fst)
  let lc ← readFiles dirC
  let c ← readValues (lc.map Prod.fst)
  let rows ← meanRows test order dirH dirC
  pure (meanFileText D (meanFrame D h.2 c.2 rows) h.1.notResolved c.1.notResolved)

end Verif
