import Verif.Model.ResultText
import Verif.Model.Converter

/-!
# Model of the tables, `analyzer.py`

`modify_string` and `create_tables` read the files `mean_results.txt` and fill in a LaTeX template. Texts are lists of characters. Python's `float`, `round(x, 2)` and `str` of a float are parameters; a float is a rational
number or `none` for `nan` (infinities are not modelled). `IndexError` is `oob`, `ValueError` is `null`, `FileNotFoundError` is `exit`.
-/
namespace Verif
set_option autoImplicit false

/-- Python's `float`, `round(x, 2)` and `str`; `float` gives nothing for a text that is not a number -/
structure PyNum where
  float : List Char → Option (Option ℚ)
  round2 : ℚ → ℚ
  str : Option ℚ → List Char

/-- `x < y` for floats -/
def pyLt : Option ℚ → Option ℚ → Bool
  | some x, some y => decide (x < y)
  | _, _ => false

/-- `str.replace` for a non-empty `needle`: the first argument counts the characters of an occurrence that have still to be skipped -/
def replaceFrom (needle rep : List Char) : Nat → List Char → List Char
  | _, [] => []
  | k + 1, _ :: s => replaceFrom needle rep k s
  | 0, ch :: s => if needle.isPrefixOf (ch :: s) then rep ++ replaceFrom needle rep (needle.length - 1) s else ch :: replaceFrom needle rep 0 s

/-- `s.replace(needle, rep)` -/
def pyReplace (needle rep s : List Char) : List Char := replaceFrom needle rep 0 s

/-- `line.split()[k]` -/
def lineField (line : List Char) (k : Nat) : Res (List Char) := match (pySplit line)[k]? with
  | some t => .ok t
  | none => .error .oob

/-- `float(line.split()[k])` -/
def lineFloat (P : PyNum) (line : List Char) (k : Nat) : Res (Option ℚ) := do
  let t ← lineField line k
  match P.float t with
  | some x => pure x
  | none => .error .null

/-- `round(x, 2)` -/
def PyNum.round (P : PyNum) (x : Option ℚ) : Option ℚ := x.map P.round2

/-- `name + "_" + str(j)` -/
def placeholder (name : List Char) (j : Nat) : List Char := name ++ ['_'] ++ natText j

/-- `"\stdf{" + str(x) + "}"` -/
def stdText (P : PyNum) (x : Option ℚ) : List Char := chars! "\\stdf{" ++ P.str x ++ ['}']

/-- `modify_string`, analyzer.py:385-416. In line 406 the text `"\textbf{"` begins with a TAB, because the backslash is not doubled. -/
def modifyString (P : PyNum) (tab line name : List Char) (j : Nat) : Res (List Char) := do
  let hm ← lineFloat P line 1
  let hs ← lineFloat P line 2
  let cm ← lineFloat P line 3
  let cs ← lineFloat P line 4
  let p ← lineFloat P line 5
  let hm := P.round hm
  let hs := P.round hs
  let cm := P.round cm
  let cs := P.round cs
  let p := P.round p
  let std := chars! "std_" ++ name
  if pyLt hm cm then
    let t := pyReplace (placeholder std j) (stdText P cs) tab
    let t := pyReplace (placeholder name j) (P.str cm) t
    let t := pyReplace (placeholder std (j + 1)) (stdText P hs) t
    if pyLt p (some (5 / 100)) then pure (pyReplace (placeholder name (j + 1)) (chars! "\\underline{\\textbf{" ++ P.str hm ++ chars! "}}") t)
    else pure (pyReplace (placeholder name (j + 1)) (chars! "\\textbf{" ++ P.str hm ++ chars! "}") t)
  else if pyLt cm hm then
    let t := pyReplace (placeholder std j) (stdText P cs) tab
    let t := if pyLt p (some (5 / 100)) then pyReplace (placeholder name j) (chars! "\\underline{\\textbf{" ++ P.str cm ++ chars! "}}") t
      else pyReplace (placeholder name j) (chars! "\textbf{" ++ P.str cm ++ chars! "}") t
    let t := pyReplace (placeholder std (j + 1)) (stdText P hs) t
    pure (pyReplace (placeholder name (j + 1)) (P.str hm) t)
  else
    let t := pyReplace (placeholder std j) (stdText P cs) tab
    let t := pyReplace (placeholder name j) (P.str cm) t
    let t := pyReplace (placeholder std (j + 1)) (stdText P hs) t
    pure (pyReplace (placeholder name (j + 1)) (P.str hm) t)

/-- `tab_template`, analyzer.py:421-441 (after Python's processing of the backslashes) -/
def tableTemplate : List Char :=
  chars! "\n" ++
  chars! "    \\begin{tabular}{lr@{}l r@{}lr@{}l r@{}l r@{}l r@{}l}\n" ++
  chars! "            \\toprule\n" ++
  chars! "            & \\multicolumn{4}{c}{$n=numn_1$} & \\multicolumn{4}{c}{$n=numn_2$} & \\multicolumn{4}{c}{$n=numn_3$}\\\\\n" ++
  chars! "            & \\multicolumn{2}{c}{BB} & \\multicolumn{2}{c}{GCBB} & \\multicolumn{2}{c}{BB} & \\multicolumn{2}{c}{GCBB} & \\multicolumn{2}{c}{BB} & \\multicolumn{2}{c}{GCBB} \\\\\n" ++
  chars! "            \\midrule\n" ++
  chars! "            Instances solved & perc_1 && perc_2 && perc_3 && perc_4 && perc_5 && perc_6 &\\\\\n" ++
  chars! "            $\\qquad$ with NN & perc_nn_1 && perc_nn_2 && perc_nn_3 && perc_nn_4 && perc_nn_5 && perc_nn_6 &\\\\\n" ++
  chars! "            $\\qquad$ with PNN & - && perc_pnn_1 && -&& perc_pnn_2 &&-&& perc_pnn_3 &\\\\\n" ++
  chars! "            Total time (s) & ttime_1 & std_ttime_1 & ttime_2 & std_ttime_2 & ttime_3 & std_ttime_3 & ttime_4 & std_ttime_4 & ttime_5 & std_ttime_5 & ttime_6 & std_ttime_6\\\\\n" ++
  chars! "            BB time (s) & bbtime_1 & std_bbtime_1 &  bbtime_2 & std_bbtime_2 & bbtime_3 & std_bbtime_3 & bbtime_4 & std_bbtime_4 & bbtime_5 & std_bbtime_5 & bbtime_6 & std_bbtime_6\\\\\n" ++
  chars! "            Time to Best (s) & timetb_1 &std_timetb_1 & timetb_2 & std_timetb_2 & timetb_3 & std_timetb_3 & timetb_4 & std_timetb_4 & timetb_5 & std_timetb_5 & timetb_6 & std_timetb_6\\\\\n" ++
  chars! "            BB tree depth  & tdep_1 &  std_tdep_1 &  tdep_2 &  std_tdep_2 & tdep_3 & std_tdep_3 &  tdep_4 &  std_tdep_4 & tdep_5 &  std_tdep_5 &  tdep_6 & std_tdep_6\\\\\n" ++
  chars! "            Depth of the best & bdep_1 & std_bdep_1 & bdep_2 & std_bdep_2 & bdep_3 & std_bdep_3 & bdep_4 & std_bdep_4 & bdep_5 & std_bdep_5 & bdep_6 & std_bdep_6\\\\\n" ++
  chars! "            Generated BB nodes  & gbbn_1 &  std_gbbn_1 & gbbn_2 & std_gbbn_2 &  gbbn_3 & std_gbbn_3 & gbbn_4 & std_gbbn_4 &  gbbn_5 & std_gbbn_5 &  gbbn_6 & std_gbbn_6\\\\\n" ++
  chars! "            Explored BB nodes & ebbn_1 & std_ebbn_1 & ebbn_2 & std_ebbn_2 & ebbn_3 & std_ebbn_3 & ebbn_4 & std_ebbn_4 & ebbn_5 & std_ebbn_5 & ebbn_6 & std_ebbn_6\\\\\n" ++
  chars! "            BB nodes before best & bbnbb_1 & std_bbnbb_1 & bbnbb_2 & std_bbnbb_2& bbnbb_3 & std_bbnbb_3 & bbnbb_4 & std_bbnbb_4 & bbnbb_5 & std_bbnbb_5 & bbnbb_6 & std_bbnbb_6\\\\\n" ++
  chars! "            $\\frac{O_{T^\\star}}{n}$ &-&& os_1 & std_os_1 &-&   & os_2 & std_os_2 &-&& os_3 & std_os_3\\\\\n" ++
  chars! "            \\bottomrule\n" ++
  chars! "        \\end{tabular}\n" ++
  chars! "    "

/-- `s.replace("%", "\%")` -/
def escapePercent (s : List Char) : List Char := pyReplace ['%'] ['\\', '%'] s

/-- the rows that are handled by `modify_string`, analyzer.py:481-503: the text that is looked for in the line, and the name of the placeholder -/
def metricRows : List (List Char × List Char) :=
  [(chars! "total_time", chars! "ttime"), (chars! "time_bb", chars! "bbtime"), (chars! "time_to_best", chars! "timetb"), (chars! "total_tree_level", chars! "tdep"), (chars! "best_level", chars! "bdep"),
    (chars! "generate_bbnodes", chars! "gbbn"), (chars! "explored_bbnodes", chars! "ebbn"), (chars! "bbnodes_before_best", chars! "bbnbb")]

/-- one line of the file, analyzer.py:464-509 -/
def tableLine (P : PyNum) (j : Nat) (table line : List Char) : Res (List Char) := do
  let id := 1 + (j - 1) * 2
  let table ← if pyIn (chars! "Resolved Instances") line then do
      let h ← lineField line 2
      let c ← lineField line 4
      pure (pyReplace (placeholder (chars! "perc") (id + 1)) (escapePercent h) (pyReplace (placeholder (chars! "perc") id) (escapePercent c) table))
    else pure table
  let table ← if pyIn (chars! "Closed NN") line then do
      let h ← lineField line 2
      let c ← lineField line 4
      pure (pyReplace (placeholder (chars! "perc_nn") (id + 1)) (escapePercent h) (pyReplace (placeholder (chars! "perc_nn") id) (escapePercent c) table))
    else pure table
  let table ← if pyIn (chars! "Closed NN Hybrid") line then do
      let h ← lineField line 3
      pure (pyReplace (placeholder (chars! "perc_pnn") j) (escapePercent h) table)
    else pure table
  let table ← forList (fun (t : List Char) (m : List Char × List Char) => if pyIn m.1 line then modifyString P t line m.2 id else pure t) metricRows table
  if pyIn (chars! "prob_best") line then do
    let x ← lineFloat P line 1
    let s ← lineFloat P line 2
    pure (pyReplace (placeholder (chars! "os") j) (P.str (P.round x)) (pyReplace (placeholder (chars! "std_os") j) (stdText P (P.round s)) table))
  else pure table

/-- one size, analyzer.py:455-511; `files` are the texts of the files `mean_results.txt` by size -/
def tableSize (P : PyNum) (files : Nat → Option (List Char)) (s : List Char × Nat) (i : Nat) : Res (List Char × Nat) :=
  match files i with
  | none => .error .exit
  | some text => do
    let table := pyReplace (placeholder (chars! "numn") s.2) (natText i) s.1
    let table ← forList (fun t line => tableLine P s.2 t line) (fileLines text) table
    pure (table, s.2 + 1)

/-- one table, analyzer.py:451-511 -/
def fillTable (P : PyNum) (files : Nat → Option (List Char)) (sizes : List Nat) : Res (List Char) := do
  let s ← forList (fun s i => tableSize P files s i) sizes (tableTemplate, 1)
  pure s.1

/-- `create_tables`, analyzer.py:419-522: the two tables that are written -/
def createTables (P : PyNum) (files : Nat → Option (List Char)) : Res (List Char × List Char) := do
  let exact ← fillTable P files [20, 50, 100]
  let heur ← fillTable P files [35, 75, 150]
  pure (exact, heur)

end Verif
