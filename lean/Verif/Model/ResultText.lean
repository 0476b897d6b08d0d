import Verif.Model.Main
import Verif.Model.Analyzer
import Mathlib.Algebra.Order.Floor.Ring
import Mathlib.Data.Rat.Floor

/-!
# Model of the text of a result file, and of the searches of the analyzer in it

A file is a list of characters. The solver writes the log lines and the report (`branch_and_bound.c`), the driver appends the cities and the time (`HybridSolver.py`), the analyzer
searches with regular expressions (`analyzer.py`). Python's `AttributeError` (`group` of a search without a match) is `null`, `IndexError` is `oob`, `ValueError` is `exit`.
-/
namespace Verif
set_option autoImplicit false

open Lean in
/-- a literal as the list of its characters -/
syntax "chars!" str : term

open Lean in
macro_rules
  | `(chars! $s) => do
    let cs : Array (TSyntax `term) := (s.getString.toList.map fun c => (⟨Syntax.mkCharLit c⟩ : TSyntax `term)).toArray
    `([$cs,*])

/-! ### `printf` -/

/-- the decimal digits of `n`; the first argument bounds their number -/
def digitsFrom : Nat → Nat → List Char
  | 0, _ => []
  | k + 1, n => if n < 10 then [n.digitChar] else digitsFrom k (n / 10) ++ [(n % 10).digitChar]

/-- `%u`, and `%i` of a number that is not negative: the decimal digits -/
def natText (n : Nat) : List Char := digitsFrom (n + 1) n

/-- `%i` -/
def intText : Int → List Char
  | .ofNat n => natText n
  | .negSucc n => '-' :: natText (n + 1)

/-- rounding to the nearest natural number, ties to the even one -/
def roundEven (y : ℚ) : Nat :=
  let f := ⌊y⌋.toNat
  if y - f < 1 / 2 then f else if 1 / 2 < y - f then f + 1 else if f % 2 = 0 then f else f + 1

/-- six decimal digits -/
def sixDigits (m : Nat) : List Char := [(m / 100000 % 10).digitChar, (m / 10000 % 10).digitChar, (m / 1000 % 10).digitChar, (m / 100 % 10).digitChar, (m / 10 % 10).digitChar, (m % 10).digitChar]

/-- `%f` and `%lf`: sign, integer part, point and six decimals. (A C library rounds the exact value, ties to even; a negative zero, infinities and NaN are not rational.) -/
def lfText (x : ℚ) : List Char :=
  let m := roundEven (|x| * 1000000)
  (if x < 0 then ['-'] else []) ++ natText (m / 1000000) ++ ['.'] ++ sixDigits (m % 1000000)

/-! ### The output of the solver -/

/-- the log line, branch_and_bound.c:730 -/
def updateLine (u : ℚ × ℚ) : List Char := chars! "Updated best value: " ++ lfText u.1 ++ chars! ", at time: " ++ lfText u.2 ++ ['\n']

/-- the message of `check_feasibility`, branch_and_bound.c:1004-1005 -/
def infeasibleText (node : Nat) : List Char := chars! "\nThe graph is not feasible for the BB algorithm. Node " ++ natText node ++ chars! " has less than 2 neighbors."

/-- the text of the kind of a subproblem, branch_and_bound.c:1075-1088 -/
def typeText : BBType → List Char
  | .opened => chars! "OPEN"
  | .closedUnfeasible => chars! "CLOSED_UNFEASIBLE"
  | .closedBound => chars! "CLOSED_BOUND"
  | .closedNN => chars! "CLOSED_NEAREST_NEIGHBOR"
  | .closedNNHybrid => chars! "CLOSED_NEAREST_NEIGHBOR_HYBRID"
  | _ => chars! "CLOSED_SUBGRADIENT"

/-- one leg of the cycle, branch_and_bound.c:1105-1126: two spaces (one before the first leg), and a comma except after the last (the first leg always has one) -/
def legText (k i : Nat) (l : Nat × Nat) : List Char :=
  (if i = 0 then chars! " " else chars! "  ") ++ natText l.1 ++ chars! " <-> " ++ natText l.2 ++ if i ≠ 0 ∧ i = k - 1 then [] else [',']

/-- the legs of the cycle, from number `i` on, of `k` -/
def legsText (k : Nat) : Nat → List (Nat × Nat) → List Char
  | _, [] => []
  | i, l :: r => legText k i l ++ legsText k (i + 1) r

/-- `print_subProblem`, branch_and_bound.c:1073-1136; `reach` is the text that `%lf` makes of `timeToReach`, which is not a field of the modelled structure -/
def subProblemText (reach : List Char) (sp : SubProblem) : List Char :=
  chars! "\nSUBPROBLEM with cost = " ++ lfText sp.value ++ (chars! ", type = " ++ typeText sp.type ++ chars! ", level of the BB tree = ") ++ natText sp.treeLevel ++
  chars! ", prob_tour = " ++ lfText sp.prob ++ chars! ", BBNode number = " ++ natText sp.id ++ chars! " and time to obtain = " ++ reach ++ chars! "s, edge to branch = " ++
  intText sp.edgeToBranch ++ chars! "\n\nCycle with " ++ natText sp.numCycle ++ chars! " edges:" ++ legsText sp.numCycle 0 (printCycle sp) ++
  chars! "\n" ++ natText sp.numMandatory ++ chars! " Mandatory edges:\n" ++ natText sp.numForbidden ++ chars! " Forbidden edges:\n"

/-- `print_problem`, branch_and_bound.c:1138-1154; `elapsed` is `(end - start) / CLOCKS_PER_SEC`, `ghosh` is `GHOSH_UB`; `PRIM` is 1 (problem_settings.h:45) -/
def problemText (c : Cfg) (ghosh elapsed : ℚ) (reach : List Char) (p : Problem) : List Char :=
  chars! "Optimal tour found with candidate node = " ++ natText p.cand ++ chars! ", elapsed time = " ++ lfText elapsed ++
  (chars! "s and interrupted = " ++ (if p.interrupted then chars! "TRUE" else chars! "FALSE") ++ chars! "\n\nMST solved with: Prim algorithm\n\nGHOSH_UB = ") ++ lfText ghosh ++
  chars! ", SUBPROBLEM_UB = " ++ lfText c.eps ++ chars! "\n\nB-&-B tree with generated BBNodes = " ++ natText p.generated ++ chars! ",  explored BBNodes = " ++ natText p.explored ++
  chars! " and max tree level = " ++ natText p.totLevels ++ chars! "\n\nNumber of fixed edges = " ++ natText p.fixed ++ chars! "\n" ++ subProblemText reach p.best

/-! ### What the driver appends -/

/-- `get_nodes`, HybridSolver.py:63-79; the texts of the coordinates are those of Python's `str` -/
def nodesText : Nat → List (List Char × List Char) → List Char
  | _, [] => []
  | i, q :: r => chars! "\t" ++ natText i ++ chars! " : " ++ q.1 ++ chars! " " ++ q.2 ++ chars! "\n" ++ nodesText (i + 1) r

/-- what is written after the solver has ended, HybridSolver.py:245-249; `wall` is `str(end_time - start_time)` -/
def driverText (cities : List (List Char × List Char)) (wall : List Char) : List Char :=
  chars! "\nNodes: \n" ++ nodesText 0 cities ++ chars! "\nTime taken: " ++ wall ++ chars! "s\n"

/-- the result file of a run that ended: the log lines, the report, the driver's lines -/
def resultText (c : Cfg) (ghosh elapsed : ℚ) (reach : List Char) (p : Problem) (updates : List (ℚ × ℚ)) (cities : List (List Char × List Char)) (wall : List Char) : List Char :=
  updates.flatMap updateLine ++ problemText c ghosh elapsed reach p ++ driverText cities wall

/-! ### The regular expressions of the analyzer -/

/-- the parts of the patterns: a literal text, `([0-9]+)`, `([0-9]+\.?[0-9]+)`, `(-?[0-9]+\.?[0-9]+)` -/
inductive Piece where
  | lit (s : List Char)
  | int
  | num
  | snum

/-- `[0-9]+` at the head of a text: all the ways to match, (matched, rest), in the order of a backtracking matcher, the longest first -/
def plusDigits : List Char → List (List Char × List Char)
  | [] => []
  | ch :: s => if ch.isDigit then ((plusDigits s).map fun m => (ch :: m.1, m.2)) ++ [([ch], s)] else []

/-- `\.?` -/
def optPoint : List Char → List (List Char × List Char)
  | '.' :: s => [(['.'], s), ([], '.' :: s)]
  | s => [([], s)]

/-- `-?` -/
def optMinus : List Char → List (List Char × List Char)
  | '-' :: s => [(['-'], s), ([], '-' :: s)]
  | s => [([], s)]

/-- one matcher after another, in the order of backtracking -/
def andThen (a b : List Char → List (List Char × List Char)) (s : List Char) : List (List Char × List Char) :=
  (a s).flatMap fun m => (b m.2).map fun m' => (m.1 ++ m'.1, m'.2)

/-- `[0-9]+\.?[0-9]+` -/
def numMatches : List Char → List (List Char × List Char) := andThen plusDigits (andThen optPoint plusDigits)

/-- a literal at the head of a text: what follows it -/
def afterLit : List Char → List Char → Option (List Char)
  | [], s => some s
  | _ :: _, [] => none
  | a :: l, b :: s => if a = b then afterLit l s else none

/-- the ways to match a pattern at the head of a text: (groups, rest) -/
def matchAt : List Piece → List Char → List (List (List Char) × List Char)
  | [], s => [([], s)]
  | .lit l :: ps, s => match afterLit l s with
    | some r => matchAt ps r
    | none => []
  | .int :: ps, s => (plusDigits s).flatMap fun m => (matchAt ps m.2).map fun r => (m.1 :: r.1, r.2)
  | .num :: ps, s => (numMatches s).flatMap fun m => (matchAt ps m.2).map fun r => (m.1 :: r.1, r.2)
  | .snum :: ps, s => (andThen optMinus numMatches s).flatMap fun m => (matchAt ps m.2).map fun r => (m.1 :: r.1, r.2)

/-- `re.search`: the first match at the first position that has one -/
def reSearch (ps : List Piece) : List Char → Option (List (List Char) × List Char)
  | [] => (matchAt ps []).head?
  | ch :: s => match (matchAt ps (ch :: s)).head? with
    | some r => some r
    | none => reSearch ps s

/-- `re.finditer`: each search goes on where the last match ended; the first argument bounds the number of matches (a match of the pattern used is not empty, so the length of the text suffices) -/
def reFindAll (ps : List Piece) : Nat → List Char → List (List (List Char))
  | 0, _ => []
  | k + 1, s => match reSearch ps s with
    | some r => r.1 :: reFindAll ps k r.2
    | none => []

/-- `re.search(…).group(1)` -/
def group1 (ps : List Piece) (s : List Char) : Res (List Char) := match reSearch ps s with
  | some (g :: _, _) => .ok g
  | _ => .error .null

/-- `re.search(…) is not None` -/
def found (l : List Char) (s : List Char) : Bool := (reSearch [.lit l] s).isSome

/-! ### The numbers -/

/-- the value of a text of digits -/
def digitsVal (s : List Char) : Nat := s.foldl (fun a ch => 10 * a + (ch.toNat - 48)) 0

/-- `float(…)` of a text matched by `-?[0-9]+\.?[0-9]+`, without rounding to a machine number -/
def pyFloat (s : List Char) : ℚ :=
  let u := if s.head? = some '-' then s.tail else s
  let v : ℚ := digitsVal (u.takeWhile (· ≠ '.')) + digitsVal ((u.dropWhile (· ≠ '.')).tail) / (10 : ℚ) ^ ((u.dropWhile (· ≠ '.')).tail).length
  if s.head? = some '-' then -v else v

/-! ### Reading one file -/

/-- the fields of a resolved file that `read_values` stores in dictionaries of their own, analyzer.py:213-218, 232-237 -/
structure FileRow where
  generated : Nat
  explored : Nat
  maxLevel : Nat
  bestLevel : Nat
  prob : ℚ
  number : Nat
deriving DecidableEq

/-- the cost of the solution, analyzer.py:202-208 (the first form is not written by this solver) -/
def readCost (text : List Char) : Res ℚ :=
  if found (chars! "Final cycle with ") text then (group1 [.lit (chars! "edges of "), .num, .lit (chars! " cost")] text).map pyFloat
  else (group1 [.lit (chars! "SUBPROBLEM with cost = "), .num, .lit (chars! ",")] text).map pyFloat

/-- the fields of a resolved file, analyzer.py:213-218 -/
def readRow (text : List Char) : Res FileRow := do
  let g ← group1 [.lit (chars! "generated BBNodes = "), .int] text
  let e ← group1 [.lit (chars! "explored BBNodes = "), .int] text
  let m ← group1 [.lit (chars! "max tree level = "), .int] text
  let l ← group1 [.lit (chars! "level of the BB tree = "), .int] text
  let pr ← group1 [.lit (chars! "prob_tour = "), .snum] text
  let b ← group1 [.lit (chars! "BBNode number = "), .int] text
  pure { generated := digitsVal g, explored := digitsVal e, maxLevel := digitsVal m, bestLevel := digitsVal l, prob := pyFloat pr, number := digitsVal b }

/-- the class of the solution, analyzer.py:220-227 -/
def readType (text : List Char) : SolType :=
  if found (chars! "type = CLOSED_NEAREST_NEIGHBOR_HYBRID") text then .nearestHybrid
  else if found (chars! "type = CLOSED_NEAREST_NEIGHBOR") text then .nearest
  else if found (chars! "type = CLOSED_1TREE") text then .oneTree
  else .other

/-- the pattern of the log lines, analyzer.py:248 -/
def updatePattern : List Piece := [.lit (chars! "Updated best value: "), .num, .lit (chars! ", at time: "), .num]

/-- the values and times of the log lines, analyzer.py:248-250 (the time overhead is added by `runLog`) -/
def readUpdates (text : List Char) : List (ℚ × ℚ) :=
  (reFindAll updatePattern text.length text).map fun g => match g with
    | [v, t] => (pyFloat v, pyFloat t)
    | _ => (0, 0)

/-- the body of the loop over the files for one text, analyzer.py:198-250: what `readValues` uses, and the row of a resolved file -/
def readText (inst : Nat) (text : List Char) : Res (ResultFile × Option FileRow) := do
  let wall ← group1 [.lit (chars! "Time taken: "), .num, .lit (chars! "s")] text
  let elapsed ← group1 [.lit (chars! "elapsed time = "), .num, .lit (chars! "s")] text
  let reach ← group1 [.lit (chars! "time to obtain = "), .num, .lit (chars! "s")] text
  let cost ← readCost text
  let f : ResultFile := { inst := inst, interrupted := !found (chars! "interrupted = FALSE") text, type := readType text, cost := cost, timeTaken := pyFloat wall, elapsed := pyFloat elapsed, timeToObtain := pyFloat reach, updates := readUpdates text }
  if f.interrupted then pure (f, none)
  else do
    let row ← readRow text
    pure (f, some row)

/-! ### Reading a directory -/

/-- `re.search(r"(.+?)\.txt", name).group(1)`, analyzer.py:195: the shortest text of one character or more before `.txt` (a match starts at the first character if there is one) -/
def stem : List Char → List Char → Res (List Char)
  | _, [] => .error .null
  | acc, ch :: s => match afterLit (chars! ".txt") s with
    | some _ => .ok (acc ++ [ch])
    | none => stem (acc ++ [ch]) s

/-- the text before the first occurrence of a separator, and the text after it -/
def cutAt (sep : List Char) : List Char → Option (List Char × List Char)
  | [] => none
  | ch :: s => match afterLit sep (ch :: s) with
    | some r => some ([], r)
    | none => (cutAt sep s).map fun p => (ch :: p.1, p.2)

/-- `int(filename.split('result_')[1])`, analyzer.py:196. (Python's `int` also accepts a sign, spaces and underscores; here they are a `ValueError`.) -/
def instId (file : List Char) : Res Nat := match cutAt (chars! "result_") file with
  | none => .error .oob
  | some (_, r) =>
    let t := match cutAt (chars! "result_") r with
      | none => r
      | some (a, _) => a
    if t ≠ [] ∧ t.all Char.isDigit then .ok (digitsVal t) else .error .exit

/-- `file.endswith('.txt') and not file.startswith('mean_results')`, analyzer.py:189 -/
def isResultName (name : List Char) : Bool := (chars! ".txt").isSuffixOf name && !(chars! "mean_results").isPrefixOf name

/-- the loop over the files of a directory, analyzer.py:188-250; a file is its name and its text -/
def readFiles : List (List Char × List Char) → Res (List (ResultFile × Option FileRow))
  | [] => .ok []
  | f :: r => if isResultName f.1 then do
      let name ← stem [] f.1
      let inst ← instId name
      let x ← readText inst f.2
      let l ← readFiles r
      pure (x :: l)
    else readFiles r

/-- `read_values`, analyzer.py:162-276: the statistics with the fractions, and the rows of the resolved instances -/
def readDirectory (dir : List (List Char × List Char)) : Res ((Stats × List ℚ) × List (Nat × FileRow)) := do
  let l ← readFiles dir
  let s ← readValues (l.map Prod.fst)
  pure (s, l.foldl (fun d x => match x.2 with | some row => setKey d x.1.inst row | none => d) [])

/-- the name of the result file of an instance, HybridSolver.py:199-200 -/
def resultName (inst : Nat) : List Char := chars! "tsp_result_" ++ natText inst ++ chars! ".txt"

end Verif
