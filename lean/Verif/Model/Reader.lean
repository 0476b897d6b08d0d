import Verif.Model.Graph
import Mathlib.Data.List.SplitOn

/-!
# Model of the input files, `tsp_instance_reader.c`

A file is the list of its characters. The number parsers of the C library (`%lf` and `%f` of `sscanf`) are parameters: `num s` is the number that `s` starts with
(after white space) and the rest of `s`; numbers are exact rationals, so infinities and NaN are outside the model. The counters `i`, `j`, `z`, `node_num`, `num_nodes`, `num_edges` are
unsigned shorts and wrap at 65536. A file that cannot be opened or closed is not modelled. `kind` is never read and not modelled.
-/
namespace Verif
set_option autoImplicit false

variable [Rounding]

/-- `x++` for an unsigned short -/
def inc16 (x : Nat) : Nat := (x + 1) % 65536

/-- the lines that successive calls of `getline` return, each with its newline character if it has one -/
def fileLines : List Char → List (List Char)
  | [] => []
  | ch :: s =>
    if ch = '\n' then ['\n'] :: fileLines s
    else match fileLines s with
      | [] => [[ch]]
      | l :: ls => (ch :: l) :: ls

/-- the C string in a line buffer: it ends at the first NUL character -/
def cstr (l : List Char) : List Char := l.takeWhile (· ≠ '\x00')

/-- the strings that `strtok(line, ";")`, `strtok(NULL, ";")`, … return: the non-empty pieces between semicolons -/
def tokens (l : List Char) : List (List Char) := ((cstr l).splitOn ';').filter (· ≠ [])

/-- white space, as `isspace` in the C locale -/
def isSpace (ch : Char) : Bool := ch = ' ' ∨ ch = '\t' ∨ ch = '\n' ∨ ch = '\x0b' ∨ ch = '\x0c' ∨ ch = '\r'

/-- `sscanf(token, "(%lf, %lf)", &a, &b)`: the two numbers if the result is 2, tsp_instance_reader.c:104, 126 -/
def scanPair (num : List Char → Option (ℚ × List Char)) : List Char → Option (ℚ × ℚ)
  | '(' :: s1 =>
    match num s1 with
    | some (x, ',' :: s2) =>
      match num (s2.dropWhile isSpace) with
      | some (y, _) => some (x, y)
      | none => none
    | _ => none
  | _ => none

/-- the tokens a `while (token != NULL && strcmp(token, "\n") != 0)` loop handles, tsp_instance_reader.c:102, 122 -/
def loopTokens (l : List Char) : List (List Char) := (tokens l).takeWhile (· ≠ ['\n'])

/-- one round of the loop over the cities, tsp_instance_reader.c:103-115; the state is the graph and `node_num` -/
def csvCity (c : Cfg) (num : List Char → Option (ℚ × List Char)) (s : Graph × Nat) (tok : List Char) : Res (Graph × Nat) :=
  match scanPair num tok with
  | none => .error .exit
  | some (x, y) =>
    if s.2 ≥ c.maxV then .error .oob else
    .ok ({ s.1 with nodes := upd s.1.nodes s.2 { s.1.nodes s.2 with pos := s.2, x := x, y := y, nn := 0 } }, inc16 s.2)

/-- one round of the loop over a row of the matrix, tsp_instance_reader.c:123-156; the state is the graph, `z` and `j` -/
def csvCell (c : Cfg) (num : List Char → Option (ℚ × List Char)) (i : Nat) (s : Graph × Nat × Nat) (tok : List Char) : Res (Graph × Nat × Nat) :=
  let g := s.1
  let z := s.2.1
  let j := s.2.2
  if j ≠ i then
    match scanPair num tok with
    | none => .error .exit
    | some (w, pr) =>
      if w > 0 then
        if i ≥ c.maxV ∨ (g.nodes i).nn ≥ c.maxV - 1 then .error .oob else
        let g1 := { g with nodes := upd g.nodes i ((g.nodes i).push j) }
        if j > i then
          if z ≥ c.maxE ∨ j ≥ c.maxV then .error .oob else
          let e : Edge := { src := i, dest := j, prob := if c.hybrid then pr else 0, symbol := inc16 z, pos := z, weight := w }
          .ok ({ g1 with numEdges := inc16 g1.numEdges, edges := upd g1.edges z e, cost := fl (g1.cost + w)
                         nodes := upd g1.nodes j { g1.nodes j with pos := j }, mat := upd2 (upd2 g1.mat i j e) j i e }, inc16 z, inc16 j)
        else .ok (g1, z, inc16 j)
      else .ok (g, z, inc16 j)
  else .ok (g, z, inc16 j)

/-- one round of the loop over the lines after the first, tsp_instance_reader.c:120-159; the state is the graph, `z` and `i` -/
def csvLine (c : Cfg) (num : List Char → Option (ℚ × List Char)) (s : Graph × Nat × Nat) (line : List Char) : Res (Graph × Nat × Nat) := do
  let r ← forList (csvCell c num s.2.2) (loopTokens line) (s.1, s.2.1, 0)
  pure ({ r.1 with numNodes := inc16 r.1.numNodes }, r.2.1, inc16 s.2.2)

/-- `read_tsp_csv_file`, tsp_instance_reader.c:79-167; `g` is the memory of the graph before the call -/
def readCsv (c : Cfg) (num : List Char → Option (ℚ × List Char)) (g : Graph) (text : List Char) : Res Graph := do
  let g0 := { g with cost := 0, numEdges := 0, numNodes := 0, ordered := false }
  match fileLines text with
  | [] => pure g0
  | head :: rest =>
    let r ← forList (csvCity c num) (loopTokens head) (g0, 0)
    let s ← forList (csvLine c num) rest (r.1, 0, 0)
    pure s.1

/-! ### TSPLIB files -/

/-- `strstr(line, needle) != NULL` -/
def strstr (line needle : List Char) : Bool := (cstr line).tails.any needle.isPrefixOf

/-- the header loop, tsp_instance_reader.c:28-34: `check_euc_2d` and the lines that are left -/
def libHeader : List (List Char) → Bool → Bool × List (List Char)
  | [], b => (b, [])
  | l :: ls, b =>
    if strstr l "NODE_COORD_SECTION".toList then (b, ls)
    else libHeader ls (if strstr l "EDGE_WEIGHT_TYPE : EUC_2D".toList then b else true)

/-- the loop over the coordinates, tsp_instance_reader.c:47-68: a line with `EOF` ends it (one more line is read and dropped); `i` counts the cities; `scan` is
`sscanf(line, "%hu %f %f", …)`, with the two coordinates if the result is 3 -/
def libCities (c : Cfg) (scan : List Char → Option (ℚ × ℚ)) : List (List Char) → Nat → Res (List ListNode)
  | [], _ => .ok []
  | l :: ls, i =>
    if strstr l "EOF".toList then .ok []
    else match scan (cstr l) with
      | none => .error .exit
      | some (x, y) =>
        if i ≥ c.maxV then .error .oob
        else do
          let r ← libCities c scan ls (inc16 i)
          pure ({ pos := i, x := x, y := y } :: r)

/-- `read_tsp_lib_file`, tsp_instance_reader.c:18-76 -/
def readLib (c : Cfg) (scan : List Char → Option (ℚ × ℚ)) (dist : ListNode → ListNode → ℚ) (g : Graph) (text : List Char) : Res Graph := do
  let h := libHeader (fileLines text) false
  if h.1 then do
    let nodes ← libCities c scan h.2 0
    createEuclideanGraph c dist g nodes
  else .error .exit

end Verif
