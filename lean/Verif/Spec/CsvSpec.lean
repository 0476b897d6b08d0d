import Verif.Model.Reader

/-!
# What a matrix file says, and what the Python driver writes
-/
namespace Verif.Spec
open Verif
set_option autoImplicit false

/-- the text is a file with `xs.length` cities at `xs` and a square matrix of as many rows with entry (`w i j`, `pr i j`) in row `i` and column `j`: every line splits into
cells at the semicolons, and the cells have the form `(a, b)`. (The entries on the diagonal are not looked at.) -/
structure CsvFile (num : List Char → Option (ℚ × List Char)) (text : List Char) (xs : List (ℚ × ℚ)) (w pr : Nat → Nat → ℚ) : Prop where
  lines : ∃ head rest, fileLines text = head :: rest ∧ (loopTokens head).map (scanPair num) = xs.map some ∧ rest.length = xs.length ∧
    ∀ i (hi : i < rest.length), (loopTokens rest[i]).length = xs.length ∧ ∀ j (hj : j < (loopTokens rest[i]).length), j ≠ i → scanPair num (loopTokens rest[i])[j] = some (w i j, pr i j)

/-- the pairs `i < j` with positive weight, row by row -/
def csvPairs (w : Nat → Nat → ℚ) (n : Nat) : List (Nat × Nat) :=
  (List.range n).flatMap fun i => ((List.range n).filter fun j => i < j ∧ 0 < w i j).map fun j => (i, j)

/-- the edge number `k` of the graph, joining the pair `q` -/
def csvEdge (c : Cfg) (w pr : Nat → Nat → ℚ) (q : Nat × Nat) (k : Nat) : Edge :=
  { src := q.1, dest := q.2, symbol := k + 1, weight := w q.1 q.2, prob := if c.hybrid then pr q.1 q.2 else 0, pos := k }

/-- the graph of a matrix, built in a memory that held `mem` -/
structure IsCsvGraph [Rounding] (c : Cfg) (mem : Graph) (xs : List (ℚ × ℚ)) (w pr : Nat → Nat → ℚ) (g : Graph) : Prop where
  nodes : g.numNodes = xs.length
  cities : ∀ i (hi : i < xs.length), (g.nodes i).pos = i ∧ (g.nodes i).x = xs[i].1 ∧ (g.nodes i).y = xs[i].2
  edges : g.numEdges = (csvPairs w xs.length).length
  edge : ∀ k (hk : k < (csvPairs w xs.length).length), g.edges k = csvEdge c w pr (csvPairs w xs.length)[k] k
  matrix : ∀ k (hk : k < (csvPairs w xs.length).length) u v, (csvPairs w xs.length)[k] = (u, v) → g.mat u v = g.edges k ∧ g.mat v u = g.edges k
  other : ∀ u v, (u, v) ∉ csvPairs w xs.length → (v, u) ∉ csvPairs w xs.length → g.mat u v = mem.mat u v
  nbrs : ∀ i < xs.length, (g.nodes i).list = (List.range xs.length).filter fun j => j ≠ i ∧ 0 < w i j
  cost : g.cost = flSum ((csvPairs w xs.length).map fun q => w q.1 q.2)
  ordered : g.ordered = false

/-- `(a, b)`, with the texts `a`, `b` of two numbers -/
def cellText (a b : List Char) : List Char := ['('] ++ a ++ [',', ' '] ++ b ++ [')']

/-- the text of a CSV file, HybridSolver.py:217-223 and main.py:183-194: the cities joined by semicolons, then the rows, each cell followed by a semicolon, each row by a newline -/
def csvText (cities : List (List Char)) (rows : List (List (List Char))) : List Char :=
  [';'].intercalate cities ++ ['\n'] ++ rows.flatMap fun r => (r.flatMap fun cell => cell ++ [';']) ++ ['\n']

/-- the file that the driver writes in classic mode, HybridSolver.py:215-223, for the cities `xs` and the adjacency matrix `a`; `fmt` is Python's text of a float -/
def classicText (fmt : ℚ → List Char) (xs : List (ℚ × ℚ)) (a : Nat → Nat → ℚ) : List Char :=
  csvText (xs.map fun p => cellText (fmt p.1) (fmt p.2)) ((List.range xs.length).map fun k => (List.range xs.length).map fun j => cellText (fmt (a k j)) ['0'])

/-- the file that `write_adjacency_matrix` writes in hybrid mode for an instance of the size of the model, main.py:183-194; `s k j` is the pair of texts of the distance and the probability -/
def hybridText (fmt : ℚ → List Char) (xs : List (ℚ × ℚ)) (s : Nat → Nat → List Char × List Char) : List Char :=
  csvText (xs.map fun p => cellText (fmt p.1) (fmt p.2)) ((List.range xs.length).map fun k => (List.range xs.length).map fun j => cellText (s k j).1 (s k j).2)

/-- `adjacency_matrix`, HybridSolver.py:22-38; `dist` is `np.linalg.norm` of the difference, left uninterpreted -/
def adjacencyMatrix (dist : ℚ × ℚ → ℚ × ℚ → ℚ) (xs : List (ℚ × ℚ)) (i j : Nat) : ℚ :=
  if i < j then dist (xs.getD i (0, 0)) (xs.getD j (0, 0)) else if j < i then dist (xs.getD j (0, 0)) (xs.getD i (0, 0)) else 0

/-- the text `t` is read back as the number `x`: it is a number text (no separators or control characters, and it does not start with white space), and the C library reads it as `x` when it is
followed by a comma or a closing parenthesis -/
structure ReadsAs (num : List Char → Option (ℚ × List Char)) (t : List Char) (x : ℚ) : Prop where
  comma : ∀ rest, num (t ++ ',' :: rest) = some (x, ',' :: rest)
  paren : ∀ rest, num (t ++ ')' :: rest) = some (x, ')' :: rest)
  clean : ∀ ch ∈ t, ch ≠ ';' ∧ ch ≠ '\n' ∧ ch ≠ '\x00'
  start : ∃ ch s, t = ch :: s ∧ isSpace ch = false

end Verif.Spec
