import Verif.Model.Reader
import Verif.Spec.CsvSpec

/-!
# Model of the Python driver, `HybridSolver.py` and `graph-convnet-tsp/main.py`

Texts are lists of characters; Python's `float`, `int` and number formatting are parameters. The neural network and the clustering are parameters too: the model starts from the array of probabilities
and from the list of medoids. A Python exception is a fault: `oob` stands for `IndexError`, `exit` for `raise Exception(…)` and `null` for `ValueError`.
-/
namespace Verif
open Verif.Spec
set_option autoImplicit false

/-- `l[k]` for a Python list: negative indices count from the end -/
def pyIndex {α : Type} (l : List α) (k : Int) : Res α :=
  match (if 0 ≤ k then l[k.toNat]? else if 0 ≤ k + l.length then l[(k + l.length).toNat]? else none) with
  | some a => .ok a
  | none => .error .oob

/-- the choice of the line in `get_instance`, HybridSolver.py:94-101; `lines` are the lines of the file -/
def instanceLine (lines : List (List Char)) (inst : Int) : Res (List Char) :=
  if (lines.length : Int) < inst - 1 then .error .exit else pyIndex lines (inst - 1)

/-- `range(a, b)` -/
def pyRange (a b : Int) : List Int := (List.range (b - a).toNat).map fun k : Nat => a + (k : Int)

/-- the instances that `hybrid_solver` handles, HybridSolver.py:176-187; `int` is Python's `int` -/
def instanceRange (int : List Char → Option Int) (s : List Char) : Res (List Int) :=
  if '-' ∈ s then
    match (s.splitOn '-').map int with
    | some a :: some b :: _ => .ok (pyRange (if a = 0 then 1 else a) (b + 1))
    | _ => .error .null
  else match int s with
    | some b => .ok (pyRange 1 (b + 1))
    | none => .error .null

/-- `model_size` in hybrid mode, HybridSolver.py:160-168 -/
def modelSize (n : Nat) : Res Nat :=
  if n ≤ 1 then .error .exit else if n ≤ 20 then .ok 20 else if n ≤ 50 then .ok 50 else .ok 100

/-- the text before the first occurrence of `needle`: `s.split(needle)[0]` -/
def before (needle : List Char) : List Char → List Char
  | [] => []
  | ch :: s => if needle.isPrefixOf (ch :: s) then [] else ch :: before needle s

/-- `needle in s` (for a non-empty `needle`) -/
def pyIn (needle : List Char) : List Char → Bool
  | [] => false
  | ch :: s => needle.isPrefixOf (ch :: s) || pyIn needle s

/-- `s.strip()` -/
def strip (s : List Char) : List Char := ((s.dropWhile isSpace).reverse.dropWhile isSpace).reverse

/-- `[float(x) for x in …]` -/
def floats (float : List Char → Option ℚ) : List (List Char) → Res (List ℚ)
  | [] => .ok []
  | x :: xs => match float x with
    | none => .error .null
    | some a => do let r ← floats float xs; pure (a :: r)

/-- `[[graph[i], graph[i + 1]] for i in range(0, len(graph), 2)]` -/
def pairUp : List ℚ → Res (List (ℚ × ℚ))
  | [] => .ok []
  | [_] => .error .oob
  | a :: b :: r => do let t ← pairUp r; pure ((a, b) :: t)

/-- the cities of a line, `get_instance`, HybridSolver.py:104-110 and main.py:333-339 -/
def lineCities (float : List Char → Option ℚ) (line : List Char) : Res (List (ℚ × ℚ)) := do
  let s := if pyIn "output".toList line then before " output".toList line else line
  let f ← floats float ((strip (s.filter (· ≠ '\n'))).splitOn ' ')
  pairUp f

/-! ### Padding with dummy cities -/

/-- the cities that the dummies are copied from, main.py:222-237: `rr_index` for the dummies number 0, 1, …; the copy is moved by less than 1e-14 in both coordinates, which is not modelled -/
def dummySources (n : Nat) : Nat → Nat → List Nat
  | 0, _ => []
  | k + 1, rr => rr :: dummySources n k ((rr + 1) % n)

variable {T : Type}

/-- one round of the loop over the dummy columns, main.py:150-153. The state is `arr_combined` (row by row) and `final_arr`, whose entries are views of entries of `arr_combined`: their numbers.
`gt` is the comparison `>` of two texts. -/
def foldCell (gt : T → T → Bool) (n ms i : Nat) (s : (Nat → T × T) × List Nat) (j : Nat) : Res ((Nat → T × T) × List Nat) :=
  if i ≠ j - n then
    match s.2[i * n + j - n]? with
    | none => .error .oob
    | some k => if gt (s.1 (i * ms + j)).2 (s.1 k).2 then .ok (upd s.1 k ((s.1 k).1, (s.1 (i * ms + j)).2), s.2) else .ok s
  else .ok s

/-- one row, main.py:146-153 -/
def foldRow (gt : T → T → Bool) (n ms : Nat) (s : (Nat → T × T) × List Nat) (i : Nat) : Res ((Nat → T × T) × List Nat) :=
  forList (foldCell gt n ms i) (List.range' n (ms - n)) (s.1, s.2 ++ (List.range n).map fun j => i * ms + j)

/-- the entries for an instance smaller than the model, main.py:144-155 -/
def foldDummies (gt : T → T → Bool) (n ms : Nat) (arr : Nat → T × T) : Res (List (T × T)) := do
  let s ← forList (foldRow gt n ms) (List.range n) (arr, [])
  pure (s.2.map s.1)

/-! ### Instances larger than the model -/

/-- one round of the loop over the cities, main.py:162-177; the state is `arr_combined` (rows of entries) and `nodes_coord`; `cell` is the entry with a distance and the probability 0.0, `zero` is `[0.0, 0.0]`.
(`label` is not used. The assignments to `arr_combined[i]` exist because there are as many rows as cities.) -/
def growStep {P E : Type} [DecidableEq P] (cell : P → P → E) (zero : E) (s : List (List E) × List P) (node : P) : List (List E) × List P :=
  if node ∈ s.2 then s
  else ((List.zipWith (fun row q => row ++ [cell node q]) s.1 s.2) ++ [(s.2.map fun q => cell node q) ++ [zero]], s.2 ++ [node])

/-- the matrix and the cities for an instance larger than the model, main.py:158-177; `medoids` are the cities of the clustered instance, `m` is the matrix of the network for them, and `graph` are the cities of the instance -/
def growMatrix {P E : Type} [DecidableEq P] (cell : P → P → E) (zero : E) (m : List (List E)) (medoids graph : List P) : List (List E) × List P :=
  graph.foldl (growStep cell zero) (m, medoids)

/-- the cities that the network is run on, main.py:358-362: padded with dummies, or the medoids, or the instance itself -/
def networkCities {P : Type} (n ms : Nat) (graph dummies medoids : List P) : List P :=
  if n < ms then graph ++ dummies else if ms < n then medoids else graph

/-- the cities in the first line of the file, main.py:143-144, 157-181; `coords` are the cities that the network was run on -/
def writtenCities {P : Type} [DecidableEq P] (n ms : Nat) (coords graph : List P) : List P :=
  if n < ms then coords.take n else if ms < n then (growMatrix (fun _ _ => ()) () [] coords graph).2 else coords

/-! ### The output file -/

/-- the loop that writes the entries, main.py:188-194; the second argument is `edge` -/
def writeItems (n : Nat) : Nat → List (List Char) → List Char
  | _, [] => []
  | edge, it :: its => (if (edge + 1) % n = 0 then it ++ ['\n'] else it) ++ writeItems n (edge + 1) its

/-- the text of the file, main.py:183-194, for the texts of the coordinates and of the entries -/
def adjacencyText (n : Nat) (coords entries : List (List Char × List Char)) : List Char :=
  [';'].intercalate (coords.map fun p => cellText p.1 p.2) ++ ['\n'] ++ writeItems n 0 (entries.map fun p => cellText p.1 p.2 ++ [';'])

/-- the list of cities that is added to the result file, `get_nodes`, HybridSolver.py:72-78: number and coordinates -/
def listedCities {P : Type} (graph : List P) : List (Nat × P) := graph.mapIdx fun i p => (i, p)

end Verif
