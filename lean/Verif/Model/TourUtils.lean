import Verif.Model.Driver
import Mathlib.Data.List.Sort

/-!
# Model of the tour helpers of `graph-convnet-tsp/utils`: `graph_utils.py`, `google_tsp_reader.py`, `data/generate_tsp_concorde.py`, `data/split_train_val.py`

A matrix is a function with its size; reading or writing outside it is an `IndexError` (`oob`). `uninit` stands for `UnboundLocalError`, `null` for `ValueError`, `exit` for `StopIteration` and
`ZeroDivisionError`.
-/
namespace Verif
set_option autoImplicit false

/-- the values of `i`, `j` in `for idx in range(len(nodes) - 1): i = nodes[idx]; j = nodes[idx + 1]`, graph_utils.py:11-13, 26-28 -/
def consecutive (nodes : List Nat) : List (Nat × Nat) := (List.range (nodes.length - 1)).map fun idx => (nodes.getD idx 0, nodes.getD (idx + 1) 0)

/-- `W[i][j] = 1; W[j][i] = 1`, graph_utils.py:14-15, for an `n × n` array -/
def markEdge (n : Nat) (W : Nat → Nat → ℚ) (p : Nat × Nat) : Res (Nat → Nat → ℚ) :=
  if p.1 < n ∧ p.2 < n then .ok (upd2 (upd2 W p.1 p.2 1) p.2 p.1 1) else .error .oob

/-- the value of `j` after the loop -/
def lastNode (nodes : List Nat) : Res Nat :=
  match (consecutive nodes).getLast? with
  | some p => .ok p.2
  | none => .error .uninit

/-- `tour_nodes_to_W`, graph_utils.py:7-19 -/
def tourToW (nodes : List Nat) : Res (Nat → Nat → ℚ) := do
  let W ← forList (markEdge nodes.length) (consecutive nodes) (fun _ _ => 0)
  let j ← lastNode nodes
  markEdge nodes.length W (j, nodes.headD 0)

/-- `W_values[i][j]` for an `n × n` array -/
def readAt (n : Nat) (W : Nat → Nat → ℚ) (p : Nat × Nat) : Res ℚ := if p.1 < n ∧ p.2 < n then .ok (W p.1 p.2) else .error .oob

/-- `tour_nodes_to_tour_len`, graph_utils.py:22-32; `W_values` is `n × n` -/
def tourLen (n : Nat) (nodes : List Nat) (wv : Nat → Nat → ℚ) : Res ℚ := do
  let s ← forList (fun s p => do let x ← readAt n wv p; pure (s + x)) (consecutive nodes) 0
  let j ← lastNode nodes
  let x ← readAt n wv (j, nodes.headD 0)
  pure (s + x)

/-- `W_to_tour_len`, graph_utils.py:35-44, for two `n × n` arrays -/
def wTourLen (n : Nat) (W wv : Nat → Nat → ℚ) : ℚ :=
  (List.range n).foldl (fun s i => (List.range n).foldl (fun s j => if W i j = 1 then s + wv i j else s) s) 0 / 2

/-- `is_valid_tour`, graph_utils.py:47-50; `sorted` is an insertion sort here, which gives the same list as any other sort -/
def isValidTour (nodes : List Nat) (n : Nat) : Bool := nodes.insertionSort (· ≤ ·) == List.range n

/-- one tour of the loop in `mean_tour_len_nodes`, graph_utils.py:86-91; the state is `running_tour_len` and `j` (which keeps its value from the tour before) -/
def meanStep (n : Nat) (s : ℚ × Option Nat) (b : List Nat × (Nat → Nat → ℚ)) : Res (ℚ × Option Nat) := do
  let r ← forList (fun s p => do let x ← readAt n b.2 p; pure (s + x)) (consecutive b.1) s.1
  match (match (consecutive b.1).getLast? with | some p => some p.2 | none => s.2) with
  | none => .error .uninit
  | some j => do let x ← readAt n b.2 (j, 0); pure (r + x, some j)

/-- `mean_tour_len_nodes`, graph_utils.py:72-92: the batch is the list of the tours with their matrices -/
def meanTourLenNodes (n : Nat) (batch : List (List Nat × (Nat → Nat → ℚ))) : Res ℚ := do
  let s ← forList (meanStep n) batch (0, none)
  if batch.length = 0 then .error .exit else pure (s.1 / batch.length)

/-! ### Data files -/

/-- the line that `generate_tsp_concorde.py:31-35` writes for a set of cities (their texts) and the tour of the solver; `digits` is the text of an int -/
def genLine (digits : Nat → List Char) (cities : List (List Char × List Char)) (tour : List Nat) : List Char :=
  [' '].intercalate (cities.map fun p => p.1 ++ [' '] ++ p.2) ++ (" output ".toList ++ ([' '].intercalate (tour.map fun i => digits (i + 1)) ++ ([' '] ++ digits (tour.headD 0 + 1) ++ [' '] ++ ['\n'])))

/-- the line of the file that the driver writes for the network, main.py:217, 236, 239-246 (`add_dummy_cities`) and main.py:274, 295, 302-307 (`fix_instance_size`): the cities, then `1 2 … n` and `1`, with no space or newline after it -/
def driverLine (digits : Nat → List Char) (cities : List (List Char × List Char)) : List Char :=
  [' '].intercalate (cities.map fun p => p.1 ++ [' '] ++ p.2) ++ (" output ".toList ++ (((List.range cities.length).flatMap fun i => digits (i + 1) ++ [' ']) ++ digits 1))

/-- what `process_batch` computes for one line, google_tsp_reader.py:55-111 -/
structure TspSample where
  coord : List (ℚ × ℚ)
  edges : Nat → Nat → ℚ
  target : Nat → Nat → ℚ
  order : Nat → ℚ
  tour : List Nat
  len : ℚ

/-- `[float(line[idx]), float(line[idx + 1])]` for `idx = 0, 2, …`, google_tsp_reader.py:62-64; the last argument is the number of cities -/
def readCoords (float : List Char → Option ℚ) : List (List Char) → Nat → Res (List (ℚ × ℚ))
  | _, 0 => .ok []
  | a :: b :: r, k + 1 =>
    match float a, float b with
    | some x, some y => do let t ← readCoords float r k; pure ((x, y) :: t)
    | _, _ => .error .null
  | _, _ + 1 => .error .oob

/-- `[int(node) - 1 for node in …]`; a node 0 (which gives the index -1) is not modelled and is a fault -/
def readNodes (int : List Char → Option Nat) : List (List Char) → Res (List Nat)
  | [] => .ok []
  | a :: r => match int a with
    | none => .error .null
    | some 0 => .error .oob
    | some (k + 1) => do let t ← readNodes int r; pure (k :: t)

/-- `tour_nodes`, google_tsp_reader.py:83: the fields after `output` without the last field, without the last number -/
def readTour (int : List Char → Option Nat) (line : List (List Char)) : Res (List Nat) := do
  if "output".toList ∈ line then do
    let t ← readNodes int (line.dropLast.drop (line.idxOf "output".toList + 1))
    pure t.dropLast
  else .error .null

/-- one round of google_tsp_reader.py:89-95: `nodes_target`, `edges_target`, `tour_len` -/
def sampleStep (n : Nat) (wv : Nat → Nat → ℚ) (s : (Nat → ℚ) × (Nat → Nat → ℚ) × ℚ) (a : Nat × (Nat × Nat)) : Res ((Nat → ℚ) × (Nat → Nat → ℚ) × ℚ) := do
  let t ← markEdge n s.2.1 a.2
  let x ← readAt n wv a.2
  pure (upd s.1 a.2.1 (a.1 : ℚ), t, s.2.2 + x)

/-- the sample of a line, google_tsp_reader.py:55-111. `dist` is the Euclidean distance and `knn wv i` the list of the nearest neighbours of `i` (`np.argpartition`), `none` if `num_neighbors` is -1. -/
def processLine (float : List Char → Option ℚ) (int : List Char → Option Nat) (dist : ℚ × ℚ → ℚ × ℚ → ℚ) (knn : Option ((Nat → Nat → ℚ) → Nat → List Nat)) (n : Nat) (text : List Char) : Res TspSample := do
  let line := text.splitOn ' '
  let xs ← readCoords float line n
  let wv : Nat → Nat → ℚ := fun i j => if i = j then 0 else dist (xs.getD i (0, 0)) (xs.getD j (0, 0))
  let edges : Nat → Nat → ℚ := fun i j => if i = j then 2 else match knn with
    | none => 1
    | some f => if j ∈ f wv i then 1 else 0
  let t ← readTour int line
  let s ← forList (sampleStep n wv) ((List.range (t.length - 1)).zip (consecutive t)) (fun _ => 0, fun _ _ => 0, 0)
  let j ← lastNode t
  let tgt ← markEdge n s.2.1 (j, t.headD 0)
  let x ← readAt n wv (j, t.headD 0)
  pure { coord := xs, edges := edges, target := tgt, order := upd s.1 j ((t.length - 1 : Nat) : ℚ), tour := t, len := s.2.2 + x }

/-- the mini-batches of lines, `__iter__`, google_tsp_reader.py:35-41; `lines` are the shuffled lines -/
def batches {L : Type} (size : Nat) (lines : List L) : Res (List (List L)) :=
  if size = 0 then .error .exit
  else .ok ((List.range (lines.length / size)).map fun b => (lines.drop (b * size)).take ((b + 1) * size - b * size))

/-- the search for the batch of the instance, `compute_prob`, main.py:86-92, with batches of one line: the sample of the first line whose coordinates are those of the instance -/
def findSample (process : List Char → Res TspSample) (instance' : List ℚ) : List (List (List Char)) → Res TspSample
  | [] => .error .exit
  | b :: bs => do
    let l ← (match b with | [l] => .ok l | _ => .error .oob : Res (List Char))
    let s ← process l
    if (s.coord.flatMap fun p => [p.1, p.2]) = instance' then pure s else findSample process instance' bs

/-- the sample that the network is run on, `compute_prob`, main.py:70-92; `lines` are the lines of the file and `shuffled` their order in the reader -/
def computeSample (float : List Char → Option ℚ) (process : List Char → Res TspSample) (lines shuffled : List (List Char)) : Res TspSample := do
  let bs ← batches 1 shuffled
  match lines with
  | [] => .error .oob
  | l :: _ => do
    let f ← floats float ((before " output".toList l).splitOn ' ')
    findSample process f bs

/-- the bounds of a Python slice: a negative bound counts from the end -/
def sliceBound (len : Nat) (k : Int) : Nat := if 0 ≤ k then min k.toNat len else (k + len).toNat

/-- `filedata[:val_size]` and `filedata[val_size:]`, split_train_val.py:25-27: the lines of the two files -/
def splitTrainVal {L : Type} (lines : List L) (val : Int) : List L × List L := (lines.take (sliceBound lines.length val), lines.drop (sliceBound lines.length val))

end Verif
