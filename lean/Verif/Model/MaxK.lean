import Verif.Model.TourUtils

/-!
# Model of `get_max_k`, `graph_utils.py`

`uninit`, `null` and `exit` stand for exceptions as in `TourUtils`.
-/
namespace Verif
set_option autoImplicit false

/-- an instance of a mini-batch: `edges_target` and `edges_values` -/
structure Labelled where
  target : Nat → Nat → ℚ
  value : Nat → Nat → ℚ

/-- `np.where(batch.edges_target[idx][row] == 1)[0]`, graph_utils.py:108 -/
def connections (n : Nat) (t : Labelled) (row : Nat) : List Nat := (List.range n).filter fun j => decide (t.target row j = 1)

/-- `np.where(sorted_neighbors == conn_idx)[0][0]`, graph_utils.py:112 -/
def whereFirst (l : List Nat) (c : Nat) : Res Nat := if c ∈ l then .ok (l.idxOf c) else .error .oob

/-- the numbers appended for an instance, graph_utils.py:106-112; `sort` is `np.argsort` of a row of `n` numbers -/
def instanceKs (n : Nat) (sort : (Nat → ℚ) → List Nat) (ks : List Nat) (t : Labelled) : Res (List Nat) :=
  forList (fun ks row => forList (fun ks c => do let k ← whereFirst (sort (t.value row)) c; pure (ks ++ [k])) (connections n t row) ks) (List.range n) ks

/-- a round of the outer loop, graph_utils.py:103-112. `iter(dataset)` starts the generator anew (google_tsp_reader.py:35-41) -/
def maxKRound (n size : Nat) (sort : (Nat → ℚ) → List Nat) (data : List Labelled) (ks : List Nat) (_ : Nat) : Res (List Nat) := do
  let bs ← batches size data
  match bs with
  | [] => .error .exit
  | b :: _ => forList (instanceKs n sort) b ks

/-- `get_max_k`, graph_utils.py:95-115, for the (shuffled) instances of a data set with mini-batches of `size`. (The reader computes every instance from its line alone, so that the batches are those of the instances.
A batch size 0 fails in the constructor of the reader.) -/
def getMaxK (n size maxIter : Nat) (sort : (Nat → ℚ) → List Nat) (data : List Labelled) : Res Nat := do
  let ks ← forList (maxKRound n size sort data) (List.range maxIter) []
  match ks with
  | [] => .error .null
  | k :: r => .ok (r.foldl max k)

end Verif
