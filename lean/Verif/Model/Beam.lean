import Verif.Model.TourUtils

/-!
# Model of beam search: `graph-convnet-tsp/utils/beamsearch.py` and the two functions of `model_utils.py` that use it

One element of the batch is modelled: the operations on the tensors act on each element of the batch separately. The semantics is that of PyTorch 0.4.1 (graph-convnet-tsp/README.md:63), where `/` of two
integer tensors is integer division. `topk` is a parameter (`topk f len k`: the ids of the `k` largest of the values `f 0 … f (len - 1)`). Numbers are rational.
-/
namespace Verif
set_option autoImplicit false

/-- `probs_type`, beamsearch.py:15 -/
inductive ProbsType where
  | raw
  | logits
deriving DecidableEq

/-- the state of the search, beamsearch.py:27-48; index of the tensors: position in the beam (and node) -/
structure Beam where
  mask : Nat → Nat → ℚ
  scores : Nat → ℚ
  prevKs : List (Nat → Nat)
  nextNodes : List (Nat → Nat)

/-- `update_mask`, beamsearch.py:100-110 -/
def updateMask (m : ProbsType) (mask : Nat → Nat → ℚ) (new : Nat → Nat) : Nat → Nat → ℚ := fun k v =>
  let x := mask k v * (1 - if v = new k then 1 else 0)
  match m with
  | .raw => x
  | .logits => if x = 0 then 10 ^ 20 else x

/-- `__init__`, beamsearch.py:35-48; `start` are the starting nodes (all 0, or random) -/
def beamInit (m : ProbsType) (start : Nat → Nat) : Beam :=
  { mask := updateMask m (fun _ _ => 1) start, scores := fun _ => 0, prevKs := [], nextNodes := [start] }

/-- `beam_lk`, beamsearch.py:69-83; `trans` are the transition probabilities -/
def beamLk (m : ProbsType) (b : Beam) (trans : Nat → Nat → ℚ) (k v : Nat) : ℚ :=
  (if 0 < b.prevKs.length then
    match m with
    | .raw => trans k v * b.scores k
    | .logits => trans k v + b.scores k
  else if 1 ≤ k then
    match m with
    | .raw => 0
    | .logits => -10 ^ 20
  else trans k v) * b.mask k v

/-- `advance`, beamsearch.py:62-98 -/
def advance (topk : (Nat → ℚ) → Nat → Nat → List Nat) (m : ProbsType) (beam n : Nat) (b : Beam) (trans : Nat → Nat → ℚ) : Beam :=
  let lk : Nat → ℚ := fun i => beamLk m b trans (i / n) (i % n)
  let ids := topk lk (beam * n) beam
  let prev : Nat → Nat := fun k => ids.getD k 0 / n
  let new : Nat → Nat := fun k => ids.getD k 0 - prev k * n
  { mask := updateMask m (fun k v => b.mask (prev k) v) new
    scores := fun k => lk (ids.getD k 0)
    prevKs := b.prevKs ++ [prev]
    nextNodes := b.nextNodes ++ [new] }

/-- `y.gather(1, beamsearch.get_current_state())`, model_utils.py:78, 81 and beamsearch.py:50-55; all nodes are below `num_nodes`, so the index is always valid -/
def gatherState (y : Nat → Nat → ℚ) (b : Beam) : Nat → Nat → ℚ := fun k v => y ((b.nextNodes.getLastD fun _ => 0) k) v

/-- the loop of `get_hypothesis`, beamsearch.py:131-134: the nodes `hyp[0 … i]` when the walk is at step `i` and position `k`. After the last node the position is looked up once more, in the last element of
`prev_Ks` (`prev_Ks[-1]`), which fails if there is none. -/
def walkBack (prevKs nextNodes : List (Nat → Nat)) : Nat → Nat → Res (List Nat)
  | 0, k => match prevKs.getLast? with
    | none => .error .oob
    | some _ => .ok [nextNodes.getD 0 (fun _ => 0) k]
  | i + 1, k => do
    let r ← walkBack prevKs nextNodes i (prevKs.getD i (fun _ => 0) k)
    pure (r ++ [nextNodes.getD (i + 1) (fun _ => 0) k])

/-- `get_hypothesis`, beamsearch.py:123-135 -/
def getHypothesis (n : Nat) (b : Beam) (k : Nat) : Res (List Nat) :=
  if n = b.prevKs.length + 1 then walkBack b.prevKs b.nextNodes b.prevKs.length k else .error .exit

/-- `y`, model_utils.py:65-74 and 109-118, from the (log-)softmax of the predictions -/
def prepProbs (m : ProbsType) (y : Nat → Nat → ℚ) : Nat → Nat → ℚ := fun i j =>
  match m with
  | .raw => y i j
  | .logits => if y i j = 0 then -1 / 10 ^ 20 else y i j

/-- the search, model_utils.py:75-81 and 119-125 -/
def beamRun (topk : (Nat → ℚ) → Nat → Nat → List Nat) (m : ProbsType) (beam n : Nat) (y : Nat → Nat → ℚ) (start : Nat → Nat) : Beam :=
  (List.range (n - 1)).foldl (fun b _ => advance topk m beam n b (gatherState y b)) (beamInit m start)

/-- `beamsearch_tour_nodes`, model_utils.py:49-84 -/
def beamTour (topk : (Nat → ℚ) → Nat → Nat → List Nat) (m : ProbsType) (beam n : Nat) (y : Nat → Nat → ℚ) (start : Nat → Nat) : Res (List Nat) :=
  getHypothesis n (beamRun topk m beam n (prepProbs m y) start) 0

/-- one round of the loop over the positions, model_utils.py:134-144 -/
def shortestStep (n : Nat) (wv : Nat → Nat → ℚ) (b : Beam) (s : List Nat × ℚ) (pos : Nat) : Res (List Nat × ℚ) := do
  let hyp ← getHypothesis n b pos
  let len ← tourLen n hyp wv
  if len < s.2 ∧ isValidTour hyp n = true then pure (hyp, len) else pure s

/-- `beamsearch_tour_nodes_shortest`, model_utils.py:87-145; `wv` is the distance matrix -/
def beamShortest (topk : (Nat → ℚ) → Nat → Nat → List Nat) (m : ProbsType) (beam n : Nat) (y wv : Nat → Nat → ℚ) (start : Nat → Nat) : Res (List Nat) := do
  let b := beamRun topk m beam n (prepProbs m y) start
  let hyp ← getHypothesis n b 0
  let len ← tourLen n hyp wv
  let s ← forList (shortestStep n wv b) (List.range' 1 (beam - 1)) (hyp, len)
  pure s.1

end Verif
