import Verif.Base
import Mathlib.Data.Rat.Defs
import Mathlib.Algebra.Order.Ring.Rat
import Mathlib.Algebra.Order.Group.Unbundled.Abs
import Mathlib.Data.List.Sort
import Mathlib.Data.List.Dedup

/-!
# Model of the profiles of `results/AdjacencyMatrix/analyzer.py`

Dictionaries are lists of pairs with different keys. Times and values are rational; the value `inf` of an instance without a solution is `none`. The plots and the file are not modelled: the result is the
columns `Time`, `Hybrid`, `Classic` of the data frame. `oob` stands for `IndexError` and `KeyError`, `exit` for `ZeroDivisionError`.
-/
namespace Verif
set_option autoImplicit false

/-- what is known of an instance: resolved or not, and the partial solutions (value, time) in the order of the result file, analyzer.py:244-255 -/
structure RunLog where
  resolved : Bool
  sols : List (ℚ × ℚ)

/-- `sorted(list(times))` for the set of the times -/
def sortTimes (l : List ℚ) : List ℚ := l.dedup.insertionSort (· ≤ ·)

/-- the loop that finds the best value at a time, analyzer.py:46-50, 51-55; the second argument is `best_value` -/
def bestAt (time : ℚ) : List (ℚ × ℚ) → Option ℚ → Option ℚ
  | [], best => best
  | s :: r, best => if s.2 ≤ time then bestAt time r (some s.1) else best

/-- `not abs(a - b) < ub`, analyzer.py:64: `inf - inf` is `nan`, and comparisons with `nan` are false -/
def notClose (ub : ℚ) : Option ℚ → Option ℚ → Bool
  | some a, some b => !decide (|a - b| < ub)
  | _, _ => true

/-- `a < b` for numbers of which `none` is `inf`, analyzer.py:65 -/
def lessInf : Option ℚ → Option ℚ → Bool
  | some a, some b => decide (a < b)
  | some _, none => true
  | none, _ => false

/-- `d[key]` -/
def lookupKey {V : Type} (d : List (Nat × V)) (key : Nat) : Res V :=
  match d.find? fun p => p.1 == key with
  | some p => .ok p.2
  | none => .error .oob

/-- the values of both solvers at a time, analyzer.py:43-58 -/
def valuesAt (cla : List (Nat × RunLog)) (time : ℚ) : List (Nat × RunLog) → Res (List (Option ℚ × Option ℚ))
  | [] => .ok []
  | h :: r => do
    let c ← lookupKey cla h.1
    let t ← valuesAt cla time r
    pure ((bestAt time h.2.sols none, bestAt time c.sols none) :: t)

/-- the two points at a time, analyzer.py:41-71 -/
def improvementAt (ub : ℚ) (hyb cla : List (Nat × RunLog)) (time : ℚ) : Res (ℚ × ℚ) := do
  let v ← valuesAt cla time hyb
  let c := v.foldl (fun (s : Nat × Nat) p => if notClose ub p.1 p.2 then (if lessInf p.1 p.2 then (s.1 + 1, s.2) else (s.1, s.2 + 1)) else s) (0, 0)
  if v.length = 0 then .error .exit else pure ((c.1 : ℚ) / v.length, (c.2 : ℚ) / v.length)

/-- `mapM` over a list, in order -/
def mapRes {A B : Type} (f : A → Res B) : List A → Res (List B)
  | [] => .ok []
  | a :: l => do let b ← f a; let r ← mapRes f l; pure (b :: r)

/-- `improvement_profile`, analyzer.py:24-85; `ub` is `np.sqrt(num_nodes) * 0.00127` -/
def improvementProfile (ub : ℚ) (hyb cla : List (Nat × RunLog)) : Res (List (ℚ × ℚ × ℚ)) :=
  mapRes (fun time => do let p ← improvementAt ub hyb cla time; pure (time, p.1, p.2))
    (sortTimes ((hyb.flatMap fun h => h.2.sols.map Prod.snd) ++ cla.flatMap fun h => h.2.sols.map Prod.snd))

/-- `partial_solution[1][-1][1]` -/
def lastTime (r : RunLog) : Res ℚ := match r.sols.getLast? with
  | some s => .ok s.2
  | none => .error .oob

/-- the times at which the instances are solved, analyzer.py:98-104 -/
def solvedTimes : List (Nat × RunLog) → Res (List ℚ)
  | [] => .ok []
  | h :: r => if h.2.resolved then do let t ← lastTime h.2; let l ← solvedTimes r; pure (t :: l) else solvedTimes r

/-- the number of instances solved at a time, analyzer.py:113-117, 119-123 -/
def solvedCount (time : ℚ) : List (Nat × RunLog) → Res Nat
  | [] => .ok 0
  | h :: r => if h.2.resolved then do
      let t ← lastTime h.2
      let c ← solvedCount time r
      pure (if t ≤ time then c + 1 else c)
    else solvedCount time r

/-- `cumulative_profile`, analyzer.py:88-137 -/
def cumulativeProfile (hyb cla : List (Nat × RunLog)) : Res (List (ℚ × ℚ × ℚ)) := do
  let same := (hyb.map Prod.fst).filter fun k => decide (k ∈ cla.map Prod.fst)
  let h := hyb.filter fun p => decide (p.1 ∈ same)
  let c := cla.filter fun p => decide (p.1 ∈ same)
  let t1 ← solvedTimes h
  let t2 ← solvedTimes c
  mapRes (fun time => do
    let a ← solvedCount time h
    let b ← solvedCount time c
    if same.length = 0 then .error .exit else pure (time, (a : ℚ) / same.length, (b : ℚ) / same.length)) (sortTimes (t1 ++ t2))

/-! ### Reading the result files -/

/-- the text after `type = ` in a result file that decides the class of the solution, analyzer.py:220-227 -/
inductive SolType where
  | nearestHybrid
  | nearest
  | oneTree
  | other
deriving DecidableEq

/-- what the searches find in one result file, analyzer.py:195-217, 247-250 (the searches for the counters that are only copied are left out) -/
structure ResultFile where
  inst : Nat
  interrupted : Bool
  type : SolType
  cost : ℚ
  timeTaken : ℚ
  elapsed : ℚ
  timeToObtain : ℚ
  updates : List (ℚ × ℚ)

/-- the counters and lists of `read_values`, analyzer.py:166-185 -/
structure Stats where
  resolved : Nat := 0
  notResolved : List Nat := []
  nn : Nat := 0
  nnHybrid : Nat := 0
  oneTree : Nat := 0
  subgradient : Nat := 0
  partials : List (Nat × RunLog) := []

/-- the partial solutions of one file, analyzer.py:244-255 -/
def runLog (f : ResultFile) : RunLog :=
  let overhead := f.timeTaken - f.elapsed
  let sols := f.updates.map fun u => (u.1, overhead + u.2)
  { resolved := !f.interrupted, sols := if sols.length = 0 then sols ++ [(f.cost, overhead + f.timeToObtain)] else sols }

/-- `partial_solutions[inst_id] = …` -/
def setKey {V : Type} (d : List (Nat × V)) (k : Nat) (v : V) : List (Nat × V) := if k ∈ d.map Prod.fst then d.map fun p => if p.1 = k then (k, v) else p else d ++ [(k, v)]

/-- the loop over the files, analyzer.py:188-255 -/
def readFile (s : Stats) (f : ResultFile) : Stats :=
  let s := { s with partials := setKey s.partials f.inst (runLog f) }
  if f.interrupted then { s with notResolved := s.notResolved ++ [f.inst] }
  else
    let s := { s with resolved := s.resolved + 1 }
    match f.type with
    | .nearestHybrid => { s with nnHybrid := s.nnHybrid + 1 }
    | .nearest => { s with nn := s.nn + 1 }
    | .oneTree => { s with oneTree := s.oneTree + 1 }
    | .other => { s with subgradient := s.subgradient + 1 }

/-- `read_values`, analyzer.py:162-276: the statistics, and the fractions that are printed as percentages (before rounding): resolved, nearest neighbour, its hybrid form, 1-tree, subgradient.
The other dictionaries of `all_stats` are copies of values of the files. -/
def readValues (files : List ResultFile) : Res (Stats × List ℚ) :=
  let s := files.foldl readFile {}
  if s.resolved + s.notResolved.length = 0 then .error .exit
  else if s.resolved = 0 then .error .exit
  else .ok (s, [(s.resolved : ℚ) / (s.resolved + s.notResolved.length : Nat), (s.nn : ℚ) / s.resolved, (s.nnHybrid : ℚ) / s.resolved, (s.oneTree : ℚ) / s.resolved, (s.subgradient : ℚ) / s.resolved])

end Verif
