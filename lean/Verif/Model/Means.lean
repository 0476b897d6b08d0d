import Verif.Model.ResultText
import Mathlib.Analysis.Real.Sqrt

/-!
# Model of the file of means, `analyzer.py`

The dictionaries of `read_values`, `significance_test` and the rows that `analyze` writes. Means and intervals are exact (no rounding); `nan`, the mean of nothing, is `none`. The Wilcoxon test is a parameter that
can raise an exception; the result of `ttest_rel` is not used by the program and not modelled. The five rows of percentages are those of `readValues`; the curves and the layout of the file are not modelled.
-/
namespace Verif
set_option autoImplicit false

/-- the dictionaries with a value for each resolved instance, in the order of `all_stats`, analyzer.py:263-272 -/
inductive Metric where
  | totalTime | timeBb | timeToBest | generated | explored | beforeBest | treeLevel | bestLevel | prob | bestValue
  deriving DecidableEq

def Metric.all : List Metric := [.totalTime, .timeBb, .timeToBest, .generated, .explored, .beforeBest, .treeLevel, .bestLevel, .prob, .bestValue]

/-- the value that is stored for a resolved file, analyzer.py:229-238 -/
def Metric.read : Metric → ResultFile → FileRow → ℚ
  | .totalTime, f, _ => f.timeTaken
  | .timeBb, f, _ => f.elapsed
  | .timeToBest, f, _ => f.timeToObtain
  | .generated, _, r => r.generated
  | .explored, _, r => r.explored
  | .beforeBest, _, r => r.number
  | .treeLevel, _, r => r.maxLevel
  | .bestLevel, _, r => r.bestLevel
  | .prob, _, r => r.prob
  | .bestValue, f, _ => f.cost

/-- one of the dictionaries, analyzer.py:229-238, 263-272: filled in the order of the files, sorted by the instances -/
def metricDict (m : Metric) (l : List (ResultFile × Option FileRow)) : List (Nat × ℚ) :=
  (l.foldl (fun d x => match x.2 with | some row => setKey d x.1.inst (m.read x.1 row) | none => d) []).insertionSort fun a b => a.1 ≤ b.1

/-- `np.mean` -/
def npMean (l : List ℚ) : Option ℚ := if l.length = 0 then none else some (l.sum / l.length)

/-- the square of `np.std` -/
def npVar (l : List ℚ) : Option ℚ := (npMean l).map fun m => (l.map fun x => (x - m) ^ 2).sum / l.length

/-- `np.std(values) * 1.96 / np.sqrt(len(values))` -/
noncomputable def confInt (l : List ℚ) : Option ℝ := (npVar l).map fun v => Real.sqrt (v : ℝ) * (196 / 100) / Real.sqrt (l.length : ℝ)

/-- the result of `significance_test` -/
structure TestRow where
  hybMean : Option ℚ
  hybInt : Option ℝ
  claMean : Option ℚ
  claInt : Option ℝ
  p : Option ℚ

/-- `significance_test`, analyzer.py:279-297; `order` is the order in which Python iterates over the set `same_ids` -/
noncomputable def significanceTest (test : List ℚ → List ℚ → Res (Option ℚ)) (order : List Nat) (hyb cla : List (Nat × ℚ)) : Res TestRow := do
  let vh ← mapRes (lookupKey hyb) order
  let vc ← mapRes (lookupKey cla) order
  let p ← test vh vc
  pure { hybMean := npMean vh, claMean := npMean vc, hybInt := confInt vh, claInt := confInt vc, p := p }

/-- the rows with means that `analyze` writes, analyzer.py:300-345, for the directories of the hybrid and of the classic runs -/
noncomputable def meanRows (test : List ℚ → List ℚ → Res (Option ℚ)) (order : Metric → List Nat) (dirH dirC : List (List Char × List Char)) : Res (List (Metric × TestRow)) := do
  let lh ← readFiles dirH
  let _ ← readValues (lh.map Prod.fst)
  let lc ← readFiles dirC
  let _ ← readValues (lc.map Prod.fst)
  mapRes (fun m => do let r ← significanceTest test (order m) (metricDict m lh) (metricDict m lc); pure (m, r)) Metric.all

end Verif
