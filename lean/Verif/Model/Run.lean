import Verif.Model.ResultText
import Verif.Model.Driver

/-!
# Model of a run of the driver on the disk: `hybrid_solver`, the network process and the solver process

The other models are about what is computed; this one is about the files: which process reads and writes which file, in which order. A process is what it still has to do; one step is one operation on the
disk. A written text reaches the disk in pieces of any size. The calculations between the operations are the functions of the other models, or parameters (`World`): the build, the network,
the solver, the clock. A crash (the machine, a kill, a keyboard interrupt) is a run that is not continued.
Simplifications: a write always goes to the end of the file; the making of directories is not modelled; the build replaces the program in one step, or fails and leaves the old one;
the processes of the network and of the solver are run by the driver, which waits for them, so their steps are written as steps of the driver.
-/
namespace Verif
open Verif.Spec
set_option autoImplicit false

abbrev Text := List Char

/-- the disk: the texts of the files, and the program in the build directory, given by the options that it was built with (`MAX_VERTEX_NUM`, `HYBRID`) -/
structure Disk where
  files : Text → Option Text
  exe : Option (Nat × Bool)

/-- a file set to a text, or removed -/
def Disk.set (d : Disk) (p : Text) (t : Option Text) : Disk := { d with files := fun q => if q = p then t else d.files q }

/-- a piece of text written at the end of an open file (into the void if the file has been removed) -/
def Disk.add (d : Disk) (p : Text) (t : Text) : Disk := d.set p ((d.files p).map (· ++ t))

/-- what a process has still to do -/
inductive Proc where
  /-- it has ended -/
  | done
  /-- an exception has ended it -/
  | raised
  /-- `cmake` and `make` with the options `c`; an exception if they fail -/
  | build (c : Nat × Bool) (k : Proc)
  /-- a process that may end with an error, which raises an exception -/
  | mayFail (k : Proc)
  /-- a file opened with mode `w` -/
  | truncate (p : Text) (k : Proc)
  /-- a file opened with mode `a` -/
  | openAppend (p : Text) (k : Proc)
  /-- a text written to an open file -/
  | write (p t : Text) (k : Proc)
  /-- a whole file read (`none`: there is no such file) -/
  | readFile (p : Text) (k : Option Text → Proc)
  /-- `os.remove` -/
  | remove (p : Text) (k : Proc)
  /-- the program of the build directory is started -/
  | loadExe (k : Option (Nat × Bool) → Proc)
  /-- a text that the model does not determine -/
  | outcome (P : Text → Prop) (k : Text → Proc)

/-- what the model does not determine: whether the build or the network process fails; `resize n m t t'`: for `n` cities and a network for `m`, the text `t` of the temporary file may be rewritten to
`t'` (dummy cities or medoids); `network n m t t' csv`: the matrix file that may be written if the text of the temporary file was `t` at the start and is `t'` when the network reads it; `solver c csv out`: what the
program built with the options `c` may have written to its output file when it ends, normally or not, if its input file has the text `csv`; the text of the time; Python's `int` and `float`; the text
of a float; the distance of two cities -/
structure World where
  buildFails : Prop
  networkFails : Prop
  resize : Nat → Nat → Text → Text → Prop
  network : Nat → Nat → Text → Text → Text → Prop
  solver : Nat × Bool → Option Text → Text → Prop
  clock : Text → Prop
  int : Text → Option Int
  float : Text → Option ℚ
  fmt : ℚ → Text
  dist : ℚ × ℚ → ℚ × ℚ → ℚ

/-- one step of a process -/
inductive Step (W : World) : Proc × Disk → Proc × Disk → Prop where
  | build (c k d) : Step W (.build c k, d) (k, { d with exe := some c })
  | buildFails (c k d) : W.buildFails → Step W (.build c k, d) (.raised, d)
  | passes (k d) : Step W (.mayFail k, d) (k, d)
  | fails (k d) : W.networkFails → Step W (.mayFail k, d) (.raised, d)
  | truncate (p k d) : Step W (.truncate p k, d) (k, d.set p (some []))
  | openAppend (p k d) : Step W (.openAppend p k, d) (k, d.set p (some ((d.files p).getD [])))
  | piece (p a b k d) : a ≠ [] → Step W (.write p (a ++ b) k, d) (.write p b k, d.add p a)
  | written (p k d) : Step W (.write p [] k, d) (k, d)
  | readFile (p k d) : Step W (.readFile p k, d) (k (d.files p), d)
  | remove (p k d) : d.files p ≠ none → Step W (.remove p k, d) (k, d.set p none)
  | missing (p k d) : d.files p = none → Step W (.remove p k, d) (.raised, d)
  | loadExe (k d) : Step W (.loadExe k, d) (k d.exe, d)
  | outcome (P k d t) : P t → Step W (.outcome P k, d) (k t, d)

/-- what a process can get to -/
abbrev Steps (W : World) : Proc × Disk → Proc × Disk → Prop := Relation.ReflTransGen (Step W)

/-! ### Names of files -/

/-- the instances, HybridSolver.py:95 -/
def instancesPath (n : Nat) : Text := chars! "graph-convnet-tsp/data/hyb_tsp/test_" ++ natText n ++ chars! "_nodes.txt"

/-- the temporary file, HybridSolver.py:48, 243 and main.py:213, 270, 322, 370-371 (the working directory of the network process is `graph-convnet-tsp`) -/
def tempPath (n : Nat) : Text := chars! "graph-convnet-tsp/data/hyb_tsp/test_" ++ natText n ++ chars! "_nodes_temp.txt"

/-- the matrix file of an instance, HybridSolver.py:192 -/
def matrixPath (n : Nat) (i : Int) : Text := chars! "../data/AdjacencyMatrix/tsp_" ++ natText n ++ chars! "_nodes/tsp_test_" ++ intText i ++ chars! ".csv"

/-- the result file of an instance, HybridSolver.py:201-203 -/
def resultPath (n : Nat) (hyb : Bool) (i : Int) : Text :=
  chars! "../results/AdjacencyMatrix/tsp_" ++ natText n ++ chars! "_nodes_" ++ (if hyb then chars! "hybrid" else chars! "classic") ++ chars! "/tsp_result_" ++ intText i ++ chars! ".txt"

/-! ### The processes -/

/-- `open(p, "w")` and the text -/
def writeFile (p t : Text) (k : Proc) : Proc := .truncate p (.write p t k)

/-- `get_instance`, HybridSolver.py:82-112: the line of the instance and its cities -/
def getInstance (float : Text → Option ℚ) (text : Text) (i : Int) : Res (Text × List (ℚ × ℚ)) := do
  let line ← instanceLine (fileLines text) i
  let cities ← lineCities float line
  pure (line, cities)

/-- the network process, main.py:345-401: for another size than that of the network the temporary file is rewritten (main.py:358-362, 212-291); then the network reads it (main.py:400), and the matrix file is
written (main.py:401, 183-196) -/
def networkProc (W : World) (n m : Nat) (i : Int) (k : Proc) : Proc :=
  .mayFail <| .readFile (tempPath n) fun
    | none => .raised
    | some t =>
      if n = m then .outcome (W.network n m t t) fun csv => writeFile (matrixPath n i) csv k
      else .outcome (W.resize n m t) fun t' => writeFile (tempPath n) t' <| .readFile (tempPath n) fun
        | none => .raised
        | some t2 => .outcome (W.network n m t t2) fun csv => writeFile (matrixPath n i) csv k

/-- the solver process, HybridSolver.py:232-237 and main.c:24-58: the output file is emptied, the matrix file is read, and what is printed goes to the output file. (The driver looks at the return code only to
print a message.) -/
def solverProc (W : World) (n : Nat) (hyb : Bool) (i : Int) (k : Proc) : Proc :=
  .loadExe fun
    | none => .raised
    | some c => .truncate (resultPath n hyb i) <| .readFile (matrixPath n i) fun csv => .outcome (W.solver c csv) fun out => .write (resultPath n hyb i) out k

/-- what the driver adds to the result file, HybridSolver.py:239-249 -/
def finishProc (W : World) (n : Nat) (hyb : Bool) (i : Int) (cities : List (ℚ × ℚ)) (k : Proc) : Proc :=
  .outcome W.clock fun wall => .openAppend (resultPath n hyb i) <| .write (resultPath n hyb i) (driverText (cities.map fun q => (W.fmt q.1, W.fmt q.2)) wall) k

/-- one round of the loop, HybridSolver.py:189-249; `m` is `model_size`. `gen_matrix` is the negation of `hyb_mode` (HybridSolver.py:268). -/
def roundProc (W : World) (n m : Nat) (hyb : Bool) (i : Int) (k : Proc) : Proc :=
  .readFile (instancesPath n) fun
    | none => .raised
    | some text => match getInstance W.float text i with
      | .error _ => .raised
      | .ok (line, cities) =>
        if hyb then
          writeFile (tempPath n) line <| networkProc W n m i <| solverProc W n hyb i <| .remove (tempPath n) <| finishProc W n hyb i cities k
        else
          writeFile (matrixPath n i) (classicText W.fmt cities (adjacencyMatrix W.dist cities)) <| solverProc W n hyb i <| finishProc W n hyb i cities k

/-- the loop over the instances -/
def loopProc (W : World) (n m : Nat) (hyb : Bool) : List Int → Proc
  | [] => .done
  | i :: r => roundProc W n m hyb i (loopProc W n m hyb r)

/-- `hybrid_solver(range, n, hyb, not hyb)`, HybridSolver.py:149-249 -/
def driverProc (W : World) (range : Text) (n : Nat) (hyb : Bool) : Proc :=
  match (if hyb then modelSize n else .ok n) with
  | .error _ => .raised
  | .ok m => .build (n, hyb) <| match instanceRange W.int range with
    | .error _ => .raised
    | .ok l => loopProc W n m hyb l

/-! ### Several drivers at the same time -/

/-- one step of one of several processes that share the disk -/
inductive SysStep (W : World) {N : Nat} : (Fin N → Proc) × Disk → (Fin N → Proc) × Disk → Prop where
  | step (j : Fin N) (s : Fin N → Proc) (P : Proc) (d d' : Disk) : Step W (s j, d) (P, d') → SysStep W (s, d) (Function.update s j P, d')

/-- what several processes can get to, for every schedule -/
abbrev SysSteps (W : World) {N : Nat} : (Fin N → Proc) × Disk → (Fin N → Proc) × Disk → Prop := Relation.ReflTransGen (SysStep W)

end Verif
