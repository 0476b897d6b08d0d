import Verif.Model.Padding
import Verif.Model.TourUtils
import Verif.Model.Run

/-!
# Model of the network program: `main`, `cluster_nodes`, `fix_instance_size`, `get_instance` (graph-convnet-tsp/main.py) and `Settings`, `get_config` (config.py)

What the network itself computes is modelled in `Model/Gcn.lean`, what is written in `Model/Driver.lean`; here is what the network is run on, and with which settings and weights. JSON objects are lists of keys and values in the
order of the file (`json.load` keeps the last value of a key). The clustering, the contents of the checkpoint files and number formatting are parameters. Environment variables and the choice of the device (main.py:373-389) are
not modelled. A Python exception is a fault: `KeyError`, `IndexError` and `StopIteration` are `oob`, `ValueError` is `null`, `FileNotFoundError` and `raise Exception(…)` are `exit`.
-/
namespace Verif
open Verif.Spec
set_option autoImplicit false

/-! ### The settings -/

/-- a value of a JSON file -/
inductive JVal where
  | str (t : List Char)
  | num (z : Int)
  | other (t : List Char)
  deriving DecidableEq

/-- a `dict` with texts as keys -/
abbrev PyDict := List (List Char × JVal)

/-- `dict.__setitem__`, config.py:53-54: a key that exists keeps its place -/
def setItem (d : PyDict) (p : List Char × JVal) : PyDict := if d.any (fun q => q.1 == p.1) then d.map (fun q => if q.1 = p.1 then p else q) else d ++ [p]

/-- `Settings.__init__`, config.py:45-48, for the object that `json.load` reads (which has no key twice; setting the values one after the other comes to the same) -/
def settingsOf (o : PyDict) : PyDict := o.foldl setItem []

/-- `get_default_config` and `get_config`, config.py:62-73, for the objects in the two files -/
def getConfig (dflt file : PyDict) : PyDict := (settingsOf file).foldl setItem (settingsOf dflt)

/-- the names that `dict` has itself: for them `__getattr__` is not called (names with underscores are left out) -/
def dictNames : List (List Char) :=
  [chars! "clear", chars! "copy", chars! "fromkeys", chars! "get", chars! "items", chars! "keys", chars! "pop", chars! "popitem", chars! "setdefault", chars! "update", chars! "values"]

/-- `config.name`, config.py:50-51; for a name of `dict` the result is a method and not a setting, which is a fault here -/
def getAttr (d : PyDict) (k : List Char) : Res JVal :=
  if k ∈ dictNames then .error .null else match d.lookup k with
  | some v => .ok v
  | none => .error .oob

/-- `config.name = v`, config.py:56-57 -/
def setAttr (d : PyDict) (k : List Char) (v : JVal) : PyDict := setItem d (k, v)

/-- a setting that is used as a number -/
def intAttr (d : PyDict) (k : List Char) : Res Int := do
  match (← getAttr d k) with
  | .num z => pure z
  | _ => .error .null

/-- a setting that is used as a text -/
def textAttr (d : PyDict) (k : List Char) : Res (List Char) := do
  match (← getAttr d k) with
  | .str t => pure t
  | _ => .error .null

/-! ### The program -/

/-- what the program finds: Python's `float`, `str` and `int`, distances and nearest neighbours, the clustering, the settings files, the checkpoints (by their path), the order in which the reader shuffles the lines -/
structure NetWorld (Weights : Type) where
  float : List Char → Option ℚ
  str : ℚ → List Char
  int : List Char → Option Nat
  dist : ℚ × ℚ → ℚ × ℚ → ℚ
  knn : Int → (Nat → Nat → ℚ) → Nat → List Nat
  cluster : List (ℚ × ℚ) → Nat → Res (List (ℚ × ℚ))
  json : List Char → Option PyDict
  checkpoint : List Char → Option Weights
  shuffle : List (List Char) → List (List Char)

/-- the temporary file, main.py:209, 261, 323, 371: relative to the directory of the network (`tempPath` is relative to the one of the driver) -/
def netTemp (n : Nat) : List Char := chars! "data/hyb_tsp/test_" ++ natText n ++ chars! "_nodes_temp.txt"

/-- the settings of the network for `m` cities, main.py:364 -/
def logPath (m : Nat) : List Char := chars! "./logs/tsp" ++ natText m ++ chars! "/config.json"

/-- a file of settings -/
def readJson {W : Type} (P : NetWorld W) (path : List Char) : Res PyDict := match P.json path with
  | some o => .ok o
  | none => .error .exit

/-- `f"{x} {y}"` of the medoids joined with spaces, main.py:282 -/
def medoidsText (str : ℚ → List Char) (ms : List (ℚ × ℚ)) : List Char := [' '].intercalate (ms.map fun q => str q.1 ++ [' '] ++ str q.2)

/-- `fix_instance_size`, main.py:287-309: the text of the temporary file; `k` is its `model_size` -/
def fixInstanceSize {W : Type} (P : NetWorld W) (graph : List (ℚ × ℚ)) (k : Nat) : Res (List Char) := do
  let ms ← P.cluster graph k
  pure (medoidsText P.str ms ++ (chars! " output " ++ (((List.range k).flatMap fun i => natText (i + 1) ++ [' ']) ++ natText 1)))

/-- `get_instance`, main.py:312-341 -/
def netInstance {W : Type} (P : NetWorld W) (file : Option (List (List Char))) : Res (List (ℚ × ℚ)) := match file with
  | none => .error .exit
  | some [] => .error .exit
  | some (l :: _) => lineCities P.float l

/-- what the network is run on: the settings, the weights and the sample -/
structure NetRun (Weights : Type) where
  config : PyDict
  weights : Weights
  sample : TspSample

section
variable [Rounding]

/-- the temporary file when the network is run, main.py:358-362, as lines; `none` if the padding is still drawing after the draws `draws`. (`fix_instance_size` is called without `model_size`, whose default is 100, main.py:287, 362.) -/
def netFile {W : Type} (P : NetWorld W) (n m : Nat) (file : Option (List (List Char))) (draws : List Draw) : Res (Option (List (List Char))) :=
  if n < m then match file with
    | none => .error .exit
    | some [] => .error .oob
    | some (l :: _) => do
      match (← padLine P.float P.str natText n m l draws) with
      | some t => pure (some [t])
      | none => pure none
  else if m < n then do
    let graph ← netInstance P file
    let t ← fixInstanceSize P graph 100
    pure (some [t])
  else match file with
    | none => .error .exit
    | some ls => pure (some ls)

/-- the settings after main.py:364-371 -/
def netConfig {W : Type} (P : NetWorld W) (n m : Nat) : Res PyDict := do
  let d ← readJson P (chars! "./configs/default.json")
  let f ← readJson P (logPath m)
  let c := setAttr (setAttr (getConfig d f) (chars! "gpu_id") (.str (chars! "0"))) (chars! "accumulation_steps") (.num 1)
  let c := setAttr (setAttr c (chars! "val_filepath") (.str (netTemp n))) (chars! "test_filepath") (.str (netTemp n))
  pure c

/-- `main`, main.py:345-400, and the beginning of `compute_prob`, main.py:50-92: what the network is run on. (A negative `num_nodes` counts as 0 here, where NumPy raises an exception.) `file` is the temporary file (its lines), the only file at the path in `test_filepath`. -/
def netMain {W : Type} (P : NetWorld W) (n m : Nat) (file : Option (List (List Char))) (draws : List Draw) : Res (Option (NetRun W)) := do
  match (← netFile P n m file draws) with
  | none => pure none
  | some lines => do
    let c ← netConfig P n m
    let name ← textAttr c (chars! "expt_name")
    match P.checkpoint (chars! "./logs/" ++ name ++ chars! "/best_val_checkpoint.tar") with
    | none => .error .exit
    | some w => do
      let c := setAttr c (chars! "batch_size") (.num 1)
      let k ← intAttr c (chars! "num_nodes")
      let nb ← intAttr c (chars! "num_neighbors")
      let path ← textAttr c (chars! "test_filepath")
      if path = netTemp n then do
        let s ← computeSample P.float (processLine P.float P.int P.dist (if nb = -1 then none else some (P.knn nb)) k.toNat) lines (P.shuffle lines)
        pure (some { config := c, weights := w, sample := s })
      else .error .exit

end

end Verif
