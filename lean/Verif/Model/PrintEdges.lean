import Verif.Model.Graph
import Mathlib.Analysis.SpecialFunctions.Log.Basic
import Mathlib.Data.Nat.Digits.Lemmas

/-!
# Model of the printing of edges: `print_graph` (graph.c), `print_mst`, `print_mst_original_weight` (mst.c)

The three loops differ only in the format of the rest of the line, which is a parameter. A write outside a buffer is the fault `oob`.
-/
namespace Verif
set_option autoImplicit false

/-- `%i` for a number that is not negative -/
def nodeText (k : Nat) : List Char := if k = 0 then ['0'] else (Nat.digits 10 k).reverse.map Nat.digitChar

/-- `(log(num_nodes) / log(10) + 1) * 2 + 7`, graph.c:116, mst.c:73, 95, in real numbers -/
noncomputable def exactDim (n : Nat) : ℝ := (Real.log n / Real.log 10 + 1) * 2 + 7

/-- the string `s` and the zero after it are written to a buffer of `size` characters -/
def putString (size : Nat) (s : List Char) : Res (List Char) := if s.length + 1 ≤ size then .ok s else .error .oob

/-- `edge_print`, graph.c:118-124, mst.c:75-81, 97-103, when `dim` is the value of the variable `dim`: the buffers have `(int) dim` and `(int) (dim-7)/2` characters (the cast binds more tightly than the division).
`dim` is at least 9 for every graph with a node, so the cast is the floor. -/
noncomputable def edgeText (dim : ℝ) (src dest : Nat) : Res (List Char) := do
  let a ← putString ⌊dim⌋.toNat (nodeText src)
  let b ← putString ⌊dim⌋.toNat (a ++ " <--> ".toList)
  let d ← putString (⌊dim - 7⌋.toNat / 2) (nodeText dest)
  putString ⌊dim⌋.toNat (b ++ d)

/-- the loop over the edges, graph.c:117-133, mst.c:74-87, 96-109; `line` is the line that is printed for an edge and its text -/
noncomputable def printEdges (dim : ℝ) (line : Edge → List Char → List Char) : List Edge → Res (List Char)
  | [] => .ok []
  | e :: l => do
    let t ← edgeText dim e.src e.dest
    let r ← printEdges dim line l
    pure (line e t ++ r)

end Verif
