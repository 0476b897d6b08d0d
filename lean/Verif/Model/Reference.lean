import Verif.Model.Driver

/-!
# Model of the reference solver, `data/pyconcorde_solver.py`

`np.linalg.norm` is the parameter `dist` and `float` the parameter `float`; Concorde itself (`solution.tour`) is an argument. The sum is exact here; times, node counts, means and the result file are not modelled.
-/
namespace Verif
set_option autoImplicit false

/-- one round of pyconcorde_solver.py:58-62; the state is (`even_line`, `odd_line`) -/
def splitStep (line : List ℚ) (s : List ℚ × List ℚ) (i : Nat) : Res (List ℚ × List ℚ) :=
  match line[i]? with
  | none => .error .oob
  | some x => if i % 2 = 1 then .ok (s.1, s.2 ++ [x]) else .ok (s.1 ++ [x], s.2)

/-- the instance of a line of the file, pyconcorde_solver.py:52-63 -/
def refInstance (float : List Char → Option ℚ) (line : List Char) : Res (List ℚ × List ℚ) := do
  let f ← floats float ((before " output".toList line).splitOn ' ')
  forList (splitStep f) (List.range f.length) ([], [])

/-- `np.array([instance[0][c], instance[1][c]])`, pyconcorde_solver.py:20, 22, 24 -/
def refCity (inst : List ℚ × List ℚ) (c : Nat) : Res (ℚ × ℚ) :=
  match inst.1[c]?, inst.2[c]? with
  | some x, some y => .ok (x, y)
  | _, _ => .error .oob

/-- `solution.tour[i]` -/
def refNode (tour : List Nat) (i : Nat) : Res Nat := match tour[i]? with | some c => .ok c | none => .error .oob

/-- one round of pyconcorde_solver.py:19-25 -/
def refStep (dist : ℚ × ℚ → ℚ × ℚ → ℚ) (inst : List ℚ × List ℚ) (tour : List Nat) (s : ℚ) (i : Nat) : Res ℚ := do
  let a ← refNode tour i
  let src ← refCity inst a
  let b ← if i + 1 = tour.length then refNode tour 0 else refNode tour (i + 1)
  let dest ← refCity inst b
  pure (s + dist src dest)

/-- `optimal_value`, pyconcorde_solver.py:18-27 -/
def refValue (dist : ℚ × ℚ → ℚ × ℚ → ℚ) (inst : List ℚ × List ℚ) (tour : List Nat) : Res ℚ :=
  forList (refStep dist inst tour) (List.range tour.length) 0

end Verif
