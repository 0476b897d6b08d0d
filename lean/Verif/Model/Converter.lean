import Verif.Model.Driver

/-!
# Model of the converter from `.tsp` to `.dat`, `converter_tsp_to_dat.py`

`convert` (which leaves the reading to the library tsplib95) is modelled from the matrix on. Texts are lists of characters; `float`, the text of a float and `np.sqrt` are parameters.
-/
namespace Verif
set_option autoImplicit false

/-- `line.split()`: the pieces between white space -/
def pySplit (l : List Char) : List (List Char) := (l.splitOnP isSpace).filter (· ≠ [])

/-- the loop over the lines, converter_tsp_to_dat.py:86-94; the Boolean is `find_coord`; a coordinate that is not a number is a `ValueError` -/
def tspCities (float : List Char → Option ℚ) : List (List Char) → Bool → Res (List (ℚ × ℚ))
  | [], _ => .ok []
  | l :: ls, found =>
    if strip l = "NODE_COORD_SECTION".toList then tspCities float ls true
    else if found then
      match pySplit l with
      | [_, a, b] =>
        match float a, float b with
        | some x, some y => do let r ← tspCities float ls found; pure ((x, y) :: r)
        | _, _ => .error .null
      | _ => tspCities float ls found
    else tspCities float ls found

/-- `distance_matrix`, converter_tsp_to_dat.py:97-100 -/
def tspMatrix (sqrt : ℚ → ℚ) (xs : List (ℚ × ℚ)) : List (List ℚ) :=
  xs.map fun p => xs.map fun q => sqrt ((p.1 - q.1) ^ 2 + (p.2 - q.2) ^ 2)

/-- the elements of a line, converter_tsp_to_dat.py:64-70 and 108-113; the second argument is `index` -/
def datCells (fmt : ℚ → List Char) (n : Nat) : Nat → List ℚ → List Char
  | _, [] => []
  | index, e :: es => (if index + 1 = n then fmt e else fmt e ++ ", ".toList) ++ datCells fmt n (index + 1) es

/-- the text of the `.dat` file, converter_tsp_to_dat.py:57-72 and 102-116; `digits` is the text of an int -/
def datText (digits : Nat → List Char) (fmt : ℚ → List Char) (m : List (List ℚ)) : List Char :=
  "n=".toList ++ digits m.length ++ ";\n".toList ++ "Cost=[".toList ++ (m.flatMap fun line => "[".toList ++ datCells fmt m.length 0 line ++ "]\n".toList) ++ "];".toList

/-- `convert_custom_euclidean`, converter_tsp_to_dat.py:77-116: the text of the `.dat` file -/
def convertEuclidean (float : List Char → Option ℚ) (sqrt : ℚ → ℚ) (digits : Nat → List Char) (fmt : ℚ → List Char) (text : List Char) : Res (List Char) := do
  let xs ← tspCities float (fileLines text) false
  pure (datText digits fmt (tspMatrix sqrt xs))

end Verif
