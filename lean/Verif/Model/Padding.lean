import Verif.Model.Driver

/-!
# Model of the padding with dummy cities, `add_dummy_cities`, main.py:196-251

The draws of NumPy's random generator are the input of the model. The sums are rounded (`fl`); Python's `str` and `float` are parameters.
-/
namespace Verif
open Verif.Spec
set_option autoImplicit false

/-- the result of `np.random.randint(1, 9, 2)` and `np.random.choice([-1, 1], 2)`, main.py:228-229 -/
structure Draw where
  v1 : Nat
  v2 : Nat
  s1 : Int
  s2 : Int
  deriving DecidableEq

section
variable [Rounding]

/-- `a + sign * value * 0.000000000000001`, main.py:230-231: the product of the two integers is exact -/
def movedBy (a : ℚ) (s : Int) (v : Nat) : ℚ := fl (a + fl (((s * (v : Int) : Int) : ℚ) * fl (1 / 10 ^ 15)))

/-- `graph`, `graph_str`, `rr_index` and the number of dummies that are missing -/
structure Pad where
  graph : List (ℚ × ℚ)
  text : List Char
  rr : Nat
  left : Nat

/-- one round of the `while` loop, main.py:227-233, and, if it is the last one for this dummy, the rest of the round of the `for` loop, main.py:235-237; nothing if no dummy is missing -/
def padStep (str : ℚ → List Char) (n : Nat) (s : Pad) (d : Draw) : Res Pad :=
  if s.left = 0 then .ok s
  else match s.graph[s.rr]? with
  | none => .error .oob
  | some a =>
    let p := (movedBy a.1 d.s1 d.v1, movedBy a.2 d.s2 d.v2)
    if p ∈ s.graph then .ok s
    else .ok { graph := s.graph ++ [p], text := s.text ++ [' '] ++ str p.1 ++ [' '] ++ str p.2, rr := (s.rr + 1) % n, left := s.left - 1 }

/-- `add_dummy_cities`, main.py:206-250, for the first line of the file: the text that is written when the draws `draws` are enough for all dummies, and nothing if the program is still drawing after them.
(`"1"` is `str(1)`.) -/
def padLine (float : List Char → Option ℚ) (str : ℚ → List Char) (digits : Nat → List Char) (n m : Nat) (line : List Char) (draws : List Draw) : Res (Option (List Char)) := do
  let t := before " output".toList line
  let f ← floats float (t.splitOn ' ')
  let g ← pairUp f
  let s ← forList (padStep str n) draws { graph := g, text := t, rr := 0, left := m - n }
  if s.left = 0 then pure (some (s.text ++ (" output ".toList ++ (((List.range m).flatMap fun i => digits (i + 1) ++ [' ']) ++ digits 1))))
  else pure none

end

end Verif
