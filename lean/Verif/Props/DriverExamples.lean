import Verif.Props.Driver2
import Verif.Props.Driver3
import Verif.Props.MainExamples

/-!
# C54, C55, C58 – C61 meet non-trivial cases
-/
namespace Verif
open Verif.Spec
set_option autoImplicit false

namespace Ex

/-- Python's `int`, for one or two digits -/
def int (s : List Char) : Option Int := match s with
  | [a] => if a.isDigit then some ((a.toNat - 48 : Nat) : Int) else none
  | [a, b] => if a.isDigit ∧ b.isDigit then some ((10 * (a.toNat - 48) + (b.toNat - 48) : Nat) : Int) else none
  | _ => none

/-- Python's `float`, for one digit -/
def float (s : List Char) : Option ℚ := match s with
  | [a] => if a.isDigit then some ((a.toNat - 48 : Nat) : ℚ) else none
  | _ => none

theorem float_digit {ch : Char} {x : ℚ} (h : float [ch] = some x) (h1 : isSpace ch = false) (h2 : ch ≠ 'o') : FloatText float [ch] x := by
  refine ⟨h, by simp, ?_⟩
  intro d hd
  obtain rfl := List.mem_singleton.1 hd
  exact ⟨h1, h2⟩

end Ex

/-- C55: the range `0-12` -/
example : '-' ∉ ['0'] ∧ '-' ∉ ['1', '2'] ∧ Ex.int ['0'] = some ((0 : Nat) : Int) ∧ Ex.int ['1', '2'] = some ((12 : Nat) : Int) ∧
    instanceRange Ex.int "0-12".toList = .ok [1, 2, 3, 4, 5, 6, 7, 8, 9, 10, 11, 12] ∧ instanceRange Ex.int "3".toList = .ok [1, 2, 3] ∧ instanceRange Ex.int "10-11".toList = .ok [10, 11] := by
  refine ⟨by decide, by decide, rfl, rfl, rfl, rfl, rfl⟩

/-- C61: the line of the rectangle, with a tour -/
example : ∃ (ct : List (List Char × List Char)) (rest : List Char), ct.length = Ex.rect.length ∧ ct ≠ [] ∧
    (∀ i (h1 : i < ct.length) (h2 : i < Ex.rect.length), FloatText Ex.float ct[i].1 Ex.rect[i].1 ∧ FloatText Ex.float ct[i].2 Ex.rect[i].2) ∧
    [' '].intercalate (coordTexts ct) ++ " output".toList ++ rest = "0 0 3 4 3 0 0 4 output 1 3 2 4 1\n".toList ∧ lineCities Ex.float "0 0 3 4 3 0 0 4 output 1 3 2 4 1\n".toList = .ok Ex.rect := by
  have f0 : FloatText Ex.float ['0'] 0 := Ex.float_digit (by decide +kernel) (by decide) (by decide)
  have f3 : FloatText Ex.float ['3'] 3 := Ex.float_digit (by decide +kernel) (by decide) (by decide)
  have f4 : FloatText Ex.float ['4'] 4 := Ex.float_digit (by decide +kernel) (by decide) (by decide)
  have hall : ∀ i (h1 : i < [(['0'], ['0']), (['3'], ['4']), (['3'], ['0']), (['0'], ['4'])].length) (h2 : i < Ex.rect.length),
      FloatText Ex.float [(['0'], ['0']), (['3'], ['4']), (['3'], ['0']), (['0'], ['4'])][i].1 Ex.rect[i].1 ∧ FloatText Ex.float [(['0'], ['0']), (['3'], ['4']), (['3'], ['0']), (['0'], ['4'])][i].2 Ex.rect[i].2 := by
    intro i h1 h2
    match i, h1 with
    | 0, _ => exact ⟨f0, f0⟩
    | 1, _ => exact ⟨f3, f4⟩
    | 2, _ => exact ⟨f3, f0⟩
    | 3, _ => exact ⟨f0, f4⟩
    | _ + 4, h => simp at h
  refine ⟨[(['0'], ['0']), (['3'], ['4']), (['3'], ['0']), (['0'], ['4'])], " 1 3 2 4 1\n".toList, rfl, by simp, hall, rfl, ?_⟩
  have := (C61_line (float := Ex.float) rfl (by simp) hall " 1 3 2 4 1\n".toList).1
  exact this

/-- C61: three coordinates are rejected, and so is a text that is not a number -/
example : lineCities Ex.float "0 0 3".toList = .error .oob ∧ lineCities Ex.float "0 0 3 x".toList = .error .null := by
  constructor <;> rfl

/-- C59, C58: four cities, a model of size two with the medoids 30 and 10: the file has the cities 30, 10, 20, 40, which the result file lists as 10, 20, 30, 40. -/
example : ∃ (m : List (List (Nat × Nat))) (medoids graph : List Nat), m.length = medoids.length ∧ (∀ row ∈ m, row.length = medoids.length) ∧ graph.Nodup ∧ medoids.Nodup ∧ (∀ p ∈ medoids, p ∈ graph) ∧
    growMatrix (fun p q => (max p q - min p q, 0)) (0, 0) m medoids graph =
      ([[(0, 1), (20, 7), (10, 0), (10, 0)], [(20, 9), (0, 1), (10, 0), (30, 0)], [(10, 0), (10, 0), (0, 0), (20, 0)], [(10, 0), (30, 0), (20, 0), (0, 0)]], [30, 10, 20, 40]) ∧
    listedCities (writtenCities graph.length 2 (networkCities graph.length 2 graph [] medoids) graph) = [(0, 30), (1, 10), (2, 20), (3, 40)] ∧ listedCities graph = [(0, 10), (1, 20), (2, 30), (3, 40)] ∧
    medoids ≠ graph.take medoids.length := by
  refine ⟨[[(0, 1), (20, 7)], [(20, 9), (0, 1)]], [30, 10], [10, 20, 30, 40], rfl, by decide, by decide, by decide, by decide, by decide, by decide, by decide, by decide⟩

/-- C58: three cities, a model of size five -/
example : listedCities (writtenCities [7, 8, 9].length 5 (networkCities [7, 8, 9].length 5 [7, 8, 9] [7, 8] []) [7, 8, 9]) = [(0, 7), (1, 8), (2, 9)] := by decide

namespace Ex

/-- the texts that the network might give for the corners of the rectangle and dummy copies of the first three corners, model size 7: rectangle distances, and probabilities 3 for the pair 0, 1 and 4, 5 for its
dummy copies -/
def net (i j : Nat) : List Char × List Char :=
  (fmt (rectDist (rect.getD (i % 4) (0, 0)) (rect.getD (j % 4) (0, 0))), if i = 0 ∧ j = 1 then ['3'] else if i = 0 ∧ j = 5 then ['4'] else if i = 1 ∧ j = 4 then ['5'] else ['0'])

end Ex

/-- C60: the four corners, padded with three dummies; the first line has the probability of the dummy copy for the pair 0, 1. -/
example : ∃ (ct : List (List Char × List Char)) (w pr : Nat → Nat → ℚ), Ex.rect.length ≤ Ex.c4.maxV ∧ Ex.rect.length ≤ 362 ∧ 0 < Ex.rect.length ∧ Ex.rect.length ≤ 7 ∧ 7 ≤ 2 * Ex.rect.length ∧
    ∃ hc : ct.length = Ex.rect.length, (∀ i (hi : i < ct.length), ReadsAs Ex.num ct[i].1 (Ex.rect[i]'(hc ▸ hi)).1 ∧ ReadsAs Ex.num ct[i].2 (Ex.rect[i]'(hc ▸ hi)).2) ∧
    (∀ i < Ex.rect.length, ∀ j < Ex.rect.length, ReadsAs Ex.num (Ex.net i j).1 (w i j) ∧ ReadsAs Ex.num (foldedProb textGt Ex.rect.length 7 Ex.net i j) (pr i j)) ∧
    pr 0 1 = 4 ∧ pr 1 0 = 5 ∧
    ∃ l, foldDummies textGt Ex.rect.length 7 (fun k => Ex.net (k / 7) (k % 7)) = .ok l ∧
      adjacencyText 4 ct l = "(0, 0);(3, 4);(3, 0);(0, 4)\n(0, 0);(5, 4);(3, 0);(4, 0);\n(5, 5);(0, 0);(4, 0);(3, 0);\n(3, 0);(4, 0);(0, 0);(5, 0);\n(4, 0);(3, 0);(5, 0);(0, 0);\n".toList := by
  obtain ⟨r0, r3, r4, r5⟩ := Ex.reads
  refine ⟨[(['0'], ['0']), (['3'], ['4']), (['3'], ['0']), (['0'], ['4'])], fun i j => Ex.rectDist (Ex.rect.getD (i % 4) (0, 0)) (Ex.rect.getD (j % 4) (0, 0)),
    fun i j => if i = 0 ∧ j = 1 then 4 else if i = 1 ∧ j = 0 then 5 else 0, by decide, by decide, by decide, by decide, by decide, rfl, ?_, ?_, rfl, rfl,
    _, C54_fold_partial (by decide) (by decide) (by decide), by decide +kernel⟩
  · intro i h1
    match i, h1 with
    | 0, _ => exact ⟨r0, r0⟩
    | 1, _ => exact ⟨r3, r4⟩
    | 2, _ => exact ⟨r3, r0⟩
    | 3, _ => exact ⟨r0, r4⟩
    | _ + 4, h => simp at h
  · intro i hi j hj
    have hi4 : i < 4 := hi
    have hj4 : j < 4 := hj
    refine ⟨?_, ?_⟩
    · have h : ∀ i < 4, ∀ j < 4, Ex.rectDist (Ex.rect.getD (i % 4) (0, 0)) (Ex.rect.getD (j % 4) (0, 0)) = 0 ∨ Ex.rectDist (Ex.rect.getD (i % 4) (0, 0)) (Ex.rect.getD (j % 4) (0, 0)) = 3 ∨
          Ex.rectDist (Ex.rect.getD (i % 4) (0, 0)) (Ex.rect.getD (j % 4) (0, 0)) = 4 ∨ Ex.rectDist (Ex.rect.getD (i % 4) (0, 0)) (Ex.rect.getD (j % 4) (0, 0)) = 5 := by
        decide +kernel
      show ReadsAs Ex.num (Ex.fmt (Ex.rectDist (Ex.rect.getD (i % 4) (0, 0)) (Ex.rect.getD (j % 4) (0, 0)))) (Ex.rectDist (Ex.rect.getD (i % 4) (0, 0)) (Ex.rect.getD (j % 4) (0, 0)))
      rcases h i hi4 j hj4 with e | e | e | e <;> rw [e] <;> assumption
    · have h : ∀ i < 4, ∀ j < 4, foldedProb textGt 4 7 Ex.net i j = if i = 0 ∧ j = 1 then ['4'] else if i = 1 ∧ j = 0 then ['5'] else ['0'] := by decide +kernel
      rw [show Ex.rect.length = 4 from rfl, h i hi4 j hj4]
      simp only
      split
      · exact r4
      · split
        · exact r5
        · exact r0

/-- C60: the corners of the rectangle with a model of size two and the medoids 2 and 0: the hypotheses hold, and the file is as expected. -/
example : ∃ (m : List (List (List Char × List Char))) (cell : ℚ × ℚ → ℚ × ℚ → List Char × List Char) (wm pm : Nat → Nat → ℚ), Ex.rect.length ≤ Ex.c4.maxV ∧ Ex.rect.length ≤ 362 ∧ 0 < Ex.rect.length ∧
    m.length = [((3 : ℚ), (0 : ℚ)), (0, 0)].length ∧ (∀ row ∈ m, row.length = [((3 : ℚ), (0 : ℚ)), (0, 0)].length) ∧ Ex.rect.Nodup ∧ [((3 : ℚ), (0 : ℚ)), (0, 0)].Nodup ∧ (∀ p ∈ [((3 : ℚ), (0 : ℚ)), (0, 0)], p ∈ Ex.rect) ∧
    (∀ q ∈ Ex.rect, ReadsAs Ex.num (Ex.fmt q.1) q.1 ∧ ReadsAs Ex.num (Ex.fmt q.2) q.2) ∧
    (∀ p ∈ Ex.rect, ∀ q ∈ Ex.rect, ReadsAs Ex.num (cell p q).1 (Ex.rectDist p q) ∧ ReadsAs Ex.num (cell p q).2 0) ∧
    (∀ i (hi : i < m.length) j (hj : j < m[i].length), ReadsAs Ex.num m[i][j].1 (wm i j) ∧ ReadsAs Ex.num m[i][j].2 (pm i j)) ∧
    adjacencyText 4 ((growMatrix cell (['0'], ['0']) m [(3, 0), (0, 0)] Ex.rect).2.map fun q => (Ex.fmt q.1, Ex.fmt q.2)) (growMatrix cell (['0'], ['0']) m [(3, 0), (0, 0)] Ex.rect).1.flatten =
      "(3, 0);(0, 0);(3, 4);(0, 4)\n(0, 0);(3, 5);(4, 0);(5, 0);\n(3, 4);(0, 0);(5, 0);(4, 0);\n(4, 0);(5, 0);(0, 0);(3, 0);\n(5, 0);(4, 0);(3, 0);(0, 0);\n".toList := by
  obtain ⟨r0, r3, r4, r5⟩ := Ex.reads
  obtain ⟨-, hx, -⟩ := Ex.rect_classic
  refine ⟨[[(['0'], ['0']), (['3'], ['5'])], [(['3'], ['4']), (['0'], ['0'])]], fun p q => (Ex.fmt (Ex.rectDist p q), ['0']), fun i j => if i = j then 0 else 3,
    fun i j => if i = j then 0 else if i = 0 then 5 else 4, by decide, by decide, by decide, rfl, by decide, by decide +kernel, by decide +kernel, by decide +kernel, hx, ?_, ?_, by decide +kernel⟩
  · have h : ∀ p ∈ Ex.rect, ∀ q ∈ Ex.rect, Ex.rectDist p q = 0 ∨ Ex.rectDist p q = 3 ∨ Ex.rectDist p q = 4 ∨ Ex.rectDist p q = 5 := by decide +kernel
    intro p hp q hq
    refine ⟨?_, r0⟩
    show ReadsAs Ex.num (Ex.fmt (Ex.rectDist p q)) (Ex.rectDist p q)
    rcases h p hp q hq with e | e | e | e <;> rw [e] <;> assumption
  · intro i hi j hj
    match i, hi, j, hj with
    | 0, _, 0, _ => exact ⟨r0, r0⟩
    | 0, _, 1, _ => exact ⟨r3, r5⟩
    | 1, _, 0, _ => exact ⟨r3, r4⟩
    | 1, _, 1, _ => exact ⟨r0, r0⟩

end Verif
