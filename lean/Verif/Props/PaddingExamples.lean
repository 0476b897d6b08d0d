import Verif.Props.PaddingFails
import Mathlib.Data.Rat.Encodable

/-!
# C99 meets a non-trivial case
-/
namespace Verif
open Verif.Spec
set_option autoImplicit false

namespace Ex

/-- some text for each number -/
def tally (x : ℚ) : List Char := List.replicate (Encodable.encode x + 1) '1'
/-- the number of a text, with or without a newline -/
def untally (t : List Char) : Option ℚ := Encodable.decode ((t.filter (· ≠ '\n')).length - 1)

theorem tally_text (x : ℚ) : FloatText untally (tally x) x := by
  refine ⟨?_, by simp [tally], ?_⟩
  · unfold untally tally
    rw [List.filter_replicate, if_pos (by decide), List.length_replicate, Nat.add_sub_cancel, Encodable.encodek]
  · intro ch h
    rw [List.eq_of_mem_replicate h]
    decide

theorem tally_cities : ∀ xs : List (ℚ × ℚ), CityTexts untally (xs.map fun p => (tally p.1, tally p.2)) xs
  | [] => .nil
  | _ :: xs => .cons ⟨tally_text _, tally_text _⟩ (tally_cities xs)

/-- three cities in the unit square -/
def three : List (ℚ × ℚ) := [(0, 0), (1, 0), (1 / 2, 1)]
/-- three cities with whole coordinates -/
def whole : List (ℚ × ℚ) := [(((200 : ℤ) : ℚ), ((-150 : ℤ) : ℚ)), (1, 2), (3, 4)]

def texts (xs : List (ℚ × ℚ)) : List (List Char × List Char) := xs.map fun p => (tally p.1, tally p.2)

theorem three_small : ∀ p ∈ three, |p.1| ≤ 3 ∧ |p.2| ≤ 3 := by
  intro p hp
  simp only [three, List.mem_cons, List.not_mem_nil, or_false] at hp
  rcases hp with rfl | rfl | rfl <;> norm_num [abs_le]

/-- every draw again and again -/
def drawn (i : Nat) : Draw := allDraws[i % 256]'(by rw [allDraws_nodup.2]; exact Nat.mod_lt _ (by norm_num))

theorem drawn_possible (i : Nat) : PossibleDraw (drawn i) := allDraws_possible _ (List.getElem_mem _)

theorem mem_allDraws {d : Draw} (h : PossibleDraw d) : d ∈ allDraws := by
  obtain ⟨v1, v2, s1, s2⟩ := d
  obtain ⟨h1, h2, h3, h4⟩ := h
  dsimp only at h1 h2 h3 h4
  unfold allDraws
  simp only [List.mem_flatMap, List.mem_range'_1, List.mem_cons, List.not_mem_nil, or_false]
  refine ⟨v1, by omega, v2, by omega, ?_⟩
  rcases h3 with rfl | rfl <;> rcases h4 with rfl | rfl <;> simp

theorem drawn_all {d : Draw} (h : PossibleDraw d) (N : Nat) : ∃ i, N ≤ i ∧ drawn i = d := by
  obtain ⟨k, hk, e⟩ := List.getElem_of_mem (mem_allDraws h)
  rw [allDraws_nodup.2] at hk
  refine ⟨N * 256 + k, by omega, ?_⟩
  unfold drawn
  have : (N * 256 + k) % 256 = k := by omega
  simp only [this]
  exact e

/-- the numbers 0 and 1, also with a newline -/
def bit (t : List Char) : Option ℚ := if t = ['0'] ∨ t = ['0', '\n'] then some 0 else if t = ['1'] ∨ t = ['1', '\n'] then some 1 else none

theorem bit_cities : CityTexts bit [(['0'], ['1'])] [(0, 1)] :=
  .cons ⟨⟨rfl, by decide, by decide⟩, ⟨rfl, by decide, by decide⟩⟩ .nil

end Ex

/-- C99 on the example, with the arithmetic of the machine: three cities are padded to twenty -/
example : ∃ N out ds, @padLine nearest Ex.untally Ex.tally Ex.dec 3 20 ([' '].intercalate (coordTexts (Ex.texts Ex.three)) ++ " output".toList ++ " 1 2 3 1\n".toList) ((List.range N).map Ex.drawn) = .ok (some out) ∧
    Dummies Ex.three 17 ds ∧ lineCities Ex.untally out = .ok (Ex.three ++ ds) := by
  obtain ⟨N, out, e⟩ := @C99_ends_partial nearest Ex.untally Ex.tally Ex.dec _ _ (Ex.tally_cities Ex.three) (by decide) (fun _ => Ex.tally_text _) Ex.three_small 20 (by decide) (by decide) " 1 2 3 1\n".toList Ex.drawn Ex.drawn_possible fun _ h => Ex.drawn_all h
  obtain ⟨o, e', h⟩ := @C99_padded_partial nearest Ex.untally Ex.undec Ex.tally Ex.dec _ _ (Ex.tally_cities Ex.three) Ex.dec_texts (by decide) (fun _ => Ex.tally_text _) Ex.three_small 20 (by decide) " 1 2 3 1\n".toList ((List.range N).map Ex.drawn)
    (by intro d hd; obtain ⟨i, -, rfl⟩ := List.mem_map.1 hd; exact Ex.drawn_possible i) (fun _ _ => 0) none
  rw [e] at e'
  cases e'
  obtain ⟨dt, ds, h1, -, -, h4, -⟩ := h out rfl
  exact ⟨N, out, ds, e, h1, h4⟩

/-- the failure on the example: it is never padded -/
example (N : Nat) : @padLine nearest Ex.untally Ex.tally Ex.dec 3 20 ([' '].intercalate (coordTexts (Ex.texts Ex.whole)) ++ " output".toList ++ " 1 2 3 1\n".toList) ((List.range N).map Ex.drawn) = .ok none :=
  C99_fails (Ex.tally_cities Ex.whole) (i := 200) (j := -150) rfl (by norm_num) (by norm_num) (m := 20) (by decide) _
    (by intro d hd; obtain ⟨i, -, rfl⟩ := List.mem_map.1 hd; exact Ex.drawn_possible i)

/-- a line without the word: the dummy is not in the first line of the file -/
example : ∃ out more, padLine Ex.bit (fun _ => ['2']) (fun k => if k = 1 then ['1'] else ['2']) 1 2 (['0', ' ', '1'] ++ ['\n']) [⟨3, 5, 1, -1⟩] = .ok (some out) ∧ out = ['0', ' ', '1'] ++ ['\n'] ++ more := by
  have key : Ex.okAnd (padLine Ex.bit (fun _ => ['2']) (fun k => if k = 1 then ['1'] else ['2']) 1 2 (['0', ' ', '1'] ++ ['\n']) [⟨3, 5, 1, -1⟩]) Option.isSome = true := by decide +kernel
  obtain ⟨o, e, ho⟩ := Ex.okAnd_elim key
  obtain ⟨out, rfl⟩ := Option.isSome_iff_exists.1 ho
  obtain ⟨more, h, -⟩ := C99_fails_plain (int := Ex.undec) Ex.bit_cities (by decide) e (fun _ _ => 0) none
  exact ⟨out, more, e, h⟩

end Verif
