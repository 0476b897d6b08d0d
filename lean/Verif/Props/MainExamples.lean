import Verif.Props.Main
import Verif.Props.ReaderLib
import Verif.Props.SearchExamples

/-!
# C48, C49, C57 meet a non-trivial case
-/
namespace Verif
open Verif.Spec
set_option autoImplicit false

namespace Ex

/-- a number parser: one digit -/
def num (s : List Char) : Option (ℚ × List Char) := match s with
  | ch :: r => if ch.isDigit then some (((ch.toNat - 48 : Nat) : ℚ), r) else none
  | [] => none

/-- a number format for whole numbers below 10 -/
def fmt (x : ℚ) : List Char := [(x.num.toNat + 48 |> Char.ofNat)]

theorem digit {t : List Char} {x : ℚ} {ch : Char} (h : t = [ch]) (hd : ch.isDigit = true) (hx : ((ch.toNat - 48 : Nat) : ℚ) = x) (hs : isSpace ch = false)
    (hc : ch ≠ ';' ∧ ch ≠ '\n' ∧ ch ≠ '\x00') : ReadsAs num t x := by
  subst h
  refine ⟨fun r => ?_, fun r => ?_, ?_, ⟨ch, [], rfl, hs⟩⟩
  · show (if ch.isDigit then some (((ch.toNat - 48 : Nat) : ℚ), _) else none) = _
    rw [if_pos hd, hx]; rfl
  · show (if ch.isDigit then some (((ch.toNat - 48 : Nat) : ℚ), _) else none) = _
    rw [if_pos hd, hx]; rfl
  · intro ch' h'
    obtain rfl := List.mem_singleton.1 h'
    exact hc

theorem reads : ReadsAs num (fmt 0) 0 ∧ ReadsAs num (fmt 3) 3 ∧ ReadsAs num (fmt 4) 4 ∧ ReadsAs num (fmt 5) 5 := by
  refine ⟨digit (ch := '0') (by decide +kernel) (by decide) (by decide +kernel) (by decide) (by decide),
    digit (ch := '3') (by decide +kernel) (by decide) (by decide +kernel) (by decide) (by decide),
    digit (ch := '4') (by decide +kernel) (by decide) (by decide +kernel) (by decide) (by decide),
    digit (ch := '5') (by decide +kernel) (by decide) (by decide +kernel) (by decide) (by decide)⟩

/-- the corners of a rectangle, crosswise -/
def rect : List (ℚ × ℚ) := [(0, 0), (3, 4), (3, 0), (0, 4)]

/-- the distance of two corners -/
def rectDist (a b : ℚ × ℚ) : ℚ := if a.1 = b.1 then (if a.2 = b.2 then 0 else 4) else if a.2 = b.2 then 3 else 5

def c4 : Cfg := ⟨4, false, 1 / 1000, 0, 0, 0⟩

theorem rect_classic : ReadsAs num ['0'] 0 ∧ (∀ q ∈ rect, ReadsAs num (fmt q.1) q.1 ∧ ReadsAs num (fmt q.2) q.2) ∧
    (∀ i < rect.length, ∀ j < rect.length, ReadsAs num (fmt (adjacencyMatrix rectDist rect i j)) (adjacencyMatrix rectDist rect i j)) := by
  obtain ⟨r0, r3, r4, r5⟩ := reads
  refine ⟨r0, ?_, ?_⟩
  · intro q hq
    simp only [rect, List.mem_cons, List.not_mem_nil, or_false] at hq
    rcases hq with rfl | rfl | rfl | rfl
    · exact ⟨r0, r0⟩
    · exact ⟨r3, r4⟩
    · exact ⟨r3, r0⟩
    · exact ⟨r0, r4⟩
  · have h : ∀ i < 4, ∀ j < 4, adjacencyMatrix rectDist rect i j = 0 ∨ adjacencyMatrix rectDist rect i j = 3 ∨ adjacencyMatrix rectDist rect i j = 4 ∨ adjacencyMatrix rectDist rect i j = 5 := by
      decide +kernel
    intro i hi j hj
    rcases h i hi j hj with e | e | e | e <;> rw [e] <;> assumption

end Ex

/-- C48, C49 (classic), C57: the file for the four corners of a rectangle; the program prints the tour `0, 2, 1, 3` around it, of length 14. -/
example : ∃ (fmt : ℚ → List Char) (p0 p' : Problem), ReadsAs Ex.num ['0'] 0 ∧ (∀ q ∈ Ex.rect, ReadsAs Ex.num (fmt q.1) q.1 ∧ ReadsAs Ex.num (fmt q.2) q.2) ∧
    (∀ i < Ex.rect.length, ∀ j < Ex.rect.length, ReadsAs Ex.num (fmt (adjacencyMatrix Ex.rectDist Ex.rect i j)) (adjacencyMatrix Ex.rectDist Ex.rect i j)) ∧
    Ex.rect.Nodup ∧ (∀ a ∈ Ex.rect, ∀ b ∈ Ex.rect, a ≠ b → 0 < Ex.rectDist a b ∧ Ex.rectDist a b < FLT_MAX) ∧ (∀ a b, Ex.rectDist a b = Ex.rectDist b a) ∧
    Ex.rect.length = Ex.c4.maxV ∧ (∀ u v, (p0.graph.mat u v).weight = 0) ∧ p0.cand < Ex.c4.maxV ∧
    classicText fmt Ex.rect (adjacencyMatrix Ex.rectDist Ex.rect) =
      "(0, 0);(3, 4);(3, 0);(0, 4)\n(0, 0);(5, 0);(3, 0);(4, 0);\n(5, 0);(0, 0);(4, 0);(3, 0);\n(3, 0);(4, 0);(0, 0);(5, 0);\n(4, 0);(3, 0);(5, 0);(0, 0);\n".toList ∧
    mainRun Ex.c4 Ex.num Ex.env 10 p0 (classicText fmt Ex.rect (adjacencyMatrix Ex.rectDist Ex.rect)) = .ok (p', [(0, 2), (2, 1), (1, 3), (3, 0)]) ∧ p'.best.value = 14 ∧ p'.interrupted = false := by
  have h : Ex.okAnd (mainRun Ex.c4 Ex.num Ex.env 10 (Ex.probN Ex.mem) (classicText Ex.fmt Ex.rect (adjacencyMatrix Ex.rectDist Ex.rect))) (fun r =>
      decide (r.2 = [(0, 2), (2, 1), (1, 3), (3, 0)]) && (decide (r.1.best.value = 14) && !r.1.interrupted)) = true := by decide +kernel
  obtain ⟨⟨p', out⟩, e, h⟩ := Ex.okAnd_elim h
  simp only [Bool.and_eq_true, decide_eq_true_eq, Bool.not_eq_true'] at h
  obtain ⟨rfl, hv, hi⟩ := h
  obtain ⟨h1, h2, h3⟩ := Ex.rect_classic
  refine ⟨Ex.fmt, Ex.probN Ex.mem, p', h1, h2, h3, by decide +kernel, by decide +kernel, ?_, rfl, fun _ _ => rfl, by decide, by decide +kernel, e, hv, hi⟩
  intro a b
  unfold Ex.rectDist
  simp only [eq_comm (a := a.1), eq_comm (a := a.2)]

/-- C48: the file has the form that the reader expects, in hybrid mode too -/
example : ∃ text w pr, CsvFile Ex.num text Ex.rect w pr ∧ SolverInput { Ex.c4 with hybrid := true } Ex.rect.length w pr := by
  obtain ⟨h1, h2, h3⟩ := Ex.rect_classic
  have := csvText_file (num := Ex.num) (xs := Ex.rect) (ct := Ex.rect.map fun q => (Ex.fmt q.1, Ex.fmt q.2)) (rt := fun i j => (Ex.fmt (adjacencyMatrix Ex.rectDist Ex.rect i j), ['0']))
      (w := adjacencyMatrix Ex.rectDist Ex.rect) (pr := fun _ _ => 0) (by simp) (by
        intro i hi
        simp only [List.getElem_map]
        exact h2 _ (List.getElem_mem _)) (fun i hi j hj => ⟨h3 i hi j hj, h1⟩)
  refine ⟨_, _, _, this, rfl, by decide, by decide, fun i _ j _ => adjacencyMatrix_symm _ _ i j, ?_, fun _ _ _ _ _ => le_refl _, by norm_num [Ex.c4]⟩
  decide +kernel

/-- C49 (hybrid): a text for every entry -/
example : ∃ (s : Nat → Nat → List Char × List Char) (w pr : Nat → Nat → ℚ), (∀ i < Ex.rect.length, ∀ j < Ex.rect.length, ReadsAs Ex.num (s i j).1 (w i j) ∧ ReadsAs Ex.num (s i j).2 (pr i j)) ∧
    (∀ i < Ex.rect.length, ∀ j < Ex.rect.length, 0 < w i j → 0 < w j i) ∧ w 0 1 = 5 ∧ pr 0 1 = 3 := by
  refine ⟨fun i j => (Ex.fmt (adjacencyMatrix Ex.rectDist Ex.rect i j), ['3']), adjacencyMatrix Ex.rectDist Ex.rect, fun _ _ => 3, fun i hi j hj => ⟨Ex.rect_classic.2.2 i hi j hj, ?_⟩, ?_, by decide +kernel, rfl⟩
  · exact Ex.reads.2.1
  · intro i _ j _ h; rw [adjacencyMatrix_symm]; exact h

end Verif
