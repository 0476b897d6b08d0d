import Verif.Model.Converter
import Verif.Props.Mtz
import Mathlib.Tactic.Ring
import Mathlib.Tactic.FinCases
import Mathlib.Data.List.TakeWhile

/-!
# C68: the converter from `.tsp` to `.dat`
-/
namespace Verif
open Verif.Spec
set_option autoImplicit false

/-- a `.dat` file for the CPLEX program: `n`, and a matrix given by its rows, the elements of a row being separated by commas -/
def Spec.datFile (n : List Char) (rows : List (List (List Char))) : List Char :=
  "n=".toList ++ n ++ ";\nCost=[".toList ++ (rows.flatMap fun r => "[".toList ++ ", ".toList.intercalate r ++ "]\n".toList) ++ "];".toList

/-- the line is the header of the coordinates, up to white space around it -/
def Spec.IsSection (l : List Char) : Prop := ∃ a b, l = a ++ "NODE_COORD_SECTION".toList ++ b ∧ (∀ ch ∈ a, isSpace ch = true) ∧ ∀ ch ∈ b, isSpace ch = true

/-- the fields of a line: it is made of the non-empty texts `fs` without white space, with white space before, between and after them -/
inductive Spec.Fields : List Char → List (List Char) → Prop where
  | nil {s : List Char} (hs : ∀ ch ∈ s, isSpace ch = true) : Fields s []
  | last {s f : List Char} (hs : ∀ ch ∈ s, isSpace ch = true) (hf : f ≠ []) (hc : ∀ ch ∈ f, isSpace ch = false) : Fields (s ++ f) [f]
  | cons {s f rest : List Char} {sp : Char} {fs : List (List Char)} (hs : ∀ ch ∈ s, isSpace ch = true) (hf : f ≠ []) (hc : ∀ ch ∈ f, isSpace ch = false) (hsp : isSpace sp = true)
      (hr : Fields rest fs) : Fields (s ++ f ++ sp :: rest) (f :: fs)

theorem splitOnP_space (s rest : List Char) (hs : ∀ ch ∈ s, isSpace ch = true) :
    ((s ++ rest).splitOnP isSpace).filter (· ≠ []) = (rest.splitOnP isSpace).filter (· ≠ []) := by
  induction s with
  | nil => rfl
  | cons a s ih =>
    rw [List.cons_append, List.splitOnP_cons, if_pos (hs a (by simp)), List.filter_cons_of_neg (by simp)]
    exact ih fun ch h => hs ch (by simp [h])

theorem pySplit_fields {l : List Char} {fs : List (List Char)} (h : Fields l fs) : pySplit l = fs := by
  unfold pySplit
  induction h with
  | @nil s hs =>
    have := splitOnP_space s [] hs
    rw [List.append_nil] at this
    rw [this]
    simp [List.splitOnP_nil]
  | @last s f hs hf hc =>
    rw [splitOnP_space s f hs, List.splitOnP_eq_single (by intro ch h; rw [hc ch h])]
    simp [hf]
  | @cons s f rest sp fs hs hf hc hsp hr ih =>
    rw [List.append_assoc, splitOnP_space s _ hs, List.splitOnP_append_cons_of_forall_mem (by intro ch h; rw [hc ch h]) _ hsp, List.filter_cons_of_pos (by simpa using hf), ih]

theorem dropWhile_space {a s : List Char} (ha : ∀ ch ∈ a, isSpace ch = true) (hs : ∀ ch, s.head? = some ch → isSpace ch = false) : (a ++ s).dropWhile isSpace = s := by
  induction a with
  | nil =>
    cases s with
    | nil => rfl
    | cons x s => simp [hs x rfl]
  | cons x a ih =>
    rw [List.cons_append, List.dropWhile_cons_of_pos (ha x (by simp))]
    exact ih fun ch h => ha ch (by simp [h])

theorem takeWhile_eq {l : List Char} : ∀ ch ∈ l.takeWhile isSpace, isSpace ch = true := fun _ h => List.mem_takeWhile_imp h

theorem strip_section {l : List Char} : strip l = "NODE_COORD_SECTION".toList ↔ IsSection l := by
  unfold strip IsSection
  constructor
  · intro h
    refine ⟨l.takeWhile isSpace, ((l.dropWhile isSpace).reverse.takeWhile isSpace).reverse, ?_, takeWhile_eq, fun ch hc => takeWhile_eq ch (List.mem_reverse.1 hc)⟩
    have h1 : (l.dropWhile isSpace).reverse.dropWhile isSpace = "NODE_COORD_SECTION".toList.reverse := by rw [← h, List.reverse_reverse]
    have h2 := List.takeWhile_append_dropWhile (p := isSpace) (l := (l.dropWhile isSpace).reverse)
    rw [h1] at h2
    have h3 : l.dropWhile isSpace = "NODE_COORD_SECTION".toList ++ ((l.dropWhile isSpace).reverse.takeWhile isSpace).reverse := by
      have := congrArg List.reverse h2
      rw [List.reverse_append, List.reverse_reverse, List.reverse_reverse] at this
      exact this.symm
    rw [List.append_assoc, ← h3, List.takeWhile_append_dropWhile]
  · rintro ⟨a, b, rfl, ha, hb⟩
    rw [List.append_assoc, dropWhile_space ha (by simp; decide), List.reverse_append, dropWhile_space (fun ch h => hb ch (List.mem_reverse.1 h)) (by simp; decide), List.reverse_reverse]

/-- `a` is the text of a row of a coordinate section: three fields, the last two being the coordinates -/
def Spec.CityLine (float : List Char → Option ℚ) (l : List Char) (p : ℚ × ℚ) : Prop :=
  ¬ IsSection l ∧ ∃ k a b, Fields l [k, a, b] ∧ float a = some p.1 ∧ float b = some p.2

theorem tspCities_header {float : List Char → Option ℚ} : ∀ (hs : List (List Char)) (rest : List (List Char)), (∀ l ∈ hs, ¬ IsSection l) →
    tspCities float (hs ++ rest) false = tspCities float rest false
  | [], _, _ => rfl
  | l :: hs, rest, h => by
    rw [List.cons_append, tspCities, if_neg (fun e => h l (by simp) (strip_section.1 e))]
    simp only [Bool.false_eq_true, if_false]
    exact tspCities_header hs rest fun l' h' => h l' (by simp [h'])

theorem tspCities_other {float : List Char → Option ℚ} : ∀ (ts : List (List Char)), (∀ l ∈ ts, ¬ IsSection l ∧ ∃ fs, Fields l fs ∧ fs.length ≠ 3) → tspCities float ts true = .ok []
  | [], _ => rfl
  | l :: ts, h => by
    obtain ⟨h1, fs, hf, hl⟩ := h l (by simp)
    rw [tspCities, if_neg (fun e => h1 (strip_section.1 e)), pySplit_fields hf]
    simp only [if_true]
    have ih := tspCities_other (float := float) ts fun l' h' => h l' (by simp [h'])
    match fs, hl with
    | [], _ => exact ih
    | [_], _ => exact ih
    | [_, _], _ => exact ih
    | [_, _, _], hl => exact absurd rfl hl
    | _ :: _ :: _ :: _ :: _, _ => exact ih

theorem tspCities_rows {float : List Char → Option ℚ} {ts : List (List Char)} (ht : ∀ l ∈ ts, ¬ IsSection l ∧ ∃ fs, Fields l fs ∧ fs.length ≠ 3) :
    ∀ (cs : List (List Char)) (xs : List (ℚ × ℚ)), List.Forall₂ (CityLine float) cs xs → tspCities float (cs ++ ts) true = .ok xs
  | [], [], _ => tspCities_other ts ht
  | l :: cs, p :: xs, h => by
    obtain ⟨hl, hr⟩ := List.forall₂_cons.1 h
    obtain ⟨h1, k, a, b, hf, ha, hb⟩ := hl
    rw [List.cons_append, tspCities, if_neg (fun e => h1 (strip_section.1 e)), pySplit_fields hf]
    simp only [if_true, ha, hb, tspCities_rows ht cs xs hr]
    rfl

theorem datCells_eq (fmt : ℚ → List Char) (n : Nat) : ∀ (es : List ℚ) (index : Nat), index + es.length = n → datCells fmt n index es = ", ".toList.intercalate (es.map fmt)
  | [], _, _ => by simp [datCells, List.intercalate]
  | [e], index, h => by
    have : index + 1 = n := h
    simp [datCells, this, List.intercalate]
  | e :: e' :: es, index, h => by
    have hne : index + 1 ≠ n := by simp only [List.length_cons] at h; omega
    rw [datCells, if_neg hne, datCells_eq fmt n (e' :: es) (index + 1) (by simp only [List.length_cons] at h ⊢; omega)]
    simp [List.intercalate]

/-- **C68** (converter). The file may have any header lines, then the line `NODE_COORD_SECTION`, one line `k x y` per city, and lines with another number of fields (such as `EOF`). The `.dat` file then gives
the number of cities and the square matrix whose entry in row `i` and column `j` is the distance of the cities `i` and `j` of the file, in the order of the file. -/
theorem C68_converter {float : List Char → Option ℚ} {sqrt : ℚ → ℚ} {digits : Nat → List Char} {fmt : ℚ → List Char} {text : List Char} {hs : List (List Char)} {sec : List Char}
    {cs ts : List (List Char)} {xs : List (ℚ × ℚ)} (hfile : fileLines text = hs ++ sec :: (cs ++ ts)) (hhead : ∀ l ∈ hs, ¬ IsSection l) (hsec : IsSection sec)
    (hcities : List.Forall₂ (CityLine float) cs xs) (htail : ∀ l ∈ ts, ¬ IsSection l ∧ ∃ fs, Fields l fs ∧ fs.length ≠ 3) :
    convertEuclidean float sqrt digits fmt text = .ok (datFile (digits xs.length) (xs.map fun p => xs.map fun q => fmt (sqrt ((p.1 - q.1) ^ 2 + (p.2 - q.2) ^ 2)))) := by
  unfold convertEuclidean
  rw [hfile, tspCities_header _ _ hhead, tspCities, if_pos (strip_section.2 hsec), tspCities_rows htail cs xs hcities]
  simp only [ok_bind, pure_eq_ok]
  congr 1
  unfold datText datFile
  have hlen : (tspMatrix sqrt xs).length = xs.length := by simp [tspMatrix]
  rw [hlen]
  have hrows : ((tspMatrix sqrt xs).flatMap fun line => "[".toList ++ datCells fmt xs.length 0 line ++ "]\n".toList) =
      (xs.map fun p => xs.map fun q => fmt (sqrt ((p.1 - q.1) ^ 2 + (p.2 - q.2) ^ 2))).flatMap fun r => "[".toList ++ ", ".toList.intercalate r ++ "]\n".toList := by
    simp only [tspMatrix, List.flatMap_map]
    refine List.flatMap_congr fun p _ => ?_
    rw [datCells_eq fmt _ _ 0 (by simp), List.map_map]
    rfl
  rw [hrows]
  simp only [List.append_assoc]
  congr 2

/-- **C68** (the converted matrix). The matrix is symmetric with zeros on the diagonal (if `np.sqrt(0) = 0`), so by C66 the optimal value of the CPLEX program on the converted file is the length of a
shortest tour of the cities: for the cost of the pair of cities number `i` and `j` (counted from 1 as CPLEX does), the program has an optimal solution, and its value is the least length of a tour. -/
theorem C68_optimum {sqrt : ℚ → ℚ} (hsqrt : sqrt 0 = 0) {xs : List (ℚ × ℚ)} (hn : 2 ≤ xs.length) (z : ℚ) :
    let cost : Nat → Nat → ℚ := fun i j => ((tspMatrix sqrt xs).getD (i - 1) []).getD (j - 1) 0
    (∀ i j, cost i j = cost j i) ∧ (∀ i, cost i i = 0) ∧
    ((∃ v : MtzVars ℚ, MtzFeasible xs.length v ∧ mtzObjective xs.length cost v = z ∧ ∀ v', MtzFeasible xs.length v' → z ≤ mtzObjective xs.length cost v') ↔
      ∃ t, IsTour1 xs.length t ∧ legCost cost t = z ∧ ∀ t', IsTour1 xs.length t' → z ≤ legCost cost t') := by
  intro cost
  have hval : ∀ i j, cost i j = if h : i - 1 < xs.length ∧ j - 1 < xs.length then sqrt ((xs[i - 1].1 - xs[j - 1].1) ^ 2 + (xs[i - 1].2 - xs[j - 1].2) ^ 2) else 0 := by
    intro i j
    simp only [cost, tspMatrix, List.getD_eq_getElem?_getD, List.getElem?_map]
    by_cases hi : i - 1 < xs.length
    · by_cases hj : j - 1 < xs.length
      · simp [hi, hj]
      · simp [hi, hj]
    · simp [hi]
  have hdiag : ∀ i, cost i i = 0 := by
    intro i
    rw [hval]
    split
    · rw [show ∀ a b : ℚ, (a - a) ^ 2 + (b - b) ^ 2 = 0 by intros; ring, hsqrt]
    · rfl
  refine ⟨?_, hdiag, C66_optimum hn cost (fun i _ => (hdiag i).ge) z⟩
  intro i j
  rw [hval, hval]
  by_cases hi : i - 1 < xs.length <;> by_cases hj : j - 1 < xs.length
  · simp only [hi, hj, and_self, dif_pos]
    congr 1; ring
  · simp [hi, hj]
  · simp [hi, hj]
  · simp [hi, hj]

/-- The format of the repository's own `example.tsp`, whose lines have two fields (no number), is not understood: for every such file the result is an empty matrix. -/
theorem C68_unnumbered {float : List Char → Option ℚ} {sqrt : ℚ → ℚ} {digits : Nat → List Char} {fmt : ℚ → List Char} {text : List Char} {hs : List (List Char)} {sec : List Char}
    {cs : List (List Char)} (hfile : fileLines text = hs ++ sec :: cs) (hhead : ∀ l ∈ hs, ¬ IsSection l) (hsec : IsSection sec)
    (hlines : ∀ l ∈ cs, ¬ IsSection l ∧ ∃ fs, Fields l fs ∧ fs.length ≠ 3) : convertEuclidean float sqrt digits fmt text = .ok (datFile (digits 0) []) :=
  C68_converter (xs := []) (cs := []) (by simpa using hfile) hhead hsec List.Forall₂.nil hlines

/-! ### The hypotheses are met -/

/-- a digit as a number -/
def Ex.digitFloat : List Char → Option ℚ
  | [ch] => if ch.isDigit then some ((ch.toNat - 48 : Nat) : ℚ) else none
  | _ => none

/-- the root of 0, 9, 16, 25 -/
def Ex.sqrt25 (x : ℚ) : ℚ := if x = 25 then 5 else if x = 16 then 4 else if x = 9 then 3 else 0

/-- a file with three cities -/
def Ex.tspText : List Char := "NAME : t\nEDGE_WEIGHT_TYPE : EUC_2D\n NODE_COORD_SECTION \n1 0 0\n2\t3 4\n3 3  0\nEOF\n".toList

theorem Ex.field3 (a b c : Char) (s t : List Char) (ha : isSpace a = false) (hb : isSpace b = false) (hc : isSpace c = false) (hs : ∀ ch ∈ s, isSpace ch = true)
    (ht : ∀ ch ∈ t, isSpace ch = true) (hs0 : s ≠ []) (ht0 : t ≠ []) : Fields ([a] ++ s ++ [b] ++ t ++ [c] ++ ['\n']) [[a], [b], [c]] := by
  obtain ⟨s1, s', rfl⟩ := List.exists_cons_of_ne_nil hs0
  obtain ⟨t1, t', rfl⟩ := List.exists_cons_of_ne_nil ht0
  have h3 := Fields.cons (s := t') (f := [c]) (sp := '\n') (rest := []) (fun ch h => ht ch (by simp [h])) (by simp) (by simp [hc]) (by decide) (Fields.nil (by simp))
  have h2 := Fields.cons (s := s') (f := [b]) (sp := t1) (fun ch h => hs ch (by simp [h])) (by simp) (by simp [hb]) (ht t1 (by simp)) h3
  have h1 := Fields.cons (s := []) (f := [a]) (sp := s1) (by simp) (by simp) (by simp [ha]) (hs s1 (by simp)) h2
  simpa using h1

/-- all hypotheses of `C68_converter` hold for the file `Ex.tspText`, and this is the result -/
example : convertEuclidean Ex.digitFloat Ex.sqrt25 (fun n => [Char.ofNat (48 + n)]) (fun x => [Char.ofNat (48 + x.num.toNat)]) Ex.tspText =
    .ok "n=3;\nCost=[[0, 5, 3]\n[5, 0, 4]\n[3, 4, 0]\n];".toList := by
  have nosec : ∀ l : List Char, strip l ≠ "NODE_COORD_SECTION".toList → ¬ IsSection l := fun l h h' => h (strip_section.2 h')
  rw [C68_converter (hs := ["NAME : t\n".toList, "EDGE_WEIGHT_TYPE : EUC_2D\n".toList]) (sec := " NODE_COORD_SECTION \n".toList)
    (cs := ["1 0 0\n".toList, "2\t3 4\n".toList, "3 3  0\n".toList]) (ts := ["EOF\n".toList]) (xs := [(0, 0), (3, 4), (3, 0)]) (by decide +kernel)]
  · congr 1
    decide +kernel
  · intro l hl
    fin_cases hl <;> exact nosec _ (by decide +kernel)
  · exact strip_section.1 (by decide +kernel)
  · refine .cons ?_ (.cons ?_ (.cons ?_ .nil))
    · exact ⟨nosec _ (by decide +kernel), _, _, _, Ex.field3 '1' '0' '0' [' '] [' '] (by decide) (by decide) (by decide) (by decide) (by decide) (by simp) (by simp), by decide +kernel, by decide +kernel⟩
    · exact ⟨nosec _ (by decide +kernel), _, _, _, Ex.field3 '2' '3' '4' ['\t'] [' '] (by decide) (by decide) (by decide) (by decide) (by decide) (by simp) (by simp), by decide +kernel, by decide +kernel⟩
    · exact ⟨nosec _ (by decide +kernel), _, _, _, Ex.field3 '3' '3' '0' [' '] [' ', ' '] (by decide) (by decide) (by decide) (by decide) (by decide) (by simp) (by simp), by decide +kernel, by decide +kernel⟩
  · intro l hl
    fin_cases hl
    exact ⟨nosec _ (by decide +kernel), ["EOF".toList], Fields.cons (s := []) (f := "EOF".toList) (sp := '\n') (rest := []) (by simp) (by decide) (by decide) (by decide) (Fields.nil (by simp)), by decide⟩

/-- two fields per line: the result is the empty matrix -/
example : convertEuclidean Ex.digitFloat Ex.sqrt25 (fun n => [Char.ofNat (48 + n)]) (fun x => [Char.ofNat (48 + x.num.toNat)]) "NODE_COORD_SECTION\n0 0\n3 4\nEOF\n".toList =
    .ok "n=0;\nCost=[];".toList := by decide +kernel

end Verif
