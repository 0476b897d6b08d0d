import Verif.Model.Reference
import Verif.Spec.Geo
import Verif.Props.Samples
import Mathlib.Analysis.Real.Pi.Bounds
import Mathlib.Data.Rat.Sqrt

/-!
# C101: the reference tours
-/
namespace Verif
open Verif.Spec
set_option autoImplicit false

/-! ### The instance and the value -/

theorem floats_fields {float : List Char → Option ℚ} {ct : List (List Char × List Char)} {xs : List (ℚ × ℚ)} (hx : CityTexts float ct xs) : floats float (cityFields ct) = .ok (xs.flatMap fun p => [p.1, p.2]) := by
  induction hx with
  | nil => rfl
  | @cons p x ct xs hpx hx ih =>
    show floats float (p.1 :: p.2 :: cityFields ct) = _
    rw [floats, hpx.1.reads]
    dsimp only
    rw [floats, hpx.2.reads]
    dsimp only
    rw [ih]
    rfl

theorem flat_length (xs : List (ℚ × ℚ)) : (xs.flatMap fun p => [p.1, p.2]).length = 2 * xs.length := by
  induction xs with
  | nil => rfl
  | cons p xs ih => rw [List.flatMap_cons, List.length_append, ih, List.length_cons]; simp; omega

theorem split_fold (f : List ℚ) : ∀ (xs pre : List (ℚ × ℚ)), f = (pre ++ xs).flatMap (fun p => [p.1, p.2]) →
    forList (splitStep f) (List.range' (2 * pre.length) (2 * xs.length)) (pre.map Prod.fst, pre.map Prod.snd) = .ok ((pre ++ xs).map Prod.fst, (pre ++ xs).map Prod.snd) := by
  intro xs
  induction xs with
  | nil => intro pre _; simp [forList]
  | cons p xs ih =>
    intro pre h
    have hr : List.range' (2 * pre.length) (2 * (p :: xs).length) = 2 * pre.length :: (2 * pre.length + 1) :: List.range' (2 * (pre ++ [p]).length) (2 * xs.length) := by
      rw [show 2 * (p :: xs).length = 2 * xs.length + 1 + 1 from by rw [List.length_cons]; omega, List.range'_succ, List.range'_succ]
      congr 3
      simp; omega
    have hf : f = (pre.flatMap fun p => [p.1, p.2]) ++ (p.1 :: p.2 :: xs.flatMap fun p => [p.1, p.2]) := by
      rw [h, List.flatMap_append, List.flatMap_cons]; rfl
    have hl := flat_length pre
    have g0 : f[2 * pre.length]? = some p.1 := by rw [hf, List.getElem?_append_right (by omega), hl, Nat.sub_self]; rfl
    have g1 : f[2 * pre.length + 1]? = some p.2 := by rw [hf, List.getElem?_append_right (by omega), hl]; simp
    rw [hr, forList, splitStep, g0]
    dsimp only
    rw [if_neg (by omega), ok_bind, forList, splitStep, g1]
    dsimp only
    rw [if_pos (by omega), ok_bind]
    have := ih (pre ++ [p]) (by rw [h]; simp)
    simp only [List.map_append, List.map_cons, List.map_nil, List.append_assoc, List.cons_append, List.nil_append] at this ⊢
    exact this

/-- the instance of a line in the format of the data sets -/
theorem refInstance_ok {float : List Char → Option ℚ} {ct : List (List Char × List Char)} {xs : List (ℚ × ℚ)} (hx : CityTexts float ct xs) (hne : ct ≠ []) (rest : List Char) :
    refInstance float ([' '].intercalate (coordTexts ct) ++ " output".toList ++ rest) = .ok (xs.map Prod.fst, xs.map Prod.snd) := by
  have hc : coordTexts ct = cityFields ct := rfl
  have ho : 'o' ∉ [' '].intercalate (cityFields ct) :=
    (lineCities_core (CityTexts.length hx) hne (fun i h1 h2 => List.Forall₂.get hx h1 h2) (Or.inl rfl)).2
  unfold refInstance
  rw [hc, before_output ho, List.splitOn_intercalate ' ' (fun l hl => (CityTexts.fields hx hl).1) (cityFields_ne hne), floats_fields hx, ok_bind, flat_length]
  have := split_fold _ xs [] rfl
  simp only [List.length_nil, Nat.mul_zero, List.map_nil, List.nil_append, ← List.range_eq_range'] at this
  exact this

theorem refCity_ok {xs : List (ℚ × ℚ)} {c : Nat} (h : c < xs.length) : refCity (xs.map Prod.fst, xs.map Prod.snd) c = .ok (xs.getD c (0, 0)) := by
  unfold refCity
  simp [h]

theorem legs_getElem? {t : List Nat} {i : Nat} (h : i < t.length) : (legs t)[i]? = some (t[i], if h' : i + 1 = t.length then t[0]'(by omega) else t[i + 1]'(by omega)) := by
  have hl : i < (legs t).length := by simp [legs, h]
  rw [List.getElem?_eq_getElem hl]
  simp only [legs, List.getElem_zip, List.getElem_rotate]
  congr 2
  split
  · rename_i h'
    simp [h']
  · rename_i h'
    congr 1
    exact Nat.mod_eq_of_lt (by omega)

theorem refValue_ok {dist : ℚ × ℚ → ℚ × ℚ → ℚ} {xs : List (ℚ × ℚ)} {t : List Nat} (hlt : ∀ i ∈ t, i < xs.length) :
    refValue dist (xs.map Prod.fst, xs.map Prod.snd) t = .ok (legCost (fun i j => dist (xs.getD i (0, 0)) (xs.getD j (0, 0))) t) := by
  have key : ∀ k ≤ t.length, forList (refStep dist (xs.map Prod.fst, xs.map Prod.snd) t) (List.range k) 0
      = .ok ((((legs t).take k).map fun l => dist (xs.getD l.1 (0, 0)) (xs.getD l.2 (0, 0))).sum) := by
    intro k
    induction k with
    | zero => intro _; rfl
    | succ k ih =>
      intro hk
      rw [List.range_succ, forList_snoc, ih (by omega), ok_bind]
      have hg := legs_getElem? (t := t) (i := k) (by omega)
      have hl : k < (legs t).length := by simp [legs]; omega
      have e : (legs t).take (k + 1) = (legs t).take k ++ [(t[k], if h' : k + 1 = t.length then t[0]'(by omega) else t[k + 1]'(by omega))] := by
        rw [List.take_add_one, hg]; rfl
      rw [e, List.map_append, List.sum_append]
      simp only [List.map_cons, List.map_nil, List.sum_cons, List.sum_nil, add_zero]
      unfold refStep
      have n0 : ∀ i (h : i < t.length), refNode t i = .ok t[i] := fun i h => by simp [refNode, h]
      rw [n0 k (by omega), ok_bind, refCity_ok (hlt _ (List.getElem_mem _)), ok_bind]
      by_cases h' : k + 1 = t.length
      · rw [if_pos h', dif_pos h', n0 0 (by omega), ok_bind]; dsimp only; rw [refCity_ok (hlt _ (List.getElem_mem _)), ok_bind]; rfl
      · rw [if_neg h', dif_neg h', n0 (k + 1) (by omega), ok_bind]; dsimp only; rw [refCity_ok (hlt _ (List.getElem_mem _)), ok_bind]; rfl
  have := key t.length le_rfl
  rw [List.take_of_length_le (by simp [legs])] at this
  exact this

/-- **C101** (value; partial: the tour is that of Concorde, which need not be a shortest one, see `C101_fails`). For every line in the format of the data sets, with the cities `xs`, the reference solver gets exactly these cities, and the value that it reports for the tour `t` of Concorde
is the Euclidean length of `t`. -/
theorem C101_value_partial {float : List Char → Option ℚ} {ct : List (List Char × List Char)} {xs : List (ℚ × ℚ)} (hx : CityTexts float ct xs) (hn : 2 ≤ xs.length) (dist : ℚ × ℚ → ℚ × ℚ → ℚ) (rest : List Char)
    {t : List Nat} (ht : IsTour xs.length t) :
    ∃ inst, refInstance float ([' '].intercalate (coordTexts ct) ++ " output".toList ++ rest) = .ok inst ∧ inst.1.zip inst.2 = xs ∧ refValue dist inst t = .ok (legCost (distances dist xs) t) := by
  have hne : ct ≠ [] := by intro e; have := CityTexts.length hx; rw [e] at this; simp at this; omega
  refine ⟨_, refInstance_ok hx hne rest, ?_, ?_⟩
  · exact (List.zip_of_prod rfl rfl).symm
  · rw [refValue_ok fun i h => ht.mem.1 h]
    congr 1
    unfold legCost
    congr 1
    apply List.map_congr_left
    rintro ⟨i, j⟩ hij
    have hne : i ≠ j := by
      obtain ⟨k, hk, e⟩ := List.getElem_of_mem hij
      have hk' : k < t.length := by simpa [legs] using hk
      have h1 := legs_getElem? hk'
      rw [List.getElem?_eq_getElem hk, e, Option.some_inj, Prod.mk.injEq] at h1
      have hl := ht.length
      rw [h1.1, h1.2]
      split
      · intro h; have := (ht.nodup.getElem_inj_iff).1 h; omega
      · intro h; have := (ht.nodup.getElem_inj_iff).1 h; omega
    rw [distances, if_neg hne]

/-! ### The distance `GEO` does not see the cities of the unit square -/

theorem degrees_unit {x : ℚ} (h : 0 ≤ x ∧ x < 1) : degrees x = 0 := by
  rw [degrees, if_pos h.1]
  exact Int.floor_eq_zero_iff.2 ⟨h.1, h.2⟩

theorem geoAngle_close {x y : ℚ} (hx : 0 ≤ x ∧ x < 1) (hy : 0 ≤ y ∧ y < 1) (h : |x - y| ≤ 3 / 1000) : |geoAngle x - geoAngle y| ≤ 9 / 100000 := by
  unfold geoAngle
  rw [degrees_unit hx, degrees_unit hy]
  have h' : |((x : ℝ) - y)| ≤ 3 / 1000 := by
    have : ((|x - y| : ℚ) : ℝ) ≤ ((3 / 1000 : ℚ) : ℝ) := by exact_mod_cast h
    push_cast at this
    exact this
  have e : Real.pi * (((0 : ℤ) : ℝ) + 5 * ((x : ℝ) - ((0 : ℤ) : ℝ)) / 3) / 180 - Real.pi * (((0 : ℤ) : ℝ) + 5 * ((y : ℝ) - ((0 : ℤ) : ℝ)) / 3) / 180 = Real.pi * (5 / 540) * ((x : ℝ) - y) := by
    push_cast; ring
  rw [e, abs_mul, abs_of_pos (by positivity)]
  have := Real.pi_lt_d2
  have hp := Real.pi_pos
  calc Real.pi * (5 / 540) * |(x : ℝ) - y| ≤ 3.15 * (5 / 540) * (3 / 1000) := by gcongr
    _ ≤ 9 / 100000 := by norm_num

theorem geoDist_one {p q : ℚ × ℚ} (hp : (0 ≤ p.1 ∧ p.1 < 1) ∧ 0 ≤ p.2 ∧ p.2 < 1) (hq : (0 ≤ q.1 ∧ q.1 < 1) ∧ 0 ≤ q.2 ∧ q.2 < 1) (h1 : |p.1 - q.1| ≤ 3 / 1000) (h2 : |p.2 - q.2| ≤ 3 / 1000) : geoDist p q = 1 := by
  have a1 := geoAngle_close hp.1 hq.1 h1
  have a2 := geoAngle_close hp.2 hq.2 h2
  unfold geoDist
  dsimp only
  generalize geoAngle p.1 - geoAngle q.1 = u at a1
  generalize geoAngle p.2 - geoAngle q.2 = v at a2
  generalize geoAngle p.1 + geoAngle q.1 = w
  have cu := Real.one_sub_sq_div_two_le_cos (x := u)
  have cv := Real.one_sub_sq_div_two_le_cos (x := v)
  have u1 := Real.cos_le_one u
  have v1 := Real.cos_le_one v
  have w1 := Real.cos_le_one w
  have su : u ^ 2 ≤ (9 / 100000) ^ 2 := by rw [← sq_abs]; gcongr
  have sv : v ^ 2 ≤ (9 / 100000) ^ 2 := by rw [← sq_abs]; gcongr
  have harg : 1 - (9 / 100000 : ℝ) ^ 2 ≤ 1 / 2 * ((1 + Real.cos v) * Real.cos u - (1 - Real.cos v) * Real.cos w) := by nlinarith
  have ht : Real.cos (15 / 100000) ≤ 1 - (9 / 100000 : ℝ) ^ 2 := by
    have := Real.cos_bound (x := 15 / 100000) (by rw [abs_of_pos (by norm_num)]; norm_num)
    rw [abs_le, abs_of_pos (by norm_num : (0 : ℝ) < 15 / 100000)] at this
    have h := this.2
    norm_num at h ⊢
    linarith
  generalize 1 / 2 * ((1 + Real.cos v) * Real.cos u - (1 - Real.cos v) * Real.cos w) = z at harg
  have hz : Real.arccos z ≤ 15 / 100000 := by
    have := Real.antitone_arccos (ht.trans harg)
    rwa [Real.arccos_cos (by norm_num) (by have := Real.pi_gt_three; linarith)] at this
  have h0 := Real.arccos_nonneg z
  rw [Int.floor_eq_iff]
  push_cast
  constructor <;> linarith

/-- the cities of the unit square that are within 3/1000 of each other, in both coordinates -/
structure Spec.Crowded (xs : List (ℚ × ℚ)) : Prop where
  unit : ∀ p ∈ xs, (0 ≤ p.1 ∧ p.1 < 1) ∧ 0 ≤ p.2 ∧ p.2 < 1
  near : ∀ p ∈ xs, ∀ q ∈ xs, |p.1 - q.1| ≤ 3 / 1000 ∧ |p.2 - q.2| ≤ 3 / 1000

/-- **C101** (blind). If the cities of an instance (of the unit square) are within 3/1000 of each other, every tour is a shortest tour for the distance that Concorde is asked to use: the reference tour may be any tour. -/
theorem C101_blind {xs : List (ℚ × ℚ)} (hc : Crowded xs) {t : List Nat} (ht : IsTour xs.length t) : Shortest xs.length (geoTable xs) t := by
  have key : ∀ t, IsTour xs.length t → legCost (geoTable xs) t = xs.length := by
    intro t ht
    have h1 : (legs t).map (fun l => geoTable xs l.1 l.2) = (legs t).map fun _ => (1 : ℤ) := by
      apply List.map_congr_left
      intro l hl
      obtain ⟨b1, b2⟩ := legs_mem_lt (n := xs.length) (fun i h => ht.mem.1 h) l hl
      have g : ∀ i (h : i < xs.length), xs.getD i (0, 0) = xs[i] := fun i h => by simp [h]
      unfold geoTable
      rw [g _ b1, g _ b2]
      have hn := hc.near _ (List.getElem_mem b1) _ (List.getElem_mem b2)
      exact geoDist_one (hc.unit _ (List.getElem_mem b1)) (hc.unit _ (List.getElem_mem b2)) hn.1 hn.2
    rw [legCost, h1]
    simp [legs, ht.length]
  exact ⟨ht, fun t' ht' => by rw [key t ht, key t' ht']⟩

namespace Ex

/-- the corners of a small rectangle -/
def corners : List (ℚ × ℚ) := [(0, 0), (3 / 10 ^ 4, 0), (3 / 10 ^ 4, 4 / 10 ^ 4), (0, 4 / 10 ^ 4)]

theorem corners_crowded : Crowded corners := ⟨by decide +kernel, by decide +kernel⟩

end Ex

/-- **C101** (the full property fails). The corners of a rectangle: the tour `0 2 1 3` (which crosses itself) is a shortest tour for the distance that Concorde is asked to use, the value that is reported for it is
18/10000, and the tour `0 1 2 3` has the length 14/10000. -/
theorem C101_fails {dist : ℚ × ℚ → ℚ × ℚ → ℚ} (hd : EuclidOn dist) :
    Shortest 4 (geoTable Ex.corners) [0, 2, 1, 3] ∧ refValue dist (Ex.corners.map Prod.fst, Ex.corners.map Prod.snd) [0, 2, 1, 3] = .ok (18 / 10 ^ 4) ∧
      IsTour 4 [0, 1, 2, 3] ∧ legCost (distances dist Ex.corners) [0, 1, 2, 3] = 14 / 10 ^ 4 := by
  refine ⟨C101_blind Ex.corners_crowded (show List.Perm _ (List.range 4) by decide), ?_, show List.Perm _ (List.range 4) by decide, ?_⟩
  · rw [refValue_ok (by decide)]
    have d1 := hd (0, 0) (3 / 10 ^ 4, 4 / 10 ^ 4) (5 / 10 ^ 4) (by norm_num) (by norm_num)
    have d2 := hd (3 / 10 ^ 4, 4 / 10 ^ 4) (3 / 10 ^ 4, 0) (4 / 10 ^ 4) (by norm_num) (by norm_num)
    have d3 := hd (3 / 10 ^ 4, 0) (0, 4 / 10 ^ 4) (5 / 10 ^ 4) (by norm_num) (by norm_num)
    have d4 := hd (0, 4 / 10 ^ 4) (0, 0) (4 / 10 ^ 4) (by norm_num) (by norm_num)
    have : legs [0, 2, 1, 3] = [(0, 2), (2, 1), (1, 3), (3, 0)] := by decide
    rw [legCost, this]
    show Except.ok (dist (0, 0) (3 / 10 ^ 4, 4 / 10 ^ 4) + (dist (3 / 10 ^ 4, 4 / 10 ^ 4) (3 / 10 ^ 4, 0) + (dist (3 / 10 ^ 4, 0) (0, 4 / 10 ^ 4) + (dist (0, 4 / 10 ^ 4) (0, 0) + 0)))) = _
    rw [d1, d2, d3, d4]
    norm_num
  · have d1 := hd (0, 0) (3 / 10 ^ 4, 0) (3 / 10 ^ 4) (by norm_num) (by norm_num)
    have d2 := hd (3 / 10 ^ 4, 0) (3 / 10 ^ 4, 4 / 10 ^ 4) (4 / 10 ^ 4) (by norm_num) (by norm_num)
    have d3 := hd (3 / 10 ^ 4, 4 / 10 ^ 4) (0, 4 / 10 ^ 4) (3 / 10 ^ 4) (by norm_num) (by norm_num)
    have d4 := hd (0, 4 / 10 ^ 4) (0, 0) (4 / 10 ^ 4) (by norm_num) (by norm_num)
    have : legs [0, 1, 2, 3] = [(0, 1), (1, 2), (2, 3), (3, 0)] := by decide
    rw [legCost, this]
    show dist (0, 0) (3 / 10 ^ 4, 0) + (dist (3 / 10 ^ 4, 0) (3 / 10 ^ 4, 4 / 10 ^ 4) + (dist (3 / 10 ^ 4, 4 / 10 ^ 4) (0, 4 / 10 ^ 4) + (dist (0, 4 / 10 ^ 4) (0, 0) + 0))) = _
    rw [d1, d2, d3, d4]
    norm_num

/-- there is such a distance -/
example : EuclidOn (fun p q => Rat.sqrt ((p.1 - q.1) ^ 2 + (p.2 - q.2) ^ 2)) := by
  intro p q r h0 h
  show Rat.sqrt ((p.1 - q.1) ^ 2 + (p.2 - q.2) ^ 2) = r
  rw [← h, sq, Rat.sqrt_eq, abs_of_nonneg h0]

/-- C101_value_partial for the line of the generator -/
example : ∃ inst, refInstance Ex.float1 "0 0 3 4 6 0 3 9 output 1 3 4 2 1 \n".toList = .ok inst ∧ inst.1.zip inst.2 = [(0, 0), (3, 4), (6, 0), (3, 9)] ∧
    refValue (fun p q => |p.1 - q.1| + |p.2 - q.2|) inst [0, 2, 3, 1] = .ok 30 := by
  obtain ⟨inst, h1, h2, h3⟩ := C101_value_partial Ex.cities4_ok (by decide) (fun p q => |p.1 - q.1| + |p.2 - q.2|) " 1 3 4 2 1 \n".toList (t := [0, 2, 3, 1]) (by unfold IsTour; decide)
  refine ⟨inst, ?_, h2, ?_⟩
  · rw [← h1]
    decide +kernel
  · rw [h3]
    decide +kernel

end Verif
