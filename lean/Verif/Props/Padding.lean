import Verif.Model.Padding
import Verif.Props.Samples
import Verif.Proofs.Binary64
import Verif.Props.Rounding
import Mathlib.Data.List.Perm.Subperm
import Mathlib.Tactic.NormNum

/-!
# C99: padding an instance with dummy cities
-/
namespace Verif
open Verif.Spec
set_option autoImplicit false

/-- a draw of the random generator: two numbers from 1 to 8 and two signs -/
structure Spec.PossibleDraw (d : Draw) : Prop where
  v1 : 1 ≤ d.v1 ∧ d.v1 ≤ 8
  v2 : 1 ≤ d.v2 ∧ d.v2 ≤ 8
  s1 : d.s1 = 1 ∨ d.s1 = -1
  s2 : d.s2 = 1 ∨ d.s2 = -1

/-- `ds` are dummies for the cities `xs`: the dummy number `i` is at distance at most 9e-15 (in each coordinate) of the city `i` modulo the number of the cities, and is different from all cities and the dummies before it -/
structure Spec.Dummies (xs : List (ℚ × ℚ)) (k : Nat) (ds : List (ℚ × ℚ)) : Prop where
  length : ds.length = k
  close : ∀ (i : Nat) (h : i < ds.length), ∃ a, xs[i % xs.length]? = some a ∧ |ds[i].1 - a.1| ≤ 9 / 10 ^ 15 ∧ |ds[i].2 - a.2| ≤ 9 / 10 ^ 15
  fresh : ∀ (i : Nat) (h : i < ds.length), ds[i] ∉ xs ++ ds.take i

/-! ### The rounding of the sums -/

section
variable [Rounding]

/-- a rounding changes a number by no more than the distance of the grid points around it -/
theorem fl_grid {q : ℚ} {e : ℤ} (hq : |q| ≤ 2 ^ 53 * 2 ^ e) (he : -1074 ≤ e) : |fl q - q| ≤ 2 ^ e := by
  have hp : (0 : ℚ) < 2 ^ e := zpow_pos (by norm_num) _
  obtain ⟨h1, h2⟩ := abs_le.1 hq
  have a1 : (⌊q / 2 ^ e⌋ : ℚ) * 2 ^ e ≤ q := by
    have := Int.floor_le (q / 2 ^ e)
    rwa [le_div_iff₀ hp] at this
  have a2 : q ≤ (⌈q / 2 ^ e⌉ : ℚ) * 2 ^ e := by
    have := Int.le_ceil (q / 2 ^ e)
    rwa [div_le_iff₀ hp] at this
  have hc : (⌈q / 2 ^ e⌉ : ℚ) ≤ ⌊q / 2 ^ e⌋ + 1 := by exact_mod_cast Int.ceil_le_floor_add_one (q / 2 ^ e)
  have l1 : (-2 ^ 53 : ℚ) ≤ q / 2 ^ e := by rw [le_div_iff₀ hp]; linarith
  have l2 : q / 2 ^ e ≤ 2 ^ 53 := by rw [div_le_iff₀ hp]; linarith
  have f1 : |⌊q / 2 ^ e⌋| ≤ 2 ^ 53 := by
    rw [abs_le]
    constructor
    · rw [Int.le_floor]; exact_mod_cast l1
    · have : (⌊q / 2 ^ e⌋ : ℚ) ≤ 2 ^ 53 := (Int.floor_le _).trans l2
      exact_mod_cast this
  have f2 : |⌈q / 2 ^ e⌉| ≤ 2 ^ 53 := by
    rw [abs_le]
    constructor
    · have : (-2 ^ 53 : ℚ) ≤ ⌈q / 2 ^ e⌉ := l1.trans (Int.le_ceil _)
      exact_mod_cast this
    · rw [Int.ceil_le]; exact_mod_cast l2
  have b1 := Rounding.mono a1
  have b2 := Rounding.mono a2
  rw [Rounding.exact _ _ f1 he] at b1
  rw [Rounding.exact _ _ f2 he] at b2
  rw [abs_le]
  have : (⌈q / 2 ^ e⌉ : ℚ) * 2 ^ e ≤ (⌊q / 2 ^ e⌋ : ℚ) * 2 ^ e + 2 ^ e := by nlinarith
  constructor <;> linarith

/-- the distance that is added -/
theorem pad_error {k : Int} (hk : |k| ≤ 8) : |fl ((k : ℚ) * fl (1 / 10 ^ 15)) - k / 10 ^ 15| ≤ 1 / 2 ^ 98 := by
  have hk' : |(k : ℚ)| ≤ 8 := by exact_mod_cast hk
  have e1 : |fl ((1 : ℚ) / 10 ^ 15) - 1 / 10 ^ 15| ≤ 2 ^ (-102 : ℤ) := fl_grid (by rw [abs_of_pos (by norm_num)]; norm_num) (by norm_num)
  have h1 : |(k : ℚ) * fl (1 / 10 ^ 15) - k / 10 ^ 15| ≤ 8 * 2 ^ (-102 : ℤ) := by
    have : (k : ℚ) * fl (1 / 10 ^ 15) - k / 10 ^ 15 = k * (fl (1 / 10 ^ 15) - 1 / 10 ^ 15) := by ring
    rw [this, abs_mul]
    exact mul_le_mul hk' e1 (abs_nonneg _) (by norm_num)
  have h2 : |(k : ℚ) / 10 ^ 15| ≤ 8 / 10 ^ 15 := by
    rw [abs_div, abs_of_pos (by norm_num : (0 : ℚ) < 10 ^ 15)]
    gcongr
  have h3 : |(k : ℚ) * fl (1 / 10 ^ 15)| ≤ 8 / 10 ^ 15 + 8 * 2 ^ (-102 : ℤ) := by
    have := abs_add_le ((k : ℚ) * fl (1 / 10 ^ 15) - k / 10 ^ 15) ((k : ℚ) / 10 ^ 15)
    rw [sub_add_cancel] at this
    linarith
  have e2 : |fl ((k : ℚ) * fl (1 / 10 ^ 15)) - k * fl (1 / 10 ^ 15)| ≤ 2 ^ (-99 : ℤ) := fl_grid (h3.trans (by norm_num)) (by norm_num)
  have := abs_add_le (fl ((k : ℚ) * fl (1 / 10 ^ 15)) - k * fl (1 / 10 ^ 15)) ((k : ℚ) * fl (1 / 10 ^ 15) - k / 10 ^ 15)
  rw [sub_add_sub_cancel] at this
  have n1 : (8 : ℚ) * 2 ^ (-102 : ℤ) + 2 ^ (-99 : ℤ) ≤ 1 / 2 ^ 98 := by norm_num
  linarith

/-- the moved coordinate -/
theorem moved_error {a : ℚ} (ha : |a| ≤ 3) {s : Int} {v : Nat} (hs : s = 1 ∨ s = -1) (hv : v ≤ 8) : |movedBy a s v - (a + ((s * v : Int) : ℚ) / 10 ^ 15)| ≤ 45 / 10 ^ 17 := by
  have hk : |s * (v : Int)| ≤ 8 := by
    rw [abs_mul]
    rcases hs with rfl | rfl <;> simp <;> omega
  have hk' : |((s * v : Int) : ℚ)| ≤ 8 := by exact_mod_cast hk
  have h1 := pad_error hk
  have h2 : |((s * v : Int) : ℚ) / 10 ^ 15| ≤ 8 / 10 ^ 15 := by
    rw [abs_div, abs_of_pos (by norm_num : (0 : ℚ) < 10 ^ 15)]
    gcongr
  generalize hx : fl (((s * v : Int) : ℚ) * fl (1 / 10 ^ 15)) = x at h1
  generalize ((s * v : Int) : ℚ) / 10 ^ 15 = y at h1 h2 ⊢
  have h3 : |a + x| ≤ 4 := by
    rw [abs_le] at *
    norm_num at h1 h2 ⊢
    constructor <;> linarith [ha.1, ha.2, h1.1, h1.2, h2.1, h2.2]
  have h4 : |fl (a + x) - (a + x)| ≤ 2 ^ (-51 : ℤ) := fl_grid (h3.trans (by norm_num)) (by norm_num)
  unfold movedBy
  rw [hx]
  have := abs_add_le (fl (a + x) - (a + x)) (x - y)
  have e : fl (a + x) - (a + x) + (x - y) = fl (a + x) - (a + y) := by ring
  rw [e] at this
  have n1 : (2 : ℚ) ^ (-51 : ℤ) + 1 / 2 ^ 98 ≤ 45 / 10 ^ 17 := by norm_num
  exact this.trans ((add_le_add h4 h1).trans n1)

theorem moved_close {a : ℚ} (ha : |a| ≤ 3) {s : Int} {v : Nat} (hs : s = 1 ∨ s = -1) (hv : v ≤ 8) : |movedBy a s v - a| ≤ 9 / 10 ^ 15 := by
  have h1 := moved_error ha hs hv
  have hk' : |((s * v : Int) : ℚ)| ≤ 8 := by
    have hk : |s * (v : Int)| ≤ 8 := by
      rw [abs_mul]
      rcases hs with rfl | rfl <;> simp <;> omega
    exact_mod_cast hk
  have h2 : |((s * v : Int) : ℚ) / 10 ^ 15| ≤ 8 / 10 ^ 15 := by
    rw [abs_div, abs_of_pos (by norm_num : (0 : ℚ) < 10 ^ 15)]
    gcongr
  generalize ((s * v : Int) : ℚ) / 10 ^ 15 = y at h1 h2
  have := abs_add_le (movedBy a s v - (a + y)) y
  have e : movedBy a s v - (a + y) + y = movedBy a s v - a := by ring
  rw [e] at this
  have n1 : (45 : ℚ) / 10 ^ 17 + 8 / 10 ^ 15 ≤ 9 / 10 ^ 15 := by norm_num
  linarith

theorem moved_inj {a : ℚ} (ha : |a| ≤ 3) {s s' : Int} {v v' : Nat} (hs : s = 1 ∨ s = -1) (hv : 1 ≤ v ∧ v ≤ 8) (hs' : s' = 1 ∨ s' = -1) (hv' : 1 ≤ v' ∧ v' ≤ 8) (e : movedBy a s v = movedBy a s' v') : s = s' ∧ v = v' := by
  have h1 := moved_error ha hs hv.2
  have h2 := moved_error ha hs' hv'.2
  rw [e] at h1
  have h3 : |((s * v : Int) : ℚ) / 10 ^ 15 - ((s' * v' : Int) : ℚ) / 10 ^ 15| ≤ 90 / 10 ^ 17 := by
    rw [abs_le] at *
    constructor <;> linarith [h1.1, h1.2, h2.1, h2.2]
  rw [← sub_div, abs_div, abs_of_pos (by norm_num : (0 : ℚ) < 10 ^ 15), div_le_iff₀ (by norm_num)] at h3
  have h4 : |((s * v - s' * v' : Int) : ℚ)| < 1 := by
    push_cast at h3 ⊢
    refine lt_of_le_of_lt h3 (by norm_num)
  have h5 : |s * (v : Int) - s' * v'| < 1 := by exact_mod_cast h4
  rw [Int.abs_lt_one_iff] at h5
  rcases hs with rfl | rfl <;> rcases hs' with rfl | rfl <;> refine ⟨?_, ?_⟩ <;> omega

/-! ### The loop -/

variable {float : List Char → Option ℚ} {int : List Char → Option Nat} {str : ℚ → List Char} {digits : Nat → List Char} {ct : List (List Char × List Char)} {xs : List (ℚ × ℚ)}

/-- the texts of the dummies -/
def dummyTexts (str : ℚ → List Char) (ds : List (ℚ × ℚ)) : List (List Char × List Char) := ds.map fun p => (str p.1, str p.2)

/-- what holds while the program draws -/
structure PadInv (str : ℚ → List Char) (float : List Char → Option ℚ) (ct : List (List Char × List Char)) (xs : List (ℚ × ℚ)) (k : Nat) (s : Pad) (ds : List (ℚ × ℚ)) : Prop where
  graph : s.graph = xs ++ ds
  text : s.text = [' '].intercalate (cityFields (ct ++ dummyTexts str ds))
  rr : s.rr = ds.length % xs.length
  left : s.left + ds.length = k
  texts : CityTexts float (dummyTexts str ds) ds
  dummies : Dummies xs ds.length ds

theorem pad_step (hne : ct ≠ []) (hx0 : 0 < xs.length) (hs : ∀ x, FloatText float (str (fl x)) (fl x)) (hb : ∀ p ∈ xs, |p.1| ≤ 3 ∧ |p.2| ≤ 3) {k : Nat} {s : Pad} {ds : List (ℚ × ℚ)} (h : PadInv str float ct xs k s ds) {d : Draw} (hd : PossibleDraw d) :
    ∃ s' ds', padStep str xs.length s d = .ok s' ∧ PadInv str float ct xs k s' ds' := by
  unfold padStep
  by_cases h0 : s.left = 0
  · rw [if_pos h0]; exact ⟨s, ds, rfl, h⟩
  rw [if_neg h0]
  have hr : ds.length % xs.length < xs.length := Nat.mod_lt _ hx0
  have hg : s.graph[s.rr]? = some (xs[ds.length % xs.length]'hr) := by
    rw [h.graph, h.rr, List.getElem?_append_left hr, List.getElem?_eq_getElem hr]
  rw [hg]
  set a := xs[ds.length % xs.length]'hr with ha
  obtain ⟨b1, b2⟩ := hb a (List.getElem_mem hr)
  dsimp only
  by_cases hm : (movedBy a.1 d.s1 d.v1, movedBy a.2 d.s2 d.v2) ∈ s.graph
  · rw [if_pos hm]; exact ⟨s, ds, rfl, h⟩
  rw [if_neg hm]
  rw [h.graph] at hm
  set p := (movedBy a.1 d.s1 d.v1, movedBy a.2 d.s2 d.v2) with hp
  refine ⟨_, ds ++ [p], rfl, ?_⟩
  refine ⟨?_, ?_, ?_, ?_, ?_, ?_⟩
  · show s.graph ++ [p] = _
    rw [h.graph, List.append_assoc]
  · show s.text ++ [' '] ++ str p.1 ++ [' '] ++ str p.2 = _
    have e : cityFields (ct ++ dummyTexts str (ds ++ [p])) = cityFields (ct ++ dummyTexts str ds) ++ [str p.1, str p.2] := by
      unfold cityFields dummyTexts
      simp
    rw [e, inter_append (cityFields_ne (by simp [hne])) (by simp), h.text]
    simp [List.intercalate]
  · show (s.rr + 1) % xs.length = _
    rw [h.rr, List.length_append, List.length_singleton, Nat.mod_add_mod]
  · show s.left - 1 + _ = k
    have := h.left
    rw [List.length_append, List.length_singleton]
    omega
  · unfold dummyTexts
    rw [List.map_append]
    exact List.rel_append h.texts (List.Forall₂.cons ⟨hs _, hs _⟩ List.Forall₂.nil)
  · refine ⟨rfl, ?_, ?_⟩
    · intro i hi
      rw [List.length_append, List.length_singleton] at hi
      by_cases hi' : i < ds.length
      · obtain ⟨b, c1, c2⟩ := h.dummies.close i hi'
        refine ⟨b, c1, ?_⟩
        rw [List.getElem_append_left hi']
        exact c2
      · have e : i = ds.length := by omega
        subst e
        refine ⟨a, by rw [List.getElem?_eq_getElem hr], ?_⟩
        rw [List.getElem_append_right (le_refl _)]
        simp only [Nat.sub_self, List.getElem_cons_zero]
        exact ⟨moved_close b1 hd.s1 hd.v1.2, moved_close b2 hd.s2 hd.v2.2⟩
    · intro i hi
      rw [List.length_append, List.length_singleton] at hi
      by_cases hi' : i < ds.length
      · rw [List.getElem_append_left hi', List.take_append_of_le_length hi'.le]
        exact h.dummies.fresh i hi'
      · have e : i = ds.length := by omega
        subst e
        rw [List.getElem_append_right (le_refl _), List.take_left]
        simpa using hm

theorem pad_loop (hne : ct ≠ []) (hx0 : 0 < xs.length) (hs : ∀ x, FloatText float (str (fl x)) (fl x)) (hb : ∀ p ∈ xs, |p.1| ≤ 3 ∧ |p.2| ≤ 3) {k : Nat} : ∀ (draws : List Draw), (∀ d ∈ draws, PossibleDraw d) → ∀ (s : Pad) (ds : List (ℚ × ℚ)),
    PadInv str float ct xs k s ds → ∃ s' ds', forList (padStep str xs.length) draws s = .ok s' ∧ PadInv str float ct xs k s' ds' := by
  intro draws
  induction draws with
  | nil => intro _ s ds h; exact ⟨s, ds, rfl, h⟩
  | cons d draws ih =>
    intro hd s ds h
    obtain ⟨s', ds', e, h'⟩ := pad_step hne hx0 hs hb h (hd d (by simp))
    obtain ⟨s'', ds'', e', h''⟩ := ih (fun x hx => hd x (by simp [hx])) s' ds' h'
    refine ⟨s'', ds'', ?_, h''⟩
    rw [forList, e, ok_bind, e']

theorem pad_start (hx : CityTexts float ct xs) (hne : ct ≠ []) (rest : List Char) (m : Nat) (draws : List Draw) :
    padLine float str digits xs.length m ([' '].intercalate (coordTexts ct) ++ " output".toList ++ rest) draws = (do
      let s ← forList (padStep str xs.length) draws { graph := xs, text := [' '].intercalate (cityFields ct), rr := 0, left := m - xs.length }
      if s.left = 0 then pure (some (s.text ++ (" output ".toList ++ (((List.range m).flatMap fun i => digits (i + 1) ++ [' ']) ++ digits 1))))
      else pure none) := by
  have hc : coordTexts ct = cityFields ct := rfl
  have ho : 'o' ∉ [' '].intercalate (cityFields ct) :=
    (lineCities_core (CityTexts.length hx) hne (fun i h1 h2 => List.Forall₂.get hx h1 h2) (Or.inl rfl)).2
  have hf : floats float (cityFields ct) = .ok (xs.flatMap fun p => [p.1, p.2]) := by
    have : ∀ {ct : List (List Char × List Char)} {xs : List (ℚ × ℚ)}, CityTexts float ct xs → floats float (cityFields ct) = .ok (xs.flatMap fun p => [p.1, p.2]) := by
      intro ct xs hx
      induction hx with
      | nil => rfl
      | @cons p x ct xs hpx hx ih =>
        show floats float (p.1 :: p.2 :: cityFields ct) = _
        rw [floats, hpx.1.reads]
        dsimp only
        rw [floats, hpx.2.reads]
        dsimp only
        rw [ih]
        rfl
    exact this hx
  unfold padLine
  rw [hc, before_output ho]
  dsimp only
  rw [List.splitOn_intercalate]
  · rw [hf, ok_bind, pairUp_flat, ok_bind]
  · exact fun l hl => (CityTexts.fields hx hl).1
  · exact cityFields_ne hne

theorem pad_init (hx : CityTexts float ct xs) (k : Nat) : PadInv str float ct xs k { graph := xs, text := [' '].intercalate (cityFields ct), rr := 0, left := k } [] :=
  ⟨by simp, by simp [dummyTexts], by simp, by simp, .nil, ⟨rfl, fun i h => by simp at h, fun i h => by simp at h⟩⟩

/-- C99. Whatever is drawn, the program raises no exception, and if it has all dummies, it writes a line with the cities of the instance, unchanged and in their order, and after them the dummies: copies of
the cities in turn, moved by at most 9e-15, each different from all cities and dummies before it. The driver and the reader of the network get from this line the cities and the dummies. -/
theorem C99_padded_partial (hx : CityTexts float ct xs) (hi : IntTexts int digits) (hn : 3 ≤ xs.length) (hs : ∀ x, FloatText float (str (fl x)) (fl x)) (hb : ∀ p ∈ xs, |p.1| ≤ 3 ∧ |p.2| ≤ 3) {m : Nat} (hm : xs.length ≤ m) (rest : List Char)
    {draws : List Draw} (hd : ∀ d ∈ draws, PossibleDraw d) (dist : ℚ × ℚ → ℚ × ℚ → ℚ) (knn : Option ((Nat → Nat → ℚ) → Nat → List Nat)) :
    ∃ o, padLine float str digits xs.length m ([' '].intercalate (coordTexts ct) ++ " output".toList ++ rest) draws = .ok o ∧ ∀ out, o = some out →
      ∃ dt ds, Dummies xs (m - xs.length) ds ∧ CityTexts float (ct ++ dt) (xs ++ ds) ∧ out = driverLine digits (ct ++ dt) ∧
        lineCities float out = .ok (xs ++ ds) ∧ ∃ smp, computeSample float (processLine float int dist knn m) [out] [out] = .ok smp ∧ smp.coord = xs ++ ds := by
  have hne : ct ≠ [] := by intro e; have := CityTexts.length hx; rw [e] at this; simp at this; omega
  obtain ⟨s, ds, e, h⟩ := pad_loop hne (by omega) hs hb draws hd _ _ (pad_init (str := str) hx (m - xs.length))
  rw [pad_start hx hne, e, ok_bind]
  by_cases h0 : s.left = 0
  · rw [if_pos h0]
    refine ⟨_, rfl, ?_⟩
    rintro out ⟨⟩
    have hl := h.left
    rw [h0, Nat.zero_add] at hl
    have hall : CityTexts float (ct ++ dummyTexts str ds) (xs ++ ds) := List.rel_append hx h.texts
    have hlen : (ct ++ dummyTexts str ds).length = m := by
      rw [CityTexts.length hall, List.length_append, hl]; omega
    have hline : s.text ++ (" output ".toList ++ (((List.range m).flatMap fun i => digits (i + 1) ++ [' ']) ++ digits 1)) = driverLine digits (ct ++ dummyTexts str ds) := by
      rw [driverLine, inter_cities, h.text, hlen]
    have hne' : ct ++ dummyTexts str ds ≠ [] := by simp [hne]
    refine ⟨dummyTexts str ds, ds, hl ▸ h.dummies, hall, hline, ?_, ?_⟩
    · have hw := (C61_line (CityTexts.length hall) hne' (fun i h1 h2 => List.Forall₂.get hall h1 h2)
        (' ' :: (((List.range (ct ++ dummyTexts str ds).length).flatMap fun i => digits (i + 1) ++ [' ']) ++ digits 1))).1
      rw [hline]
      rw [← hw]
      congr 1
      have : " output ".toList = " output".toList ++ [' '] := by decide
      rw [driverLine, inter_cities, this]
      simp only [List.append_assoc, List.cons_append, List.nil_append]
      rfl
    · have hm' : m = (xs ++ ds).length := by rw [← CityTexts.length hall, hlen]
      rw [hline, hm']
      exact C72_driver hall hi (by rw [List.length_append]; omega)
  · rw [if_neg h0]
    exact ⟨_, rfl, fun out h => by cases h⟩

/-! ### The program ends -/

/-- the possible draws -/
def allDraws : List Draw := (List.range' 1 8).flatMap fun v1 => (List.range' 1 8).flatMap fun v2 => [⟨v1, v2, 1, 1⟩, ⟨v1, v2, 1, -1⟩, ⟨v1, v2, -1, 1⟩, ⟨v1, v2, -1, -1⟩]

theorem allDraws_possible : ∀ d ∈ allDraws, PossibleDraw d := by
  intro d hd
  unfold allDraws at hd
  simp only [List.mem_flatMap, List.mem_range'_1, List.mem_cons, List.not_mem_nil, or_false] at hd
  obtain ⟨v1, h1, v2, h2, hd⟩ := hd
  rcases hd with rfl | rfl | rfl | rfl <;> exact ⟨by dsimp only; omega, by dsimp only; omega, by simp, by simp⟩

theorem allDraws_nodup : allDraws.Nodup ∧ allDraws.length = 256 := by decide +kernel

/-- some draw gives a new city -/
theorem some_draw {a : ℚ × ℚ} (ha : |a.1| ≤ 3 ∧ |a.2| ≤ 3) {g : List (ℚ × ℚ)} (hg : g.length < 256) : ∃ d, PossibleDraw d ∧ (movedBy a.1 d.s1 d.v1, movedBy a.2 d.s2 d.v2) ∉ g := by
  by_contra hcon
  push Not at hcon
  have hnd : (allDraws.map fun d => (movedBy a.1 d.s1 d.v1, movedBy a.2 d.s2 d.v2)).Nodup := by
    refine (List.nodup_map_iff_inj_on allDraws_nodup.1).2 ?_
    intro d hd d' hd' e
    have p := allDraws_possible d hd
    have p' := allDraws_possible d' hd'
    obtain ⟨e1, e2⟩ := Prod.mk.inj e
    obtain ⟨i1, i2⟩ := moved_inj ha.1 p.s1 p.v1 p'.s1 p'.v1 e1
    obtain ⟨j1, j2⟩ := moved_inj ha.2 p.s2 p.v2 p'.s2 p'.v2 e2
    cases d; cases d'
    simp_all
  have hsub : (allDraws.map fun d => (movedBy a.1 d.s1 d.v1, movedBy a.2 d.s2 d.v2)) ⊆ g := by
    intro p hp
    obtain ⟨d, hd, rfl⟩ := List.mem_map.1 hp
    exact hcon d (allDraws_possible d hd)
  have := (List.subperm_of_subset hnd hsub).length_le
  rw [List.length_map, allDraws_nodup.2] at this
  omega

theorem pad_progress (hne : ct ≠ []) (hx0 : 0 < xs.length) (hs : ∀ x, FloatText float (str (fl x)) (fl x)) (hb : ∀ p ∈ xs, |p.1| ≤ 3 ∧ |p.2| ≤ 3) {k : Nat} (hk : xs.length + k ≤ 256) {draws : Nat → Draw} (hp : ∀ i, PossibleDraw (draws i))
    (hinf : ∀ d, PossibleDraw d → ∀ N, ∃ i, N ≤ i ∧ draws i = d) : ∀ (left N : Nat) (s : Pad) (ds : List (ℚ × ℚ)), s.left = left → PadInv str float ct xs k s ds →
      forList (padStep str xs.length) ((List.range N).map draws) { graph := xs, text := [' '].intercalate (cityFields ct), rr := 0, left := k } = .ok s →
      ∃ N' s', forList (padStep str xs.length) ((List.range N').map draws) { graph := xs, text := [' '].intercalate (cityFields ct), rr := 0, left := k } = .ok s' ∧ s'.left = 0 := by
  intro left
  induction left with
  | zero => intro N s ds hl _ e; exact ⟨N, s, e, hl⟩
  | succ left ih =>
    intro N s ds hl h e
    -- follow the draws until one is accepted
    have hr : ds.length % xs.length < xs.length := Nat.mod_lt _ hx0
    obtain ⟨d, hd, hfresh⟩ := some_draw (hb _ (List.getElem_mem hr)) (g := s.graph) (by
      have := h.left
      rw [h.graph, List.length_append]; omega)
    obtain ⟨i, hiN, hid⟩ := hinf d hd N
    -- the state does not change before the next dummy
    have walk : ∀ j, (∃ N' s' ds', forList (padStep str xs.length) ((List.range N').map draws) { graph := xs, text := [' '].intercalate (cityFields ct), rr := 0, left := k } = .ok s' ∧ s'.left = left ∧ PadInv str float ct xs k s' ds') ∨
        forList (padStep str xs.length) ((List.range (N + j)).map draws) { graph := xs, text := [' '].intercalate (cityFields ct), rr := 0, left := k } = .ok s := by
      intro j
      induction j with
      | zero => exact Or.inr e
      | succ j ihj =>
        rcases ihj with hdone | hsame
        · exact Or.inl hdone
        · obtain ⟨s', ds', e', h'⟩ := pad_step hne hx0 hs hb h (hp (N + j))
          have e2 : forList (padStep str xs.length) ((List.range (N + j + 1)).map draws) { graph := xs, text := [' '].intercalate (cityFields ct), rr := 0, left := k } = .ok s' := by
            rw [List.range_succ, List.map_append, List.map_singleton, forList_snoc, hsame, ok_bind, e']
          unfold padStep at e'
          rw [if_neg (by omega)] at e'
          split at e'
          · cases e'
          · next a _ =>
            dsimp only at e'
            split at e'
            · cases e'; exact Or.inr e2
            · refine Or.inl ⟨N + j + 1, s', ds', e2, ?_, h'⟩
              cases e'
              show s.left - 1 = left
              omega
    rcases walk (i - N) with ⟨N', s', ds', e1, e2, e3⟩ | hsame
    · exact ih N' s' ds' e2 e3 e1
    · rw [Nat.add_sub_cancel' hiN] at hsame
      obtain ⟨s', ds', e', h'⟩ := pad_step hne hx0 hs hb h (hp i)
      have e2 : forList (padStep str xs.length) ((List.range (i + 1)).map draws) { graph := xs, text := [' '].intercalate (cityFields ct), rr := 0, left := k } = .ok s' := by
        rw [List.range_succ, List.map_append, List.map_singleton, forList_snoc, hsame, ok_bind, e']
      have hg : s.graph[s.rr]? = some (xs[ds.length % xs.length]'hr) := by
        rw [h.graph, h.rr, List.getElem?_append_left hr, List.getElem?_eq_getElem hr]
      unfold padStep at e'
      rw [if_neg (by omega), hg, hid] at e'
      dsimp only at e'
      rw [if_neg hfresh] at e'
      refine ih (i + 1) s' ds' ?_ h' e2
      cases e'
      show s.left - 1 = left
      omega

/-- C99: for coordinates of absolute value at most 3 (and at most 256 cities with the dummies), the program has all dummies after finitely many draws, if every possible draw comes up again and again -/
theorem C99_ends_partial (hx : CityTexts float ct xs) (hn : 0 < xs.length) (hs : ∀ x, FloatText float (str (fl x)) (fl x)) (hb : ∀ p ∈ xs, |p.1| ≤ 3 ∧ |p.2| ≤ 3) {m : Nat} (hm : xs.length ≤ m) (h256 : m ≤ 256) (rest : List Char)
    {draws : Nat → Draw} (hp : ∀ i, PossibleDraw (draws i)) (hinf : ∀ d, PossibleDraw d → ∀ N, ∃ i, N ≤ i ∧ draws i = d) :
    ∃ N out, padLine float str digits xs.length m ([' '].intercalate (coordTexts ct) ++ " output".toList ++ rest) ((List.range N).map draws) = .ok (some out) := by
  have hne : ct ≠ [] := by intro e; have := CityTexts.length hx; rw [e] at this; simp at this; omega
  obtain ⟨N, s, e, h0⟩ := pad_progress hne hn hs hb (k := m - xs.length) (by omega) hp hinf _ 0 _ [] rfl (pad_init hx _) rfl
  refine ⟨N, ?_⟩
  rw [pad_start hx hne, e, ok_bind, if_pos h0]
  exact ⟨_, rfl⟩

end

end Verif
