import Verif.Props.Padding

/-!
# C99: where padding fails
-/
namespace Verif
open Verif.Spec
set_option autoImplicit false

theorem nearestEven_near {m : ℤ} {x : ℚ} (hx : |x| < 1 / 2) : nearestEven ((m : ℚ) + x) = m := by
  have h := nearestEven_error ((m : ℚ) + x)
  have h2 : |((nearestEven ((m : ℚ) + x) - m : ℤ) : ℚ)| < 1 := by
    have := abs_add_le ((nearestEven ((m : ℚ) + x) : ℚ) - (m + x)) x
    have e : (nearestEven ((m : ℚ) + x) : ℚ) - (m + x) + x = ((nearestEven ((m : ℚ) + x) - m : ℤ) : ℚ) := by push_cast; ring
    rw [e] at this
    linarith
  have h3 : |nearestEven ((m : ℚ) + x) - m| < 1 := by exact_mod_cast h2
  rw [Int.abs_lt_one_iff] at h3
  omega

/-- what is added is lost in the rounding to the nearest -/
theorem nearest_lost {i : ℤ} (h1 : 129 ≤ |i|) (h2 : |i| < 2 ^ 52) {x : ℚ} (hx : |x| ≤ 9 / 10 ^ 15) : @fl nearest ((i : ℚ) + x) = i := by
  show roundBy nearestEven ((i : ℚ) + x) = i
  have a1 : (129 : ℚ) ≤ |(i : ℚ)| := by exact_mod_cast h1
  have a2 : |(i : ℚ)| ≤ 2 ^ 52 := by exact_mod_cast h2.le
  have b1 : (128 : ℚ) ≤ |(i : ℚ) + x| := by
    have := abs_sub_abs_le_abs_sub (i : ℚ) (-x)
    rw [sub_neg_eq_add, abs_neg] at this
    have : (9 : ℚ) / 10 ^ 15 ≤ 1 := by norm_num
    linarith
  have b2 : |(i : ℚ) + x| < 2 ^ 53 := by
    have := abs_add_le (i : ℚ) x
    have : (9 : ℚ) / 10 ^ 15 ≤ 1 := by norm_num
    have : (2 : ℚ) ^ 52 + 1 < 2 ^ 53 := by norm_num
    linarith
  have hpos : 0 < |(i : ℚ) + x| := by linarith
  have l1 : ¬ Int.log 2 |(i : ℚ) + x| < 7 := by
    rw [← Int.lt_zpow_iff_log_lt (b := 2) (by norm_num) hpos]
    norm_num
    exact b1
  have l2 : Int.log 2 |(i : ℚ) + x| < 53 := by
    rw [← Int.lt_zpow_iff_log_lt (b := 2) (by norm_num) hpos]
    exact_mod_cast b2
  obtain ⟨k, hk, hk45⟩ : ∃ k : ℕ, lastBit ((i : ℚ) + x) = -(k : ℤ) ∧ k ≤ 45 := by
    unfold lastBit
    refine ⟨(52 - Int.log 2 |(i : ℚ) + x|).toNat, ?_, ?_⟩ <;> omega
  unfold roundBy
  rw [hk]
  have hz : (2 : ℚ) ^ (-(k : ℤ)) = 1 / 2 ^ k := by rw [zpow_neg, zpow_natCast, one_div]
  have hp : (0 : ℚ) < 2 ^ k := by positivity
  rw [hz]
  have e : ((i : ℚ) + x) / (1 / 2 ^ k) = ((i * 2 ^ k : ℤ) : ℚ) + x * 2 ^ k := by
    push_cast; field_simp
  rw [e, nearestEven_near]
  · push_cast; field_simp
  · rw [abs_mul, abs_of_pos hp]
    have hle : (2 : ℚ) ^ k ≤ 2 ^ 45 := pow_le_pow_right₀ (by norm_num) hk45
    have : |x| * 2 ^ k ≤ 9 / 10 ^ 15 * 2 ^ 45 := mul_le_mul hx hle hp.le (by norm_num)
    exact lt_of_le_of_lt this (by norm_num)

theorem moved_lost {i : ℤ} (h1 : 129 ≤ |i|) (h2 : |i| < 2 ^ 52) {s : Int} {v : Nat} (hs : s = 1 ∨ s = -1) (hv : v ≤ 8) : @movedBy nearest i s v = i := by
  unfold movedBy
  refine nearest_lost h1 h2 ?_
  have hk : |s * (v : Int)| ≤ 8 := by
    rw [abs_mul]
    rcases hs with rfl | rfl <;> simp <;> omega
  have e1 := @pad_error nearest _ hk
  have hk' : |((s * v : Int) : ℚ)| ≤ 8 := by exact_mod_cast hk
  have e2 : |((s * v : Int) : ℚ) / 10 ^ 15| ≤ 8 / 10 ^ 15 := by
    rw [abs_div, abs_of_pos (by norm_num : (0 : ℚ) < 10 ^ 15)]
    gcongr
  generalize @fl nearest (((s * v : Int) : ℚ) * @fl nearest (1 / 10 ^ 15)) = z at e1 ⊢
  generalize ((s * v : Int) : ℚ) / 10 ^ 15 = y at e1 e2
  have := abs_add_le (z - y) y
  rw [sub_add_cancel] at this
  have n1 : (1 : ℚ) / 2 ^ 98 + 8 / 10 ^ 15 ≤ 9 / 10 ^ 15 := by norm_num
  exact this.trans ((add_le_add e1 e2).trans n1)

section
variable {float : List Char → Option ℚ} {int : List Char → Option Nat} {str : ℚ → List Char} {digits : Nat → List Char} {ct : List (List Char × List Char)} {xs : List (ℚ × ℚ)}

/-- C99 fails. If the coordinates of the first city are whole numbers of absolute value at least 129, then with the arithmetic of the machine (rounding to the nearest) the program never ends: whatever is drawn, and
however often, no dummy is found. -/
theorem C99_fails (hx : CityTexts float ct xs) {i j : ℤ} {l : List (ℚ × ℚ)} (he : xs = ((i : ℚ), (j : ℚ)) :: l) (hi : 129 ≤ |i| ∧ |i| < 2 ^ 52) (hj : 129 ≤ |j| ∧ |j| < 2 ^ 52) {m : Nat} (hm : xs.length < m) (rest : List Char)
    {draws : List Draw} (hd : ∀ d ∈ draws, PossibleDraw d) :
    @padLine nearest float str digits xs.length m ([' '].intercalate (coordTexts ct) ++ " output".toList ++ rest) draws = .ok none := by
  have hne : ct ≠ [] := by intro e; have := CityTexts.length hx; rw [e, he] at this; simp at this
  rw [@pad_start nearest _ _ _ _ _ hx hne]
  have key : ∀ draws : List Draw, (∀ d ∈ draws, PossibleDraw d) → forList (@padStep nearest str xs.length) draws { graph := xs, text := [' '].intercalate (cityFields ct), rr := 0, left := m - xs.length }
      = .ok { graph := xs, text := [' '].intercalate (cityFields ct), rr := 0, left := m - xs.length } := by
    intro draws
    induction draws with
    | nil => intro _; rfl
    | cons d draws ih =>
      intro hd
      have p := hd d (by simp)
      have hs : @padStep nearest str xs.length { graph := xs, text := [' '].intercalate (cityFields ct), rr := 0, left := m - xs.length } d
          = .ok { graph := xs, text := [' '].intercalate (cityFields ct), rr := 0, left := m - xs.length } := by
        unfold padStep
        rw [if_neg (by dsimp only; omega)]
        have hg : xs[0]? = some ((i : ℚ), (j : ℚ)) := by rw [he]; rfl
        dsimp only
        rw [hg]
        dsimp only
        rw [moved_lost hi.1 hi.2 p.s1 p.v1.2, moved_lost hj.1 hj.2 p.s2 p.v2.2, if_pos (by rw [he]; simp)]
      rw [forList, hs, ok_bind]
      exact ih fun x hx => hd x (by simp [hx])
  rw [key draws hd, ok_bind, if_neg (by dsimp only; omega)]
  rfl

theorem mem_inter {c : Char} {t : List Char} : ∀ {L : List (List Char)}, t ∈ L → c ∈ t → c ∈ [' '].intercalate L
  | [], h, _ => by cases h
  | [a], h, hc => by
    rw [List.mem_singleton] at h; subst h
    simpa [List.intercalate] using hc
  | a :: b :: L, h, hc => by
    rw [inter_cons2, List.mem_append, List.mem_cons]
    rcases List.mem_cons.1 h with rfl | h
    · exact Or.inl hc
    · exact Or.inr (Or.inr (mem_inter h hc))

/-- C99 fails for a line without the word `output` (which the driver accepts, C61): the newline at its end stays in the middle, so the dummies are in the second line of the file, and the reader of the network raises
an exception for the first -/
theorem C99_fails_plain [Rounding] (hx : CityTexts float ct xs) (hn : 0 < xs.length) {m : Nat} {draws : List Draw} {out : List Char}
    (e : padLine float str digits xs.length m ([' '].intercalate (coordTexts ct) ++ ['\n']) draws = .ok (some out)) (dist : ℚ × ℚ → ℚ × ℚ → ℚ) (knn : Option ((Nat → Nat → ℚ) → Nat → List Nat)) :
    ∃ more, out = [' '].intercalate (coordTexts ct) ++ ['\n'] ++ more ∧ ∀ smp, processLine float int dist knn m ([' '].intercalate (coordTexts ct) ++ ['\n']) ≠ .ok smp := by
  have hne : ct ≠ [] := by intro e; have := CityTexts.length hx; rw [e] at this; simp at this; omega
  have ho := (lineCities_core (CityTexts.length hx) hne (fun i h1 h2 => List.Forall₂.get hx h1 h2) (Or.inl rfl)).2
  have hb : before " output".toList ([' '].intercalate (coordTexts ct) ++ ['\n']) = [' '].intercalate (coordTexts ct) ++ ['\n'] := by
    have key : ∀ s : List Char, 'o' ∉ s → before " output".toList s = s := by
      intro s
      induction s with
      | nil => intro _; rfl
      | cons ch s ih =>
        intro h
        rw [before, ih fun hm => h (by simp [hm])]
        refine if_neg ?_
        intro hpre
        have := (List.isPrefixOf_iff_prefix.1 hpre).subset (show 'o' ∈ " output".toList by decide)
        exact h this
    exact key _ (by rw [List.mem_append, not_or]; exact ⟨ho, by decide⟩)
  unfold padLine at e
  rw [hb] at e
  dsimp only at e
  obtain ⟨f, e1, e⟩ := bind_eq_ok.1 e
  obtain ⟨g, e2, e⟩ := bind_eq_ok.1 e
  obtain ⟨s, e3, e⟩ := bind_eq_ok.1 e
  obtain ⟨more, hmore⟩ := forList_inv (fun _ s => ∃ u, s.text = [' '].intercalate (coordTexts ct) ++ ['\n'] ++ u) (by
    rintro p d b b' ⟨u, hu⟩ hb'
    unfold padStep at hb'
    split at hb'
    · cases hb'; exact ⟨u, hu⟩
    · split at hb'
      · cases hb'
      · dsimp only at hb'
        split at hb'
        · cases hb'; exact ⟨u, hu⟩
        · cases hb'
          dsimp only
          exact ⟨_, by rw [hu]; simp only [List.append_assoc]; rfl⟩) _ _ _ ⟨[], by simp⟩ e3
  split at e
  · cases e
    refine ⟨_, by rw [hmore, List.append_assoc], ?_⟩
    intro smp hp
    unfold processLine at hp
    dsimp only at hp
    obtain ⟨c, -, hp⟩ := bind_eq_ok.1 hp
    obtain ⟨t, ht, -⟩ := bind_eq_ok.1 hp
    unfold readTour at ht
    split at ht
    · next hm =>
      have : 'o' ∈ [' '].intercalate (([' '].intercalate (coordTexts ct) ++ ['\n']).splitOn ' ') := mem_inter hm (by decide)
      rw [List.intercalate_splitOn, List.mem_append] at this
      rcases this with h | h
      · exact ho h
      · revert h; decide
    · cases ht
  · cases e

end

end Verif
