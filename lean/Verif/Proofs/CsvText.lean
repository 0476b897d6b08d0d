import Verif.Spec.CsvSpec

/-!
# Splitting a written file into lines and cells
-/
namespace Verif
open Verif.Spec
set_option autoImplicit false

theorem fileLines_line : ∀ (l s : List Char), '\n' ∉ l → fileLines (l ++ '\n' :: s) = (l ++ ['\n']) :: fileLines s := by
  intro l
  induction l with
  | nil => intro s _; rw [List.nil_append, fileLines, if_pos rfl]; rfl
  | cons ch l ih =>
    intro s h
    rw [List.mem_cons, not_or] at h
    rw [List.cons_append, fileLines, if_neg (Ne.symm h.1), ih s h.2]
    rfl

theorem fileLines_rows : ∀ (ls : List (List Char)), (∀ l ∈ ls, '\n' ∉ l) → fileLines (ls.flatMap fun l => l ++ ['\n']) = ls.map fun l => l ++ ['\n'] := by
  intro ls
  induction ls with
  | nil => intro _; rfl
  | cons l ls ih =>
    intro h
    rw [List.flatMap_cons, List.append_assoc, List.singleton_append, fileLines_line _ _ (h l (by simp)), ih (fun x hx => h x (by simp [hx]))]
    rfl

theorem takeWhile_all {α : Type} {P : α → Bool} : ∀ {l : List α}, (∀ a ∈ l, P a = true) → l.takeWhile P = l := by
  intro l
  induction l with
  | nil => intro _; rfl
  | cons a l ih => intro h; rw [List.takeWhile_cons_of_pos (h a (by simp)), ih fun b hb => h b (by simp [hb])]

theorem cstr_id {l : List Char} (h : ∀ ch ∈ l, ch ≠ '\x00') : cstr l = l := by
  unfold cstr
  exact takeWhile_all (by simpa using h)

theorem inter_row : ∀ (r : List (List Char)), (r.flatMap fun cell => cell ++ [';']) ++ ['\n'] = [';'].intercalate (r ++ [['\n']]) := by
  intro r
  induction r with
  | nil => simp [List.intercalate]
  | cons a r ih =>
    rw [List.flatMap_cons, List.append_assoc, ih]
    cases r with
    | nil => simp [List.intercalate]
    | cons b r => simp [List.intercalate]

theorem inter_last : ∀ (r : List (List Char)) (a : List Char), [';'].intercalate (r ++ [a]) ++ ['\n'] = [';'].intercalate (r ++ [a ++ ['\n']]) := by
  intro r a
  induction r with
  | nil => simp [List.intercalate]
  | cons b r ih =>
    cases r with
    | nil => simp [List.intercalate]
    | cons d r => simp [List.intercalate] at ih ⊢; exact ih

/-- cells without separators -/
def CleanCell (l : List Char) : Prop := (∃ s, l = '(' :: s) ∧ ∀ ch ∈ l, ch ≠ ';' ∧ ch ≠ '\n' ∧ ch ≠ '\x00'

theorem mem_intercalate {a : Char} : ∀ (r : List (List Char)), a ∈ [';'].intercalate r → a = ';' ∨ ∃ l ∈ r, a ∈ l := by
  intro r
  induction r with
  | nil => simp [List.intercalate]
  | cons b r ih =>
    cases r with
    | nil => intro h; right; exact ⟨b, by simp, by simpa [List.intercalate] using h⟩
    | cons d r =>
      intro h
      have : [';'].intercalate (b :: d :: r) = b ++ (';' :: [';'].intercalate (d :: r)) := by simp [List.intercalate]
      rw [this, List.mem_append, List.mem_cons] at h
      rcases h with h | h | h
      · exact Or.inr ⟨b, by simp, h⟩
      · exact Or.inl h
      · rcases ih h with h | ⟨l, hl, h⟩
        · exact Or.inl h
        · exact Or.inr ⟨l, by simp [hl], h⟩

theorem tokens_inter {ls : List (List Char)} (hne : ls ≠ []) (h : ∀ l ∈ ls, l ≠ [] ∧ ∀ ch ∈ l, ch ≠ ';' ∧ ch ≠ '\x00') : tokens ([';'].intercalate ls) = ls := by
  unfold tokens
  rw [cstr_id, List.splitOn_intercalate, List.filter_eq_self.2]
  · intro l hl; simpa using (h l hl).1
  · intro l hl hc; exact ((h l hl).2 _ hc).1 rfl
  · exact hne
  · intro ch hch
    rcases mem_intercalate _ hch with rfl | ⟨l, hl, h'⟩
    · decide
    · exact ((h l hl).2 _ h').2

theorem loopTokens_row {r : List (List Char)} (h : ∀ l ∈ r, CleanCell l) : loopTokens ((r.flatMap fun cell => cell ++ [';']) ++ ['\n']) = r := by
  unfold loopTokens
  rw [inter_row, tokens_inter (by simp)]
  · have hall : ∀ l ∈ r, decide (l ≠ ['\n']) = true := by
      intro l hl
      obtain ⟨⟨s, rfl⟩, -⟩ := h l hl
      simp
    rw [List.takeWhile_append_of_pos hall]
    simp
  · intro l hl
    rcases List.mem_append.1 hl with hl | hl
    · obtain ⟨⟨s, rfl⟩, h2⟩ := h l hl
      exact ⟨by simp, fun ch hch => ⟨(h2 ch hch).1, (h2 ch hch).2.2⟩⟩
    · rw [List.mem_singleton] at hl; subst hl; simp

theorem loopTokens_head {r : List (List Char)} {a : List Char} (h : ∀ l ∈ r ++ [a], CleanCell l) : loopTokens ([';'].intercalate (r ++ [a]) ++ ['\n']) = r ++ [a ++ ['\n']] := by
  unfold loopTokens
  rw [inter_last, tokens_inter (by simp)]
  · apply takeWhile_all
    intro l hl
    rcases List.mem_append.1 hl with hl | hl
    · obtain ⟨⟨s, rfl⟩, -⟩ := h l (by simp [hl])
      simp
    · rw [List.mem_singleton] at hl; subst hl
      obtain ⟨⟨s, rfl⟩, -⟩ := h a (by simp)
      simp
  · intro l hl
    rcases List.mem_append.1 hl with hl | hl
    · obtain ⟨⟨s, rfl⟩, h2⟩ := h l (by simp [hl])
      exact ⟨by simp, fun ch hch => ⟨(h2 ch hch).1, (h2 ch hch).2.2⟩⟩
    · rw [List.mem_singleton] at hl; subst hl
      refine ⟨by simp, fun ch hch => ?_⟩
      rcases List.mem_append.1 hch with hch | hch
      · have := (h a (by simp)).2 ch hch; exact ⟨this.1, this.2.2⟩
      · rw [List.mem_singleton] at hch; subst hch; decide

theorem scanPair_cell {num : List Char → Option (ℚ × List Char)} {a b : List Char} {x y : ℚ} (ha : ReadsAs num a x) (hb : ReadsAs num b y) (t : List Char) :
    scanPair num (cellText a b ++ t) = some (x, y) := by
  unfold cellText
  simp only [List.append_assoc, List.singleton_append, List.cons_append, List.nil_append]
  rw [scanPair, ha.comma]
  obtain ⟨ch, s, rfl, hch⟩ := hb.start
  have : List.dropWhile isSpace (' ' :: (ch :: s ++ ')' :: t)) = (ch :: s) ++ ')' :: t := by
    rw [List.dropWhile_cons_of_pos (by decide), List.cons_append, List.dropWhile_cons_of_neg (by simp [hch])]
  simp only [this, hb.paren]

theorem cellText_clean {num : List Char → Option (ℚ × List Char)} {a b : List Char} {x y : ℚ} (ha : ReadsAs num a x) (hb : ReadsAs num b y) : CleanCell (cellText a b) := by
  refine ⟨⟨_, rfl⟩, ?_⟩
  intro ch hch
  unfold cellText at hch
  simp only [List.mem_append, List.mem_cons, List.not_mem_nil, or_false] at hch
  rcases hch with (((rfl | h) | (rfl | rfl)) | h) | rfl
  · decide
  · exact ha.clean _ h
  · decide
  · decide
  · exact hb.clean _ h
  · decide

theorem csvText_file {num : List Char → Option (ℚ × List Char)} {xs : List (ℚ × ℚ)} {ct : List (List Char × List Char)} {rt : Nat → Nat → List Char × List Char} {w pr : Nat → Nat → ℚ}
    (hc : ct.length = xs.length) (hct : ∀ i (hi : i < ct.length), ReadsAs num ct[i].1 (xs[i]'(hc ▸ hi)).1 ∧ ReadsAs num ct[i].2 (xs[i]'(hc ▸ hi)).2)
    (hrt : ∀ i < xs.length, ∀ j < xs.length, ReadsAs num (rt i j).1 (w i j) ∧ ReadsAs num (rt i j).2 (pr i j)) :
    CsvFile num (csvText (ct.map fun p => cellText p.1 p.2) ((List.range xs.length).map fun k => (List.range xs.length).map fun j => cellText (rt k j).1 (rt k j).2)) xs w pr := by
  have hcl : ∀ l ∈ ct.map (fun p => cellText p.1 p.2), CleanCell l := by
    intro l hl
    obtain ⟨p, hp, rfl⟩ := List.mem_map.1 hl
    obtain ⟨i, hi, rfl⟩ := List.getElem_of_mem hp
    exact cellText_clean (hct i hi).1 (hct i hi).2
  have hrl : ∀ k < xs.length, ∀ l ∈ (List.range xs.length).map (fun j => cellText (rt k j).1 (rt k j).2), CleanCell l := by
    intro k hk l hl
    obtain ⟨j, hj, rfl⟩ := List.mem_map.1 hl
    have := hrt k hk j (List.mem_range.1 hj)
    exact cellText_clean this.1 this.2
  have hlines : fileLines (csvText (ct.map fun p => cellText p.1 p.2) ((List.range xs.length).map fun k => (List.range xs.length).map fun j => cellText (rt k j).1 (rt k j).2)) =
      ([';'].intercalate (ct.map fun p => cellText p.1 p.2) ++ ['\n']) :: ((List.range xs.length).map fun k => (List.range xs.length).map fun j => cellText (rt k j).1 (rt k j).2).map
        fun r => (r.flatMap fun cell => cell ++ [';']) ++ ['\n'] := by
    unfold csvText
    rw [List.append_assoc, List.singleton_append, fileLines_line]
    · congr 1
      have := fileLines_rows (((List.range xs.length).map fun k => (List.range xs.length).map fun j => cellText (rt k j).1 (rt k j).2).map fun r => r.flatMap fun cell => cell ++ [';']) (by
        intro l hl hn
        obtain ⟨r, hr, rfl⟩ := List.mem_map.1 hl
        obtain ⟨k, hk, rfl⟩ := List.mem_map.1 hr
        obtain ⟨cell, hcell, hn⟩ := List.mem_flatMap.1 hn
        have h1 := hrl k (List.mem_range.1 hk) cell hcell
        rcases List.mem_append.1 hn with hn | hn
        · exact (h1.2 _ hn).2.1 rfl
        · rw [List.mem_singleton] at hn; exact absurd hn (by decide))
      rw [List.flatMap_map, List.map_map] at this
      exact this
    · intro hn
      rcases mem_intercalate _ hn with h | ⟨l, hl, h⟩
      · exact absurd h (by decide)
      · exact ((hcl l hl).2 _ h).2.1 rfl
  refine ⟨_, _, hlines, ?_, by simp, ?_⟩
  · rcases List.eq_nil_or_concat ct with rfl | ⟨init, last, hil⟩
    · obtain rfl : xs = [] := List.length_eq_zero_iff.1 hc.symm
      have : loopTokens ([';'].intercalate (([] : List (List Char × List Char)).map fun p => cellText p.1 p.2) ++ ['\n']) = [] := by decide
      rw [this]; rfl
    · rw [List.concat_eq_append] at hil
      subst hil
      rw [List.map_append, List.map_cons, List.map_nil] at hcl ⊢
      rw [loopTokens_head hcl]
      apply List.ext_getElem
      · simp at hc ⊢; exact hc
      · intro i h1 h2
        simp only [List.length_map, List.length_append, List.length_cons, List.length_nil] at h1
        have hi : i < (init ++ [last]).length := by simpa using h1
        obtain ⟨q1, q2⟩ := hct i hi
        rw [List.getElem_map, List.getElem_map]
        rcases Nat.lt_or_ge i init.length with hlt | hge
        · rw [List.getElem_append_left (by simpa using hlt), List.getElem_map]
          simp only [List.getElem_append_left hlt] at q1 q2
          have := scanPair_cell q1 q2 []
          rw [List.append_nil] at this
          rw [this]
        · obtain rfl : i = init.length := by omega
          rw [List.getElem_append_right (by simp)]
          simp only [List.getElem_append_right (le_refl _), Nat.sub_self, List.getElem_cons_zero] at q1 q2
          simp only [List.length_map, Nat.sub_self, List.getElem_cons_zero]
          rw [scanPair_cell q1 q2]
  · intro i hi
    have hi' : i < xs.length := by simpa using hi
    have hrow : (((List.range xs.length).map fun k => (List.range xs.length).map fun j => cellText (rt k j).1 (rt k j).2).map fun r => (r.flatMap fun cell => cell ++ [';']) ++ ['\n'])[i] =
        ((((List.range xs.length).map fun j => cellText (rt i j).1 (rt i j).2).flatMap fun cell => cell ++ [';']) ++ ['\n']) := by simp
    simp only [hrow, loopTokens_row (hrl i hi')]
    refine ⟨by simp, ?_⟩
    intro j hj _
    have hj' : j < xs.length := by simpa using hj
    rw [List.getElem_map, List.getElem_range]
    have := hrt i hi' j hj'
    have := scanPair_cell this.1 this.2 []
    rw [List.append_nil] at this
    exact this

end Verif
