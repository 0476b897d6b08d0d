import Verif.Props.Driver
import Mathlib.Data.List.GetD

/-!
# C61: the cities of a line of an instance file
-/
namespace Verif
open Verif.Spec
set_option autoImplicit false

/-- the text of a coordinate: not empty, no white space, no letter `o`, and Python's `float` reads it as `x` -/
structure Spec.FloatText (float : List Char → Option ℚ) (t : List Char) (x : ℚ) : Prop where
  reads : float t = some x
  ne : t ≠ []
  clean : ∀ ch ∈ t, isSpace ch = false ∧ ch ≠ 'o'

/-- the texts of the coordinates of the cities: `x0 y0 x1 y1 …` -/
def Spec.coordTexts (ct : List (List Char × List Char)) : List (List Char) := ct.flatMap fun p => [p.1, p.2]

theorem before_output {s rest : List Char} (h : 'o' ∉ s) : before " output".toList (s ++ " output".toList ++ rest) = s := by
  induction s with
  | nil => rfl
  | cons ch s ih =>
    rw [List.mem_cons, not_or] at h
    rw [List.cons_append, List.cons_append, before]
    have hp : (" output".toList).isPrefixOf (ch :: (s ++ " output".toList ++ rest)) = false := by
      cases s with
      | nil =>
        show (' ' :: 'o' :: "utput".toList).isPrefixOf (ch :: ' ' :: ("output".toList ++ rest)) = false
        simp [List.isPrefixOf]
      | cons d s =>
        have hd : ¬ 'o' = d := fun h' => h.2 (by rw [h']; exact List.mem_cons_self)
        show (' ' :: 'o' :: "utput".toList).isPrefixOf (ch :: d :: (s ++ " output".toList ++ rest)) = false
        simp [List.isPrefixOf, hd]
    rw [hp, ih h.2]
    rfl

theorem pyIn_output {s rest : List Char} : pyIn "output".toList (s ++ " output".toList ++ rest) = true := by
  induction s with
  | nil => 
    show ((_ : Bool) || ((_ : Bool) || _)) = true
    have : ("output".toList).isPrefixOf ("output".toList ++ rest) = true := by simp
    rw [Bool.or_eq_true]; right
    rw [Bool.or_eq_true]; left; exact this
  | cons ch s ih =>
    rw [List.cons_append, List.cons_append, pyIn, ih, Bool.or_true]

theorem pyIn_no {s : List Char} (h : 'o' ∉ s) : pyIn "output".toList s = false := by
  induction s with
  | nil => rfl
  | cons ch s ih =>
    rw [List.mem_cons, not_or] at h
    rw [pyIn, ih h.2, Bool.or_false]
    show ('o' :: "utput".toList).isPrefixOf (ch :: s) = false
    simp [List.isPrefixOf, h.1]

theorem floats_map {float : List Char → Option ℚ} {α : Type} {t : α → List Char} {x : α → ℚ} : ∀ {l : List α}, (∀ a ∈ l, float (t a) = some (x a)) → floats float (l.map t) = .ok (l.map x) := by
  intro l
  induction l with
  | nil => intro _; rfl
  | cons a l ih =>
    intro h
    rw [List.map_cons, floats, h a List.mem_cons_self]
    simp only
    rw [ih fun b hb => h b (List.mem_cons_of_mem _ hb)]
    rfl

theorem pairUp_flat : ∀ xs : List (ℚ × ℚ), pairUp (xs.flatMap fun p => [p.1, p.2]) = .ok xs := by
  intro xs
  induction xs with
  | nil => rfl
  | cons p xs ih =>
    rw [List.flatMap_cons]
    show (pairUp (xs.flatMap fun p => [p.1, p.2]) >>= _) = _
    rw [ih]; rfl

theorem strip_self {s : List Char} (h : s ≠ []) (h1 : isSpace (s.head h) = false) (h2 : isSpace (s.getLast h) = false) : strip s = s := by
  unfold strip
  obtain ⟨a, s', rfl⟩ := List.exists_cons_of_ne_nil h
  rw [List.head_cons] at h1
  have e1 : (a :: s').dropWhile isSpace = a :: s' := by rw [List.dropWhile_cons, if_neg (by rw [h1]; exact Bool.false_ne_true)]
  rw [e1]
  have hr : (a :: s').reverse ≠ [] := by simp
  have e2 : ((a :: s').reverse).dropWhile isSpace = (a :: s').reverse := by
    obtain ⟨b, r, hb⟩ := List.exists_cons_of_ne_nil hr
    rw [hb, List.dropWhile_cons, if_neg]
    have : b = (a :: s').getLast h := by
      have h3 := List.head_reverse hr
      simp only [hb, List.head_cons] at h3
      exact h3
    rw [this, h2]
    exact Bool.false_ne_true
  rw [e2, List.reverse_reverse]

theorem mem_join {ts : List (List Char)} {ch : Char} (h : ch ∈ [' '].intercalate ts) : ch = ' ' ∨ ∃ t ∈ ts, ch ∈ t := by
  induction ts with
  | nil => simp [List.intercalate] at h
  | cons t ts ih =>
    cases ts with
    | nil => 
      right; exact ⟨t, by simp, by simpa [List.intercalate] using h⟩
    | cons u ts =>
      have e : [' '].intercalate (t :: u :: ts) = t ++ (' ' :: [' '].intercalate (u :: ts)) := by simp [List.intercalate]
      rw [e, List.mem_append, List.mem_cons] at h
      rcases h with h | h | h
      · exact Or.inr ⟨t, by simp, h⟩
      · exact Or.inl h
      · rcases ih h with h | ⟨x, hx, h⟩
        · exact Or.inl h
        · exact Or.inr ⟨x, List.mem_cons_of_mem _ hx, h⟩

theorem join_ends {ts : List (List Char)} (hne : ts ≠ []) (h : ∀ t ∈ ts, t ≠ [] ∧ ∀ ch ∈ t, isSpace ch = false) :
    ∃ hj : [' '].intercalate ts ≠ [], isSpace (([' '].intercalate ts).head hj) = false ∧ isSpace (([' '].intercalate ts).getLast hj) = false := by
  induction ts with
  | nil => exact absurd rfl hne
  | cons t ts ih =>
    have ht := h t List.mem_cons_self
    cases ts with
    | nil =>
      have e : [' '].intercalate [t] = t := by simp [List.intercalate]
      refine ⟨by rw [e]; exact ht.1, ?_, ?_⟩
      · simp only [e]; exact ht.2 _ (List.head_mem _)
      · simp only [e]; exact ht.2 _ (List.getLast_mem _)
    | cons u ts =>
      obtain ⟨hj, h1, h2⟩ := ih (by simp) (fun x hx => h x (List.mem_cons_of_mem _ hx))
      have e : [' '].intercalate (t :: u :: ts) = t ++ (' ' :: [' '].intercalate (u :: ts)) := by simp [List.intercalate]
      refine ⟨by rw [e]; simp, ?_, ?_⟩
      · simp only [e]
        rw [List.head_append_of_ne_nil ht.1]
        exact ht.2 _ (List.head_mem _)
      · simp only [e]
        rw [List.getLast_append_of_ne_nil _ (by simp), List.getLast_cons hj]
        exact h2

section
variable {float : List Char → Option ℚ} {ct : List (List Char × List Char)} {xs : List (ℚ × ℚ)}

theorem lineCities_core (hl : ct.length = xs.length) (hne : ct ≠ []) (h : ∀ i (h1 : i < ct.length) (h2 : i < xs.length), FloatText float ct[i].1 xs[i].1 ∧ FloatText float ct[i].2 xs[i].2) {tail : List Char}
    (ht : tail = [] ∨ tail = ['\n']) :
    (floats float ((strip (([' '].intercalate (coordTexts ct) ++ tail).filter (· ≠ '\n'))).splitOn ' ') >>= pairUp) = .ok xs ∧ 'o' ∉ [' '].intercalate (coordTexts ct) := by
  have hz : ∀ q ∈ ct.zip xs, FloatText float q.1.1 q.2.1 ∧ FloatText float q.1.2 q.2.2 := by
    intro q hq
    obtain ⟨i, hi, rfl⟩ := List.getElem_of_mem hq
    rw [List.length_zip] at hi
    simpa only [List.getElem_zip] using h i (by omega) (by omega)
  have hall : ∀ t ∈ coordTexts ct, ∃ x, FloatText float t x := by
    intro t ht
    obtain ⟨p, hp, hm⟩ := List.mem_flatMap.1 ht
    obtain ⟨i, hi, rfl⟩ := List.getElem_of_mem hp
    obtain ⟨h1, h2⟩ := h i hi (by omega)
    simp only [List.mem_cons, List.not_mem_nil, or_false] at hm
    rcases hm with rfl | rfl
    · exact ⟨_, h1⟩
    · exact ⟨_, h2⟩
  have hts : ∀ t ∈ coordTexts ct, t ≠ [] ∧ ∀ ch ∈ t, isSpace ch = false := by
    intro t ht
    obtain ⟨x, hx⟩ := hall t ht
    exact ⟨hx.ne, fun ch hc => (hx.clean ch hc).1⟩
  have hcne : coordTexts ct ≠ [] := by
    obtain ⟨p, r, rfl⟩ := List.exists_cons_of_ne_nil hne
    simp [coordTexts]
  obtain ⟨hj, hh, hla⟩ := join_ends hcne hts
  have hnl : '\n' ∉ [' '].intercalate (coordTexts ct) := by
    intro hm
    rcases mem_join hm with h' | ⟨t, ht, h'⟩
    · exact absurd h' (by decide)
    · have := (hts t ht).2 _ h'
      exact absurd this (by decide)
  have ho : 'o' ∉ [' '].intercalate (coordTexts ct) := by
    intro hm
    rcases mem_join hm with h' | ⟨t, ht, h'⟩
    · exact absurd h' (by decide)
    · obtain ⟨x, hx⟩ := hall t ht
      exact (hx.clean _ h').2 rfl
  have hfil : ([' '].intercalate (coordTexts ct) ++ tail).filter (· ≠ '\n') = [' '].intercalate (coordTexts ct) := by
    rw [List.filter_append]
    have : tail.filter (· ≠ '\n') = [] := by rcases ht with rfl | rfl <;> rfl
    rw [this, List.append_nil, List.filter_eq_self]
    intro ch hc
    simp only [decide_eq_true_eq]
    rintro rfl
    exact hnl hc
  refine ⟨?_, ho⟩
  rw [hfil, strip_self hj hh hla, List.splitOn_intercalate ' ' _ hcne]
  · have e1 : coordTexts ct = ((ct.zip xs).flatMap fun q => [(q.1.1, q.2.1), (q.1.2, q.2.2)]).map Prod.fst := by
      rw [List.map_flatMap]
      show _ = (ct.zip xs).flatMap fun q => [q.1.1, q.1.2]
      conv_lhs => rw [← List.map_fst_zip (l₁ := ct) (l₂ := xs) (by omega)]
      unfold coordTexts
      rw [List.flatMap_map]
    have e2 : xs.flatMap (fun p => [p.1, p.2]) = ((ct.zip xs).flatMap fun q => [(q.1.1, q.2.1), (q.1.2, q.2.2)]).map Prod.snd := by
      rw [List.map_flatMap]
      show _ = (ct.zip xs).flatMap fun q => [q.2.1, q.2.2]
      conv_lhs => rw [← List.map_snd_zip (l₁ := ct) (l₂ := xs) (by omega)]
      rw [List.flatMap_map]
    rw [e1, floats_map (x := Prod.snd), ok_bind, ← e2, pairUp_flat]
    intro a ha
    obtain ⟨q, hq, hm⟩ := List.mem_flatMap.1 ha
    obtain ⟨h1, h2⟩ := hz q hq
    simp only [List.mem_cons, List.not_mem_nil, or_false] at hm
    rcases hm with rfl | rfl
    · exact h1.reads
    · exact h2.reads
  · intro t ht hm
    have := (hts t ht).2 _ hm
    exact absurd this (by decide)

/-- C61. A line `x0 y0 x1 y1 … output …` (whatever follows the word), or without an output part, with or without a newline, is taken as the cities with these coordinates, in order. -/
theorem C61_line (hl : ct.length = xs.length) (hne : ct ≠ []) (h : ∀ i (h1 : i < ct.length) (h2 : i < xs.length), FloatText float ct[i].1 xs[i].1 ∧ FloatText float ct[i].2 xs[i].2) (rest : List Char) :
    lineCities float ([' '].intercalate (coordTexts ct) ++ " output".toList ++ rest) = .ok xs ∧ lineCities float ([' '].intercalate (coordTexts ct) ++ ['\n']) = .ok xs ∧
      lineCities float ([' '].intercalate (coordTexts ct)) = .ok xs := by
  obtain ⟨e, ho⟩ := lineCities_core hl hne h (Or.inl rfl)
  obtain ⟨e', -⟩ := lineCities_core hl hne h (tail := ['\n']) (Or.inr rfl)
  refine ⟨?_, ?_, ?_⟩
  · unfold lineCities
    rw [pyIn_output, if_pos rfl, before_output ho]
    rw [List.append_nil] at e
    exact e
  · unfold lineCities
    rw [pyIn_no (by rw [List.mem_append, not_or]; exact ⟨ho, by decide⟩), if_neg Bool.false_ne_true]
    exact e'
  · unfold lineCities
    rw [pyIn_no ho, if_neg Bool.false_ne_true]
    rw [List.append_nil] at e
    exact e

end

/-- C61: an odd number of coordinates, or a text that is not a number, is rejected with an exception. -/
theorem C61_rejects {float : List Char → Option ℚ} {line : List Char} {xs : List (ℚ × ℚ)} (e : lineCities float line = .ok xs) :
    ∃ ts : List (List Char), ts.length = 2 * xs.length ∧
      (strip (((if pyIn "output".toList line then before " output".toList line else line)).filter (· ≠ '\n'))).splitOn ' ' = ts ∧
      ts.map float = (xs.flatMap fun p => [p.1, p.2]).map some := by
  unfold lineCities at e
  obtain ⟨f, e1, e2⟩ := bind_eq_ok.1 e
  have hf : ∀ (ts : List (List Char)) f, floats float ts = .ok f → ts.map float = f.map some := by
    intro ts
    induction ts with
    | nil => intro f h; cases h; rfl
    | cons t ts ih =>
      intro f h
      rw [floats] at h
      cases ht : float t with
      | none => rw [ht] at h; cases h
      | some a =>
        rw [ht] at h
        obtain ⟨r, h1, h2⟩ := bind_eq_ok.1 h
        cases h2
        rw [List.map_cons, List.map_cons, ih r h1, ht]
  have hp : ∀ (xs : List (ℚ × ℚ)) f, pairUp f = .ok xs → f = xs.flatMap fun p => [p.1, p.2] := by
    intro xs
    induction xs with
    | nil =>
      intro f h
      match f, h with
      | [], _ => rfl
      | [_], h => cases h
      | a :: b :: r, h => 
        obtain ⟨t, _, h2⟩ := bind_eq_ok.1 (show (pairUp r >>= fun t => pure ((a, b) :: t)) = .ok [] from h)
        cases h2
    | cons p xs ih =>
      intro f h
      match f, h with
      | [], h => cases h
      | [_], h => cases h
      | a :: b :: r, h => 
        obtain ⟨t, h1, h2⟩ := bind_eq_ok.1 (show (pairUp r >>= fun t => pure ((a, b) :: t)) = .ok (p :: xs) from h)
        cases h2
        rw [ih r h1]
        rfl
  have h1 := hf _ _ e1
  have h2 := hp _ _ e2
  subst h2
  refine ⟨_, ?_, rfl, h1⟩
  have := congrArg List.length h1
  rw [List.length_map, List.length_map] at this
  rw [this, List.length_flatMap]
  simp [Nat.mul_comm]

end Verif
