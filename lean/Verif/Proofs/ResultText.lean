import Verif.Model.ResultText
import Mathlib.Tactic.Linarith
import Mathlib.Tactic.Ring
import Mathlib.Tactic.NormNum
import Mathlib.Tactic.IntervalCases
import Mathlib.Tactic.FieldSimp

/-!
# The texts of numbers, and the searches in a text made of literals and numbers
-/
namespace Verif
set_option autoImplicit false

/-! ### Digits -/

/-- a text of digits, not empty -/
def IsDigits (s : List Char) : Prop := s ≠ [] ∧ ∀ ch ∈ s, ch.isDigit = true

theorem digitChar_isDigit {d : Nat} (h : d < 10) : d.digitChar.isDigit = true := by
  interval_cases d <;> decide

theorem digitChar_val {d : Nat} (h : d < 10) : d.digitChar.toNat - 48 = d := by
  interval_cases d <;> decide

theorem digitsFrom_eq : ∀ (k n : Nat), n < k → digitsFrom k n = natText n := by
  have key : ∀ n k m : Nat, n < k → n < m → digitsFrom k n = digitsFrom m n := by
    intro n
    induction n using Nat.strongRecOn with
    | ind n ih =>
      intro k m hk hm
      obtain ⟨k, rfl⟩ := Nat.exists_eq_succ_of_ne_zero (by omega : k ≠ 0)
      obtain ⟨m, rfl⟩ := Nat.exists_eq_succ_of_ne_zero (by omega : m ≠ 0)
      rw [digitsFrom, digitsFrom]
      split
      · rfl
      · rw [ih (n / 10) (by omega) k m (by omega) (by omega)]
  intro k n h
  exact key n k (n + 1) h (by omega)

theorem natText_eq (n : Nat) : natText n = if n < 10 then [n.digitChar] else natText (n / 10) ++ [(n % 10).digitChar] := by
  rw [natText, digitsFrom]
  split
  · rfl
  · rw [digitsFrom_eq n (n / 10) (by omega)]

theorem natText_digits (n : Nat) : IsDigits (natText n) := by
  induction n using Nat.strongRecOn with
  | ind n ih =>
    rw [natText_eq]
    split
    · next h => exact ⟨by simp, by simpa using digitChar_isDigit h⟩
    · next h =>
      refine ⟨by simp, ?_⟩
      intro ch hc
      rcases List.mem_append.1 hc with h' | h'
      · exact (ih (n / 10) (by omega)).2 ch h'
      · rw [List.mem_singleton] at h'; rw [h']; exact digitChar_isDigit (Nat.mod_lt _ (by omega))

theorem digitsVal_snoc (s : List Char) (ch : Char) : digitsVal (s ++ [ch]) = 10 * digitsVal s + (ch.toNat - 48) := by
  simp [digitsVal, List.foldl_append]

theorem digitsVal_natText (n : Nat) : digitsVal (natText n) = n := by
  induction n using Nat.strongRecOn with
  | ind n ih =>
    rw [natText_eq]
    split
    · next h => simp only [digitsVal, List.foldl_cons, List.foldl_nil]; rw [digitChar_val h]; omega
    · next h =>
      rw [digitsVal_snoc, ih (n / 10) (by omega), digitChar_val (Nat.mod_lt _ (by omega))]
      omega

theorem sixDigits_digits (m : Nat) : IsDigits (sixDigits m) := by
  refine ⟨by simp [sixDigits], ?_⟩
  intro ch hc
  simp only [sixDigits, List.mem_cons, List.not_mem_nil, or_false] at hc
  rcases hc with rfl | rfl | rfl | rfl | rfl | rfl <;> exact digitChar_isDigit (Nat.mod_lt _ (by omega))

theorem digitsVal_six {m : Nat} (h : m < 1000000) : digitsVal (sixDigits m) = m := by
  simp only [digitsVal, sixDigits, List.foldl_cons, List.foldl_nil]
  rw [digitChar_val (Nat.mod_lt _ (by omega)), digitChar_val (Nat.mod_lt _ (by omega)), digitChar_val (Nat.mod_lt _ (by omega)), digitChar_val (Nat.mod_lt _ (by omega)),
    digitChar_val (Nat.mod_lt _ (by omega)), digitChar_val (Nat.mod_lt _ (by omega))]
  omega

/-- digits, a point, digits -/
def DecText (s : List Char) : Prop := ∃ a b, s = a ++ '.' :: b ∧ IsDigits a ∧ IsDigits b

theorem lfText_dec {x : ℚ} (h : 0 ≤ x) : DecText (lfText x) :=
  ⟨_, _, by unfold lfText; simp only [if_neg (not_lt.2 h), List.nil_append, List.append_assoc, List.singleton_append]; rfl, natText_digits _, sixDigits_digits _⟩

theorem lfText_sdec (x : ℚ) : DecText (lfText x) ∨ ∃ s, lfText x = '-' :: s ∧ DecText s := by
  rcases le_or_gt 0 x with h | h
  · exact Or.inl (lfText_dec h)
  · right
    refine ⟨_, by unfold lfText; simp only [if_pos h, List.append_assoc, List.singleton_append]; rfl, ?_⟩
    exact ⟨_, _, rfl, natText_digits _, sixDigits_digits _⟩

theorem digit_ne {ch d : Char} (h : ch.isDigit = true) (hd : d.isDigit = false) : ch ≠ d := by
  rintro rfl; rw [h] at hd; cases hd

theorem takeWhile_point {a b : List Char} (h : IsDigits a) : (a ++ '.' :: b).takeWhile (· ≠ '.') = a ∧ (a ++ '.' :: b).dropWhile (· ≠ '.') = '.' :: b := by
  have hall : ∀ ch ∈ a, (decide (ch ≠ '.')) = true := fun ch hc => by simpa using digit_ne (h.2 ch hc) (by decide)
  constructor
  · rw [List.takeWhile_append_of_pos hall]; simp
  · rw [List.dropWhile_append_of_pos hall]; simp

theorem pyFloat_dec {a b : List Char} (h : IsDigits a) : pyFloat (a ++ '.' :: b) = digitsVal a + digitsVal b / (10 : ℚ) ^ b.length := by
  have hh : (a ++ '.' :: b).head? ≠ some '-' := by
    obtain ⟨h1, h2⟩ := h
    cases a with
    | nil => exact absurd rfl h1
    | cons x a =>
      simp only [List.cons_append, List.head?_cons, ne_eq, Option.some.injEq]
      exact digit_ne (h2 x (by simp)) (by decide)
  unfold pyFloat
  simp only [if_neg hh, (takeWhile_point h).1, (takeWhile_point h).2, List.tail_cons]

theorem pyFloat_neg {a b : List Char} (h : IsDigits a) : pyFloat ('-' :: (a ++ '.' :: b)) = -pyFloat (a ++ '.' :: b) := by
  rw [pyFloat_dec h]
  unfold pyFloat
  simp only [List.head?_cons, if_true, List.tail_cons, (takeWhile_point h).1, (takeWhile_point h).2]

/-- the number with six decimals that is printed for `x` -/
def printed (x : ℚ) : ℚ := if x < 0 then -((roundEven (|x| * 1000000) : ℚ) / 1000000) else (roundEven (|x| * 1000000) : ℚ) / 1000000

theorem pyFloat_lfText (x : ℚ) : pyFloat (lfText x) = printed x := by
  have key : ∀ m : Nat, pyFloat (natText (m / 1000000) ++ '.' :: sixDigits (m % 1000000)) = (m : ℚ) / 1000000 := by
    intro m
    rw [pyFloat_dec (natText_digits _), digitsVal_natText, digitsVal_six (Nat.mod_lt _ (by omega))]
    have h6 : (sixDigits (m % 1000000)).length = 6 := rfl
    rw [h6]
    have hm : ((m / 1000000 : Nat) : ℚ) * 1000000 + ((m % 1000000 : Nat) : ℚ) = m := by
      have := Nat.div_add_mod m 1000000
      have h' : ((1000000 * (m / 1000000) + m % 1000000 : Nat) : ℚ) = (m : ℚ) := by rw [this]
      push_cast at h' ⊢
      linarith
    rw [← hm]
    ring
  unfold lfText printed
  by_cases h : x < 0
  · simp only [if_pos h, List.append_assoc, List.cons_append, List.nil_append]
    rw [pyFloat_neg (natText_digits _), key]
  · simp only [if_neg h, List.append_assoc, List.singleton_append, List.nil_append]
    exact key _

theorem roundEven_near {y : ℚ} (h : 0 ≤ y) : |(roundEven y : ℚ) - y| ≤ 1 / 2 := by
  have hf : ((⌊y⌋.toNat : ℕ) : ℚ) = (⌊y⌋ : ℚ) := by
    have : ((⌊y⌋.toNat : ℕ) : ℤ) = ⌊y⌋ := Int.toNat_of_nonneg (Int.floor_nonneg.2 h)
    exact_mod_cast this
  have h1 : (⌊y⌋ : ℚ) ≤ y := Int.floor_le y
  have h2 : y < (⌊y⌋ : ℚ) + 1 := Int.lt_floor_add_one y
  unfold roundEven
  simp only
  rw [abs_le]
  split
  · next h3 => rw [hf] at h3 ⊢; constructor <;> linarith
  · next h3 =>
    rw [hf] at h3
    split
    · next h4 => push_cast; rw [hf] at h4 ⊢; constructor <;> linarith
    · next h4 =>
      rw [hf] at h4
      split
      · rw [hf]; constructor <;> linarith
      · push_cast; rw [hf]; constructor <;> linarith

theorem printed_near (x : ℚ) : |printed x - x| ≤ 1 / 2000000 := by
  have h := roundEven_near (y := |x| * 1000000) (by positivity)
  rw [abs_le] at h ⊢
  unfold printed
  by_cases hx : x < 0
  · rw [if_pos hx]
    rw [abs_of_neg hx] at h ⊢
    constructor <;> linarith [h.1, h.2]
  · rw [if_neg hx]
    rw [abs_of_nonneg (not_lt.1 hx)] at h ⊢
    constructor <;> linarith [h.1, h.2]

theorem printed_nonneg {x : ℚ} (h : 0 ≤ x) : 0 ≤ printed x := by
  unfold printed
  rw [if_neg (not_lt.2 h)]
  positivity

/-! ### The matchers -/

/-- the text does not start with a digit -/
def NoDigit (s : List Char) : Prop := ∀ ch r, s = ch :: r → ch.isDigit = false

theorem noDigit_cons {ch : Char} {s : List Char} (h : ch.isDigit = false) : NoDigit (ch :: s) := by
  intro c r e; cases e; exact h

theorem plusDigits_none {s : List Char} (h : NoDigit s) : plusDigits s = [] := by
  cases s with
  | nil => rfl
  | cons ch s => rw [plusDigits, if_neg]; rw [h ch s rfl]; simp

theorem head_flatMap {A B : Type} {l : List A} {f : A → List B} {a : A} {b : B} (h : l.head? = some a) (hf : (f a).head? = some b) : (l.flatMap f).head? = some b := by
  cases l with
  | nil => cases h
  | cons x l =>
    cases h
    rw [List.flatMap_cons, List.head?_append, hf]; rfl

theorem plusDigits_head : ∀ {d r : List Char}, IsDigits d → NoDigit r → (plusDigits (d ++ r)).head? = some (d, r) := by
  intro d
  induction d with
  | nil => intro r h _; exact absurd rfl h.1
  | cons ch d ih =>
    intro r h hr
    rw [List.cons_append, plusDigits, if_pos (h.2 ch (by simp))]
    rcases List.eq_nil_or_concat d with rfl | ⟨d', x, rfl⟩
    · rw [List.nil_append, plusDigits_none hr]; rfl
    · have := ih (r := r) ⟨by simp, fun c hc => h.2 c (List.mem_cons_of_mem _ hc)⟩ hr
      rw [List.head?_append, List.head?_map, this]; rfl

theorem numMatches_head {t r : List Char} (h : DecText t) (hr : NoDigit r) : (numMatches (t ++ r)).head? = some (t, r) := by
  obtain ⟨a, b, rfl, ha, hb⟩ := h
  unfold numMatches andThen
  have h1 := plusDigits_head (d := a) (r := '.' :: b ++ r) ha (noDigit_cons (by decide))
  have h2 := plusDigits_head (d := b) (r := r) hb hr
  rw [List.append_assoc, List.cons_append] at *
  refine head_flatMap h1 ?_
  rw [List.head?_map]
  have : ((optPoint ('.' :: (b ++ r))).flatMap fun m => (plusDigits m.2).map fun m' => (m.1 ++ m'.1, m'.2)).head? = some ('.' :: b, r) := by
    refine head_flatMap (a := (['.'], b ++ r)) rfl ?_
    rw [List.head?_map, h2]; rfl
  rw [this]
  rfl

theorem snumMatches_head {t r : List Char} (h : DecText t ∨ ∃ s, t = '-' :: s ∧ DecText s) (hr : NoDigit r) : (andThen optMinus numMatches (t ++ r)).head? = some (t, r) := by
  unfold andThen
  rcases h with h | ⟨s, rfl, h⟩
  · have hm : optMinus (t ++ r) = [([], t ++ r)] := by
      obtain ⟨a, b, rfl, ha, hb⟩ := h
      obtain ⟨h1, h2⟩ := ha
      cases a with
      | nil => exact absurd rfl h1
      | cons x a =>
        have : x ≠ '-' := digit_ne (h2 x (by simp)) (by decide)
        unfold optMinus
        split
        · next e => simp at e; exact absurd e.1 this
        · rfl
    rw [hm]
    refine head_flatMap (a := ([], t ++ r)) rfl ?_
    rw [List.head?_map, numMatches_head h hr]; rfl
  · refine head_flatMap (a := (['-'], s ++ r)) rfl ?_
    rw [List.head?_map, numMatches_head h hr]; rfl

/-! ### Skipping -/

/-- the two texts differ at a position that both have -/
def mism : List Char → List Char → Bool
  | a :: l, b :: s => a != b || mism l s
  | _, _ => false

/-- no occurrence of `l` starts in `a`, whatever follows -/
def clear (l : List Char) : List Char → Bool
  | [] => true
  | ch :: s => mism l (ch :: s) && clear l s

theorem mism_append : ∀ {l s : List Char} (r : List Char), mism l s = true → mism l (s ++ r) = true := by
  intro l
  induction l with
  | nil => intro s r h; simp [mism] at h
  | cons a l ih =>
    intro s r h
    cases s with
    | nil => simp [mism] at h
    | cons b s =>
      simp only [mism, Bool.or_eq_true, List.cons_append] at h ⊢
      exact h.imp id (ih r)

theorem mism_none : ∀ {l s : List Char}, mism l s = true → afterLit l s = none := by
  intro l
  induction l with
  | nil => intro s h; simp [mism] at h
  | cons a l ih =>
    intro s h
    cases s with
    | nil => simp [mism] at h
    | cons b s =>
      simp only [mism, Bool.or_eq_true, bne_iff_ne] at h
      rw [afterLit]
      split
      · next e => exact ih (h.resolve_left (fun h' => h' e))
      · rfl

theorem clear_append {l : List Char} : ∀ {a b : List Char}, clear l a = true → clear l b = true → clear l (a ++ b) = true := by
  intro a
  induction a with
  | nil => intro b _ h; exact h
  | cons ch a ih =>
    intro b h hb
    simp only [clear, Bool.and_eq_true, List.cons_append] at h ⊢
    exact ⟨mism_append b h.1, ih h.2 hb⟩

theorem clear_of_head {h : Char} {l : List Char} : ∀ {a : List Char}, (∀ ch ∈ a, ch ≠ h) → clear (h :: l) a = true := by
  intro a
  induction a with
  | nil => intro _; rfl
  | cons ch a ih =>
    intro hc
    simp only [clear, Bool.and_eq_true, mism, Bool.or_eq_true, bne_iff_ne]
    exact ⟨Or.inl (Ne.symm (hc ch (by simp))), ih fun x hx => hc x (by simp [hx])⟩

theorem clear_flatten {l : List Char} : ∀ {ss : List (List Char)}, (∀ s ∈ ss, clear l s = true) → clear l ss.flatten = true := by
  intro ss
  induction ss with
  | nil => intro _; rfl
  | cons s ss ih => intro h; rw [List.flatten_cons]; exact clear_append (h s (by simp)) (ih fun x hx => h x (by simp [hx]))

theorem reSearch_skip {l : List Char} {ps : List Piece} : ∀ {a : List Char} (b : List Char), clear l a = true → reSearch (.lit l :: ps) (a ++ b) = reSearch (.lit l :: ps) b := by
  intro a
  induction a with
  | nil => intro b _; rfl
  | cons ch a ih =>
    intro b h
    simp only [clear, Bool.and_eq_true] at h
    rw [List.cons_append, reSearch]
    have : matchAt (.lit l :: ps) (ch :: (a ++ b)) = [] := by
      have := mism_none (mism_append (s := ch :: a) b h.1)
      rw [List.cons_append] at this
      rw [matchAt, this]
    rw [this, List.head?_nil]
    exact ih b h.2

theorem reSearch_none {h : Char} {l : List Char} {ps : List Piece} {a : List Char} (hc : clear (h :: l) a = true) : reSearch (.lit (h :: l) :: ps) a = none := by
  have := reSearch_skip (ps := ps) [] hc
  rw [List.append_nil] at this
  rw [this]
  rfl

theorem afterLit_append : ∀ (l s : List Char), afterLit l (l ++ s) = some s := by
  intro l
  induction l with
  | nil => intro s; cases s <;> rfl
  | cons a l ih => intro s; rw [List.cons_append, afterLit, if_pos rfl, ih]

theorem reSearch_here {ps : List Piece} {s : List Char} {r : List (List Char) × List Char} (h : (matchAt ps s).head? = some r) : reSearch ps s = some r := by
  cases s with
  | nil => exact h
  | cons ch s => rw [reSearch, h]

/-- the first occurrence of a literal, then a number and a literal -/
theorem group1_num {l t post a b : List Char} (hc : clear l a = true) (ht : DecText t) (hp : NoDigit (post ++ b)) :
    group1 [.lit l, .num, .lit post] (a ++ (l ++ (t ++ (post ++ b)))) = .ok t := by
  have : reSearch [.lit l, .num, .lit post] (a ++ (l ++ (t ++ (post ++ b)))) = some ([t], b) := by
    rw [reSearch_skip _ hc]
    apply reSearch_here
    rw [matchAt, afterLit_append]
    simp only
    rw [matchAt]
    refine head_flatMap (numMatches_head ht hp) ?_
    rw [matchAt, afterLit_append]
    rfl
  unfold group1
  rw [this]

theorem group1_int {l t a b : List Char} (hc : clear l a = true) (ht : IsDigits t) (hp : NoDigit b) : group1 [.lit l, .int] (a ++ (l ++ (t ++ b))) = .ok t := by
  have : reSearch [.lit l, .int] (a ++ (l ++ (t ++ b))) = some ([t], b) := by
    rw [reSearch_skip _ hc]
    apply reSearch_here
    rw [matchAt, afterLit_append]
    simp only
    rw [matchAt]
    refine head_flatMap (plusDigits_head ht hp) ?_
    rfl
  unfold group1
  rw [this]

theorem group1_snum {l t a b : List Char} (hc : clear l a = true) (ht : DecText t ∨ ∃ s, t = '-' :: s ∧ DecText s) (hp : NoDigit b) :
    group1 [.lit l, .snum] (a ++ (l ++ (t ++ b))) = .ok t := by
  have : reSearch [.lit l, .snum] (a ++ (l ++ (t ++ b))) = some ([t], b) := by
    rw [reSearch_skip _ hc]
    apply reSearch_here
    rw [matchAt, afterLit_append]
    simp only
    rw [matchAt]
    refine head_flatMap (snumMatches_head ht hp) ?_
    rfl
  unfold group1
  rw [this]

theorem found_here {l a b : List Char} : found l (a ++ (l ++ b)) = true := by
  unfold found
  induction a with
  | nil =>
    rw [List.nil_append, reSearch_here (r := ([], b))]
    · rfl
    · rw [matchAt, afterLit_append]; rfl
  | cons ch a ih =>
    rw [List.cons_append, reSearch]
    split
    · rfl
    · exact ih

theorem found_not {h : Char} {l a : List Char} (hc : clear (h :: l) a = true) : found (h :: l) a = false := by
  unfold found
  rw [reSearch_none hc]
  rfl

/-! ### The log lines -/

theorem reSearch_update {v t r : List Char} (hv : DecText v) (ht : DecText t) (hr : NoDigit r) :
    reSearch updatePattern (chars! "Updated best value: " ++ (v ++ (chars! ", at time: " ++ (t ++ r)))) = some ([v, t], r) := by
  apply reSearch_here
  unfold updatePattern
  rw [matchAt, afterLit_append]
  simp only
  rw [matchAt]
  refine head_flatMap (numMatches_head hv (noDigit_cons (by decide))) ?_
  rw [matchAt, afterLit_append]
  simp only
  rw [matchAt, List.head?_map]
  have : (List.flatMap (fun m => List.map (fun r => (m.1 :: r.1, r.2)) (matchAt [] m.2)) (numMatches (t ++ r))).head? = some ([t], r) :=
    head_flatMap (numMatches_head ht hr) rfl
  rw [this]
  rfl

theorem reFindAll_log : ∀ (us : List (ℚ × ℚ)) (rest : List Char) (k : Nat), (∀ u ∈ us, 0 ≤ u.1 ∧ 0 ≤ u.2) → clear (chars! "Updated best value: ") rest = true → us.length ≤ k →
    reFindAll updatePattern k (us.flatMap updateLine ++ rest) = us.map fun u => [lfText u.1, lfText u.2] := by
  intro us
  have hnl : ∀ (s : List Char), reSearch updatePattern ('\n' :: s) = reSearch updatePattern s := by
    intro s
    exact reSearch_skip (a := ['\n']) s (by decide)
  have key : ∀ (us : List (ℚ × ℚ)) (rest : List Char) (k : Nat) (pre : List Char), (pre = [] ∨ pre = ['\n']) → (∀ u ∈ us, 0 ≤ u.1 ∧ 0 ≤ u.2) →
      clear (chars! "Updated best value: ") rest = true → us.length ≤ k → reFindAll updatePattern k (pre ++ (us.flatMap updateLine ++ rest)) = us.map fun u => [lfText u.1, lfText u.2] := by
    intro us
    induction us with
    | nil =>
      intro rest k pre hpre _ hc _
      cases k with
      | zero => rfl
      | succ k =>
        have h0 : reSearch updatePattern (pre ++ (List.flatMap updateLine [] ++ rest)) = none := by
          have hn : reSearch updatePattern rest = none := reSearch_none hc
          rcases hpre with rfl | rfl
          · exact hn
          · exact (hnl _).trans hn
        rw [reFindAll, h0]
        rfl
    | cons u us ih =>
      intro rest k pre hpre hu hc hk
      cases k with
      | zero => simp at hk
      | succ k =>
        obtain ⟨h1, h2⟩ := hu u (by simp)
        have hs := reSearch_update (lfText_dec h1) (lfText_dec h2) (r := '\n' :: (us.flatMap updateLine ++ rest)) (noDigit_cons (by decide))
        have e : (u :: us).flatMap updateLine ++ rest = chars! "Updated best value: " ++ (lfText u.1 ++ (chars! ", at time: " ++ (lfText u.2 ++ '\n' :: (us.flatMap updateLine ++ rest)))) := by
          rw [List.flatMap_cons, updateLine]
          simp only [List.append_assoc, List.cons_append, List.nil_append]
        have hs' : reSearch updatePattern (pre ++ ((u :: us).flatMap updateLine ++ rest)) = some ([lfText u.1, lfText u.2], '\n' :: (us.flatMap updateLine ++ rest)) := by
          rw [e]
          rcases hpre with rfl | rfl
          · exact hs
          · exact (hnl _).trans hs
        rw [reFindAll, hs']
        simp only
        rw [List.map_cons]
        congr 1
        exact ih rest k ['\n'] (Or.inr rfl) (fun x hx => hu x (by simp [hx])) hc (by simpa using hk)
  intro rest k hu hc hk
  exact key us rest k [] (Or.inl rfl) hu hc hk

end Verif
