import Verif.Spec.TableSpec
import Verif.Props.Converter

/-!
# Proofs about the tables of the analyzer
-/
namespace Verif
open Verif.Spec
set_option autoImplicit false

/-! ### `in` and `replace` -/

theorem pyIn_iff {nd : List Char} (h0 : nd ≠ []) : ∀ s, pyIn nd s = true ↔ nd <:+: s := by
  intro s
  induction s with
  | nil => simp [pyIn, h0]
  | cons ch s ih => rw [pyIn, Bool.or_eq_true, List.isPrefixOf_iff_prefix, ih, List.infix_cons_iff]

theorem replaceFrom_skip (nd rep : List Char) : ∀ (a b : List Char), replaceFrom nd rep a.length (a ++ b) = replaceFrom nd rep 0 b := by
  intro a
  induction a with
  | nil => intro b; rfl
  | cons ch a ih => intro b; rw [List.length_cons, List.cons_append, replaceFrom]; exact ih b

theorem pyReplace_none {nd rep : List Char} : ∀ {s : List Char}, pyIn nd s = false → pyReplace nd rep s = s := by
  intro s
  induction s with
  | nil => intro _; rfl
  | cons ch s ih =>
    intro h
    rw [pyIn, Bool.or_eq_false_iff] at h
    unfold pyReplace replaceFrom
    rw [if_neg (by simp [h.1])]
    exact congrArg _ (ih h.2)

theorem pyReplace_self {nd rep : List Char} (h0 : nd ≠ []) : pyReplace nd rep nd = rep := by
  cases nd with
  | nil => exact absurd rfl h0
  | cons ch nd =>
    have h : (ch :: nd).isPrefixOf (ch :: nd) = true := List.isPrefixOf_iff_prefix.2 (List.prefix_refl _)
    have := replaceFrom_skip (ch :: nd) rep nd []
    rw [List.append_nil] at this
    rw [pyReplace, replaceFrom, if_pos h]
    simp only [List.length_cons, Nat.add_sub_cancel]
    rw [this]
    simp [replaceFrom]

/-- no occurrence of `nd` lies on both sides of the place between `a` and `b` -/
def Apart (nd a b : List Char) : Prop := a = [] ∨ b = [] ∨ (∃ ch, a.getLast? = some ch ∧ ch ∉ nd) ∨ ∃ ch, b.head? = some ch ∧ ch ∉ nd

theorem prefix_apart {nd a b : List Char} (h : Apart nd a b) (ha : a ≠ []) (hp : nd <+: a ++ b) : nd <+: a := by
  rcases h with rfl | rfl | ⟨ch, h1, h2⟩ | ⟨ch, h1, h2⟩
  · exact absurd rfl ha
  · simpa using hp
  · rcases List.prefix_or_prefix_of_prefix hp (List.prefix_append a b) with h | h
    · exact h
    · exact absurd (h.subset (List.mem_of_getLast? h1)) h2
  · rcases List.prefix_or_prefix_of_prefix hp (List.prefix_append a b) with h | h
    · exact h
    · obtain ⟨u, rfl⟩ := h
      rw [List.prefix_append_right_inj] at hp
      cases u with
      | nil => simp
      | cons x u =>
        cases b with
        | nil => simp at h1
        | cons y b =>
          simp only [List.head?_cons, Option.some.injEq] at h1
          subst h1
          have := (List.cons_prefix_cons.1 hp).1
          exact absurd (by simp [this]) h2

theorem replaceFrom_append {nd rep : List Char} (h0 : nd ≠ []) : ∀ (k : Nat) (a b : List Char), k ≤ a.length → Apart nd a b →
    replaceFrom nd rep k (a ++ b) = replaceFrom nd rep k a ++ replaceFrom nd rep 0 b := by
  intro k a
  induction a generalizing k with
  | nil => intro b hk _; obtain rfl : k = 0 := by simpa using hk
           simp [replaceFrom]
  | cons ch a ih =>
    intro b hk hA
    have hA' : Apart nd a b := by
      rcases hA with h | h | ⟨c', h1, h2⟩ | h
      · cases h
      · exact Or.inr (Or.inl h)
      · cases a with
        | nil => exact Or.inl rfl
        | cons x a => exact Or.inr (Or.inr (Or.inl ⟨c', by simpa using h1, h2⟩))
      · exact Or.inr (Or.inr (Or.inr h))
    cases k with
    | succ k =>
      rw [List.cons_append, replaceFrom, replaceFrom]
      exact ih k b (by simpa using hk) hA'
    | zero =>
      rw [List.cons_append, replaceFrom, replaceFrom]
      by_cases hp : nd.isPrefixOf (ch :: a) = true
      · have hp' := List.isPrefixOf_iff_prefix.1 hp
        rw [if_pos hp, if_pos (List.isPrefixOf_iff_prefix.2 (hp'.trans (by rw [← List.cons_append]; exact List.prefix_append _ _))), List.append_assoc]
        have := hp'.length_le
        simp only [List.length_cons] at this
        rw [ih _ b (by omega) hA']
      · have hp' : ¬ nd.isPrefixOf (ch :: (a ++ b)) = true := by
          intro h
          refine hp (List.isPrefixOf_iff_prefix.2 (prefix_apart hA (by simp) ?_))
          rw [List.cons_append]
          exact List.isPrefixOf_iff_prefix.1 h
        rw [if_neg hp, if_neg hp', ih 0 b (by omega) hA']
        rfl

theorem pyReplace_append {nd rep a b : List Char} (h0 : nd ≠ []) (h : Apart nd a b) : pyReplace nd rep (a ++ b) = pyReplace nd rep a ++ pyReplace nd rep b :=
  replaceFrom_append h0 0 a b (by omega) h

/-- `%` -/
theorem escapePercent_eq : ∀ s, escapePercent s = percent s := by
  intro s
  induction s with
  | nil => rfl
  | cons ch s ih =>
    unfold escapePercent pyReplace at ih ⊢
    unfold percent at ih ⊢
    rw [replaceFrom, List.flatMap_cons]
    by_cases h : ch = '%'
    · subst h
      rw [if_pos (by simp [List.isPrefixOf]), if_pos rfl, ← ih]
      rfl
    · rw [if_neg (by simp [List.isPrefixOf, Ne.symm h]), if_neg h, ih]
      rfl

/-! ### Filling in -/

/-- the runs alternate: a run of word characters is followed by nothing or by a run that begins with another character; the other runs are not empty and contain no word character -/
def Alternate : List (List Char) → Prop
  | [] => True
  | w :: ts => ((w ≠ [] ∧ (∀ ch ∈ w, wordChar ch = false)) ∨ ((∀ ch ∈ w, wordChar ch = true) ∧ ∀ v ∈ ts.head?, v ≠ [] ∧ ∀ ch ∈ v, wordChar ch = false)) ∧ Alternate ts

/-- the text with the values of the list filled in -/
def render (T : List (List Char)) (D : List (List Char × List Char)) : List Char := T.flatMap fun w => (D.lookup w).getD w

/-- a placeholder: word characters, one of them `_` -/
def IsKey (k : List Char) : Prop := (∀ ch ∈ k, wordChar ch = true) ∧ '_' ∈ k

/-- only placeholders have values, and these do not contain `_` -/
def Filled (D : List (List Char × List Char)) : Prop := ∀ q ∈ D, IsKey q.1 ∧ '_' ∉ q.2

/-- every run that contains `k` is `k`, or has been filled in -/
def keyOk (T : List (List Char)) (done : List (List Char)) (k : List Char) : Bool := T.all fun w => w == k || done.contains w || !pyIn k w

theorem lookup_none {D : List (List Char × List Char)} {w : List Char} (h : w ∉ D.map Prod.fst) : D.lookup w = none := by
  rw [List.lookup_eq_none_iff]
  intro q hq
  simp only [beq_eq_false_iff_ne, ne_eq, bne_iff_ne]
  rintro rfl
  exact h (List.mem_map_of_mem hq)

theorem lookup_mem {D : List (List Char × List Char)} {w v : List Char} (h : D.lookup w = some v) : (w, v) ∈ D := by
  obtain ⟨a, b, e, -⟩ := List.lookup_eq_some_iff.1 h
  rw [e]
  simp

theorem value_of_other {D : List (List Char × List Char)} (hD : Filled D) {w : List Char} (h : w ≠ [] ∧ ∀ ch ∈ w, wordChar ch = false) : (D.lookup w).getD w = w := by
  cases e : D.lookup w with
  | none => rfl
  | some v =>
    have := (hD _ (lookup_mem e)).1
    have h1 := h.2 _ this.2
    have h2 := this.1 _ this.2
    rw [h1] at h2
    cases h2

theorem pyReplace_render {T : List (List Char)} {D : List (List Char × List Char)} {k rep : List Char} (hT : Alternate T) (hD : Filled D) (hk : IsKey k) (hok : keyOk T (D.map Prod.fst) k = true) :
    pyReplace k rep (render T D) = render T (D ++ [(k, rep)]) := by
  have h0 : k ≠ [] := by rintro rfl; exact absurd hk.2 (by simp)
  have hN : ∀ s, '_' ∉ s → pyReplace k rep s = s := by
    intro s hs
    refine pyReplace_none (by
      rw [← Bool.not_eq_true, pyIn_iff h0]
      exact fun h => hs (h.subset hk.2))
  unfold render
  induction T with
  | nil => rfl
  | cons w ts ih =>
    rw [List.flatMap_cons, List.flatMap_cons]
    unfold keyOk at hok
    rw [List.all_cons, Bool.and_eq_true] at hok
    have ih := ih hT.2 hok.2
    rw [pyReplace_append h0, ih]
    · congr 1
      rw [List.lookup_append]
      cases e : D.lookup w with
      | some v =>
        simp only [Option.getD_some, Option.some_or]
        exact hN _ (hD _ (lookup_mem e)).2
      | none =>
        have hw : w ∉ D.map Prod.fst := by
          intro h
          obtain ⟨q, hq, rfl⟩ := List.mem_map.1 h
          rw [List.lookup_eq_none_iff] at e
          have := e q hq
          simp at this
        simp only [Option.getD_none, Option.none_or]
        by_cases hwk : w = k
        · subst hwk
          rw [pyReplace_self h0]
          simp
        · have hl : List.lookup w [(k, rep)] = none := lookup_none (by simpa using hwk)
          rw [hl]
          simp only [Option.getD_none]
          have h1 := hok.1
          simp only [Bool.or_eq_true, beq_iff_eq, hwk, false_or, List.contains_iff_mem, hw, Bool.not_eq_true'] at h1
          exact pyReplace_none h1
    · rcases hT.1 with h | h
      · rw [value_of_other hD h]
        right; right; left
        obtain ⟨ch, hch⟩ : ∃ ch, w.getLast? = some ch := ⟨_, List.getLast?_eq_some_getLast h.1⟩
        refine ⟨ch, hch, fun hm => ?_⟩
        have := h.2 ch (List.mem_of_getLast? hch)
        rw [hk.1 ch hm] at this
        cases this
      · cases ts with
        | nil => right; left; rfl
        | cons v ts =>
          have hv := h.2 v (by simp)
          right; right; right
          rw [List.flatMap_cons, value_of_other hD hv]
          cases v with
          | nil => exact absurd rfl hv.1
          | cons ch v =>
            refine ⟨ch, rfl, fun hm => ?_⟩
            have := hv.2 ch (by simp)
            rw [hk.1 ch hm] at this
            cases this

/-- filling in something that has a value already changes nothing -/
theorem render_again {T : List (List Char)} {D : List (List Char × List Char)} {k rep : List Char} (h : k ∈ D.map Prod.fst) : render T (D ++ [(k, rep)]) = render T D := by
  unfold render
  congr 1
  funext w
  rw [List.lookup_append]
  cases e : D.lookup w with
  | some v => rfl
  | none =>
    have hw : w ∉ D.map Prod.fst := by
      intro h
      obtain ⟨q, hq, rfl⟩ := List.mem_map.1 h
      rw [List.lookup_eq_none_iff] at e
      have := e q hq
      simp at this
    rw [lookup_none (D := [(k, rep)]) (by simp only [List.map_cons, List.map_nil, List.mem_singleton]; rintro rfl; exact hw h)]
    rfl

end Verif
