import Verif.Proofs.Tables
import Mathlib.Data.List.SplitBy

/-!
# C97: the tables of the analyzer
-/
namespace Verif
open Verif.Spec
set_option autoImplicit false

/-! ### The lines -/

theorem gap_space {g : List Char} (h : IsGap g) : ∀ ch ∈ g, isSpace ch = true := by
  intro ch hch
  rw [h.2 ch hch]; rfl

theorem column_space {t : List Char} (h : IsColumn t) : ∀ ch ∈ t, isSpace ch = false := by
  rcases h with h | rfl
  swap
  · decide
  intro ch hch
  have h1 := h.2 ch hch
  unfold columnChar at h1
  simp only [List.mem_cons, List.not_mem_nil, or_false, decide_eq_true_eq] at h1
  rcases h1 with h | h | h | h | h | h | h | h | h | h | h | h | h | h | h | h | h | h | h <;> (subst h; rfl)

theorem pySplit_spaces {g rest : List Char} (h : ∀ ch ∈ g, isSpace ch = true) : pySplit (g ++ rest) = pySplit rest := splitOnP_space g rest h

theorem pySplit_word {f rest : List Char} {sp : Char} (hf : f ≠ []) (hc : ∀ ch ∈ f, isSpace ch = false) (hs : isSpace sp = true) : pySplit (f ++ sp :: rest) = f :: pySplit rest := by
  unfold pySplit
  rw [List.splitOnP_append_cons_of_forall_mem (by intro ch h; rw [hc ch h]) _ hs, List.filter_cons_of_pos (by simpa using hf)]

theorem column_ne {t : List Char} (h : IsColumn t) : t ≠ [] := by
  rcases h with h | rfl
  · exact h.1
  · simp

theorem pySplit_column {f g rest : List Char} (hf : IsColumn f) (hg : IsGap g) : pySplit (f ++ (g ++ rest)) = f :: pySplit rest := by
  cases g with
  | nil => exact absurd rfl hg.1
  | cons sp g =>
    have h := gap_space hg
    rw [List.cons_append, pySplit_word (column_ne hf) (column_space hf) (h sp (by simp)), pySplit_spaces fun ch hch => h ch (by simp [hch])]

/-- the words of a label -/
def Spec.Row.words : Row → List (List Char)
  | .solved => [chars! "Resolved", chars! "Instances"]
  | .nn => [chars! "Closed", chars! "NN"]
  | .pnn => [chars! "Closed", chars! "NN", chars! "Hybrid"]
  | r => [r.text]

theorem pySplit_label (r : Row) {g rest : List Char} (hg : IsGap g) : pySplit (r.text ++ (g ++ rest)) = r.words ++ pySplit rest := by
  cases g with
  | nil => exact absurd rfl hg.1
  | cons sp g =>
    have h := gap_space hg
    have hs := h sp (by simp)
    have e : pySplit (g ++ rest) = pySplit rest := pySplit_spaces fun ch hch => h ch (by simp [hch])
    rw [List.cons_append]
    cases r
    case solved =>
      show pySplit (chars! "Resolved" ++ ' ' :: (chars! "Instances" ++ sp :: (g ++ rest))) = _
      rw [pySplit_word (by simp) (by decide) (by decide), pySplit_word (by simp) (by decide) hs, e]; rfl
    case nn =>
      show pySplit (chars! "Closed" ++ ' ' :: (chars! "NN" ++ sp :: (g ++ rest))) = _
      rw [pySplit_word (by simp) (by decide) (by decide), pySplit_word (by simp) (by decide) hs, e]; rfl
    case pnn =>
      show pySplit (chars! "Closed" ++ ' ' :: (chars! "NN" ++ ' ' :: (chars! "Hybrid" ++ sp :: (g ++ rest)))) = _
      rw [pySplit_word (by simp) (by decide) (by decide), pySplit_word (by simp) (by decide) (by decide), pySplit_word (by simp) (by decide) hs, e]; rfl
    all_goals
      rw [pySplit_word (by simp [Row.text]) (by decide) hs, e]; rfl

theorem row_split {r : Row} {c : Columns} {line : List Char} (h : RowLine r c line) : pySplit line = r.words ++ [c.hyb, c.hybInt, c.cla, c.claInt, c.p] := by
  obtain ⟨g1, g2, g3, g4, g5, h1, h2, h3, h4, h5, c1, c2, c3, c4, c5, rfl⟩ := h
  rw [pySplit_label r h1, pySplit_column c1 h2, pySplit_column c2 h3, pySplit_column c3 h4, pySplit_column c4 h5, pySplit_word (column_ne c5) (column_space c5) (by decide)]
  rfl

/-- the characters of a line behind the label -/
def tailChar (ch : Char) : Bool := columnChar ch || ch == 'N' || ch == ' ' || ch == '\n'

theorem pyIn_tail {t label rest : List Char} (h0 : t ≠ []) (ht : ∃ ch ∈ t, tailChar ch = false) (hs : ∀ u ∈ t.tails, u.head? = some ' ' → (∃ ch ∈ u, tailChar ch = false) ∨ ¬ t.take (t.length - u.length) <:+ label)
    (hr : ∀ ch ∈ rest, tailChar ch = true) (hh : rest.head? = some ' ') : pyIn t (label ++ rest) = pyIn t label := by
  induction label with
  | nil =>
    rw [List.nil_append]
    have : pyIn t rest = false := by
      rw [← Bool.not_eq_true, pyIn_iff h0]
      intro h
      obtain ⟨ch, h1, h2⟩ := ht
      rw [hr ch (h.subset h1)] at h2
      cases h2
    rw [this]; rfl
  | cons x label ih =>
    rw [List.cons_append, pyIn, pyIn, ih fun u hu hd => (hs u hu hd).imp_right fun hn hi => hn (hi.trans (List.suffix_cons _ _))]
    congr 1
    rw [Bool.eq_iff_iff, List.isPrefixOf_iff_prefix, List.isPrefixOf_iff_prefix, ← List.cons_append]
    constructor
    · intro h
      rcases List.prefix_or_prefix_of_prefix h (List.prefix_append (x :: label) rest) with h' | h'
      · exact h'
      · obtain ⟨u, rfl⟩ := h'
        rw [List.prefix_append_right_inj] at h
        cases u with
        | nil => simp
        | cons y u =>
          exfalso
          cases rest with
          | nil => simp at hh
          | cons z rest =>
            simp only [List.head?_cons, Option.some.injEq] at hh
            have hyz := (List.cons_prefix_cons.1 h).1
            rcases hs (y :: u) ((List.mem_tails _ _).2 (List.suffix_append _ _)) (by rw [hyz, hh]; rfl) with ⟨ch, h1, h2⟩ | h1
            · rw [hr ch (h.subset h1)] at h2
              cases h2
            · rw [List.length_append, Nat.add_sub_cancel, List.take_left] at h1
              exact h1 (List.suffix_refl _)
    · intro h
      exact h.trans (List.prefix_append _ _)

/-- which labels are found in the line of a row: its own one, and "Closed NN" in the row "Closed NN Hybrid" -/
theorem row_in {r : Row} {c : Columns} {line : List Char} (h : RowLine r c line) (t : Row) : pyIn t.text line = decide (t = r ∨ (r = .pnn ∧ t = .nn)) := by
  obtain ⟨g1, g2, g3, g4, g5, h1, h2, h3, h4, h5, c1, c2, c3, c4, c5, rfl⟩ := h
  have hg : ∀ {g : List Char}, IsGap g → ∀ ch ∈ g, tailChar ch = true := by
    intro g hg ch hch
    rw [hg.2 ch hch]; rfl
  have hc : ∀ {g : List Char}, IsColumn g → ∀ ch ∈ g, tailChar ch = true := by
    intro g hg ch hch
    rcases hg with hg | rfl
    · unfold tailChar
      rw [hg.2 ch hch]; rfl
    · revert ch; decide
  rw [pyIn_tail]
  · cases t <;> cases r <;> decide
  · cases t <;> simp [Row.text]
  · cases t <;> decide
  · cases t <;> cases r <;> decide
  · intro ch hch
    simp only [List.mem_append] at hch
    rcases hch with h | h | h | h | h | h | h | h | h | h | h
    · exact hg h1 ch h
    · exact hc c1 ch h
    · exact hg h2 ch h
    · exact hc c2 ch h
    · exact hg h3 ch h
    · exact hc c3 ch h
    · exact hg h4 ch h
    · exact hc c4 ch h
    · exact hg h5 ch h
    · exact hc c5 ch h
    · obtain rfl := List.mem_singleton.1 h; rfl
  · cases g1 with
    | nil => exact absurd rfl h1.1
    | cons x g => rw [h1.2 x (by simp)]; rfl

/-! ### The operations of a line -/

/-- placeholders, in the order in which they are filled in: every run that contains one of them is this one, or has been filled in before -/
def keysOk (T : List (List Char)) : List (List Char) → List (List Char) → Bool
  | _, [] => true
  | done, k :: ks => (k.all wordChar && k.contains '_' && keyOk T done k) && keysOk T (done ++ [k]) ks

/-- the replacements `ops`, one after the other -/
def replaces (ops : List (List Char × List Char)) (t : List Char) : List Char := ops.foldl (fun t q => pyReplace q.1 q.2 t) t

theorem replaces_ok {T : List (List Char)} (hT : Alternate T) : ∀ (ops D : List (List Char × List Char)), Filled D → (∀ q ∈ ops, '_' ∉ q.2) → keysOk T (D.map Prod.fst) (ops.map Prod.fst) = true →
    replaces ops (render T D) = render T (D ++ ops) ∧ Filled (D ++ ops) := by
  intro ops
  induction ops with
  | nil => intro D hD _ _; simpa [replaces] using hD
  | cons q ops ih =>
    intro D hD hv hk
    rw [List.map_cons, keysOk, Bool.and_eq_true, Bool.and_eq_true, Bool.and_eq_true] at hk
    obtain ⟨⟨⟨h1, h2⟩, h3⟩, h4⟩ := hk
    have hkey : IsKey q.1 := ⟨fun ch hch => (List.all_eq_true.1 h1) ch hch, by simpa using h2⟩
    have hD' : Filled (D ++ [q]) := by
      intro x hx
      rcases List.mem_append.1 hx with hx | hx
      · exact hD x hx
      · obtain rfl := List.mem_singleton.1 hx
        exact ⟨hkey, hv _ (by simp)⟩
    obtain ⟨e, f⟩ := ih (D ++ [q]) hD' (fun x hx => hv x (by simp [hx])) (by simpa using h4)
    rw [List.append_assoc, List.singleton_append] at e f
    refine ⟨?_, f⟩
    unfold replaces at e ⊢
    rw [List.foldl_cons, pyReplace_render hT hD hkey h3]
    exact e

/-- what `modify_string` writes for the mean of the classic solver -/
def classicText' (P : PyNum) (c : Columns) : List Char :=
  if pyLt (number2 P c.cla) (number2 P c.hyb) then
    if pyLt (number2 P c.p) (some (5 / 100)) then chars! "\\underline{\\textbf{" ++ P.str (number2 P c.cla) ++ chars! "}}" else chars! "\textbf{" ++ P.str (number2 P c.cla) ++ chars! "}"
  else P.str (number2 P c.cla)

/-- the replacements of `modify_string` -/
def metricOps (P : PyNum) (j : Nat) (name : List Char) (c : Columns) : List (List Char × List Char) :=
  [(placeholder (chars! "std_" ++ name) (2 * j - 1), stdText P (number2 P c.claInt)), (placeholder name (2 * j - 1), classicText' P c),
    (placeholder (chars! "std_" ++ name) (2 * j), stdText P (number2 P c.hybInt)),
    (placeholder name (2 * j), emphasis (hybridBetter P c) (pyLt (number2 P c.p) (some (5 / 100))) (P.str (number2 P c.hyb)))]

/-- the replacements for a line -/
def rowOps (P : PyNum) (j : Nat) (c : Columns) (r : Row) : List (List Char × List Char) := match r with
  | .solved | .nn => [(placeholder r.name (2 * j - 1), percent c.cla), (placeholder r.name (2 * j), percent c.hyb)]
  | .pnn => [(placeholder r.name j, percent c.hyb)]
  | .prob => [(placeholder (chars! "std_" ++ r.name) j, stdText P (number2 P c.hybInt)), (placeholder r.name j, P.str (number2 P c.hyb))]
  | _ => metricOps P j r.name c

theorem lineFloat_of {P : PyNum} {line t : List Char} {k : Nat} {x : Option ℚ} (h : (pySplit line)[k]? = some t) (hx : P.float t = some x) : lineFloat P line k = .ok (number P t) := by
  unfold lineFloat lineField number
  rw [h]
  simp only [ok_bind, hx]
  rfl

theorem lineField_of {line t : List Char} {k : Nat} (h : (pySplit line)[k]? = some t) : lineField line k = .ok t := by
  unfold lineField
  rw [h]

theorem pyLt_asymm {x y : Option ℚ} (h : pyLt x y = true) : pyLt y x = false := by
  cases x with
  | none => cases h
  | some x => cases y with
    | none => cases h
    | some y =>
      simp only [pyLt, decide_eq_true_eq, decide_eq_false_iff_not] at h ⊢
      linarith

theorem modify_ops {P : PyNum} {tab line name : List Char} {j : Nat} {c : Columns} {l0 : List Char} (hj : 1 ≤ j) (hs : pySplit line = [l0, c.hyb, c.hybInt, c.cla, c.claInt, c.p])
    (h1 : ∃ x, P.float c.hyb = some x) (h2 : ∃ x, P.float c.hybInt = some x) (h3 : ∃ x, P.float c.cla = some x) (h4 : ∃ x, P.float c.claInt = some x) (h5 : ∃ x, P.float c.p = some x) :
    modifyString P tab line name (1 + (j - 1) * 2) = .ok (replaces (metricOps P j name c) tab) := by
  obtain ⟨x1, h1⟩ := h1
  obtain ⟨x2, h2⟩ := h2
  obtain ⟨x3, h3⟩ := h3
  obtain ⟨x4, h4⟩ := h4
  obtain ⟨x5, h5⟩ := h5
  have e1 : 1 + (j - 1) * 2 = 2 * j - 1 := by omega
  have e2 : 2 * j - 1 + 1 = 2 * j := by omega
  have r : ∀ t, P.round (number P t) = number2 P t := fun t => rfl
  unfold modifyString
  rw [e1, lineFloat_of (k := 1) (by rw [hs]; rfl) h1, lineFloat_of (k := 2) (by rw [hs]; rfl) h2, lineFloat_of (k := 3) (by rw [hs]; rfl) h3, lineFloat_of (k := 4) (by rw [hs]; rfl) h4,
    lineFloat_of (k := 5) (by rw [hs]; rfl) h5]
  simp only [ok_bind, r, e2]
  unfold metricOps replaces classicText' hybridBetter emphasis
  by_cases a : pyLt (number2 P c.hyb) (number2 P c.cla) = true
  · have a' := pyLt_asymm a
    rw [if_pos a, a']
    by_cases b : pyLt (number2 P c.p) (some (5 / 100)) = true
    · rw [if_pos b]; simp [a, b, pure_eq_ok]
    · rw [if_neg b]; simp [a, b, pure_eq_ok]
  · rw [if_neg a]
    by_cases a' : pyLt (number2 P c.cla) (number2 P c.hyb) = true
    · rw [if_pos a']
      by_cases b : pyLt (number2 P c.p) (some (5 / 100)) = true
      · rw [if_pos b]; simp [a, a', b, pure_eq_ok]
      · rw [if_neg b]; simp [a, a', b, pure_eq_ok]
    · rw [if_neg a']
      simp [a, a', pure_eq_ok]

theorem line_ops {P : PyNum} {tab line : List Char} {j : Nat} {r : Row} {c : Columns} (hj : 1 ≤ j) (hl : RowLine r c line) (hr : r ≠ .pnn)
    (hm : r ≠ .solved → r ≠ .nn → r ≠ .pnn → (∃ x, P.float c.hyb = some x) ∧ ∃ x, P.float c.hybInt = some x)
    (hc : r ≠ .solved → r ≠ .nn → r ≠ .pnn → r ≠ .prob → (∃ x, P.float c.cla = some x) ∧ (∃ x, P.float c.claInt = some x) ∧ ∃ x, P.float c.p = some x) :
    tableLine P j tab line = .ok (replaces (rowOps P j c r) tab) := by
  have hs := row_split hl
  have t := row_in hl
  have t1 : pyIn (chars! "Resolved Instances") line = _ := t .solved
  have t2 : pyIn (chars! "Closed NN") line = _ := t .nn
  have t3 : pyIn (chars! "Closed NN Hybrid") line = _ := t .pnn
  have t4 : pyIn (chars! "total_time") line = _ := t .totalTime
  have t5 : pyIn (chars! "time_bb") line = _ := t .bbTime
  have t6 : pyIn (chars! "time_to_best") line = _ := t .timeToBest
  have t7 : pyIn (chars! "total_tree_level") line = _ := t .depth
  have t8 : pyIn (chars! "best_level") line = _ := t .bestDepth
  have t9 : pyIn (chars! "generate_bbnodes") line = _ := t .generated
  have t10 : pyIn (chars! "explored_bbnodes") line = _ := t .explored
  have t11 : pyIn (chars! "bbnodes_before_best") line = _ := t .beforeBest
  have t12 : pyIn (chars! "prob_best") line = _ := t .prob
  have e1 : 1 + (j - 1) * 2 = 2 * j - 1 := by omega
  have e2 : 2 * j - 1 + 1 = 2 * j := by omega
  unfold tableLine
  rw [t1, t2, t3, t12]
  simp only [metricRows, forList, t4, t5, t6, t7, t8, t9, t10, t11]
  clear t t1 t2 t3 t4 t5 t6 t7 t8 t9 t10 t11 t12
  cases r
  case pnn => exact absurd rfl hr
  case solved =>
    simp only [reduceCtorEq, decide_true, decide_false, or_false, or_true, true_or, false_or, and_true, and_false, if_true, if_false, Bool.false_eq_true, pure_eq_ok, ok_bind]
    rw [lineField_of (k := 2) (by rw [hs]; rfl), lineField_of (k := 4) (by rw [hs]; rfl)]
    simp only [ok_bind, e1, e2, escapePercent_eq]
    rfl
  case nn =>
    simp only [reduceCtorEq, decide_true, decide_false, or_false, or_true, true_or, false_or, and_true, and_false, if_true, if_false, Bool.false_eq_true, pure_eq_ok, ok_bind]
    rw [lineField_of (k := 2) (by rw [hs]; rfl), lineField_of (k := 4) (by rw [hs]; rfl)]
    simp only [ok_bind, e1, e2, escapePercent_eq]
    rfl
  case prob =>
    obtain ⟨⟨x1, k1⟩, ⟨x2, k2⟩⟩ := hm (by simp) (by simp) (by simp)
    simp only [reduceCtorEq, decide_true, decide_false, or_false, or_true, true_or, false_or, and_true, and_false, if_true, if_false, Bool.false_eq_true, pure_eq_ok, ok_bind]
    rw [lineFloat_of (k := 1) (by rw [hs]; rfl) k1, lineFloat_of (k := 2) (by rw [hs]; rfl) k2]
    simp only [ok_bind]
    rfl
  all_goals
    obtain ⟨k1, k2⟩ := hm (by simp) (by simp) (by simp)
    obtain ⟨k3, k4, k5⟩ := hc (by simp) (by simp) (by simp) (by simp)
    simp only [reduceCtorEq, decide_true, decide_false, or_false, or_true, true_or, false_or, and_true, and_false, if_true, if_false, Bool.false_eq_true, pure_eq_ok, ok_bind]
    rw [modify_ops hj hs k1 k2 k3 k4 k5]
    rfl

/-! ### All lines of a file -/

theorem render_dup {T : List (List Char)} {D dup B : List (List Char × List Char)} (h : ∀ q ∈ dup, q.1 ∈ D.map Prod.fst) : render T (D ++ dup ++ B) = render T (D ++ B) := by
  unfold render
  congr 1
  funext w
  rw [List.lookup_append, List.lookup_append, List.lookup_append]
  cases e : D.lookup w with
  | some v => rfl
  | none =>
    have hw : w ∉ D.map Prod.fst := by
      intro h
      obtain ⟨q, hq, rfl⟩ := List.mem_map.1 h
      rw [List.lookup_eq_none_iff] at e
      have := e q hq
      simp at this
    rw [lookup_none (D := dup) (by
      intro h'
      obtain ⟨q, hq, rfl⟩ := List.mem_map.1 h'
      exact hw (h q hq))]
    rfl

/-- the placeholders of a row in the block `j` -/
def rowKeys (j : Nat) (r : Row) : List (List Char) := match r with
  | .solved | .nn => [placeholder r.name (2 * j - 1), placeholder r.name (2 * j)]
  | .pnn => [placeholder r.name j]
  | .prob => [placeholder (chars! "std_" ++ r.name) j, placeholder r.name j]
  | _ => [placeholder (chars! "std_" ++ r.name) (2 * j - 1), placeholder r.name (2 * j - 1), placeholder (chars! "std_" ++ r.name) (2 * j), placeholder r.name (2 * j)]

theorem rowOps_keys (P : PyNum) (j : Nat) (c : Columns) (r : Row) : (rowOps P j c r).map Prod.fst = rowKeys j r := by cases r <;> rfl

/-- the row "Closed NN Hybrid" is taken for a row "Closed NN" too; this does no harm because the placeholders of the latter have been filled in -/
def rowsOk (T : List (List Char)) (j : Nat) : List (List Char) → List Row → Bool
  | _, [] => true
  | done, r :: rs => (if r = .pnn then keysOk T done (rowKeys j .nn ++ rowKeys j .pnn) && (rowKeys j .nn).all fun k => done.contains k else keysOk T done (rowKeys j r)) && rowsOk T j (done ++ rowKeys j r) rs

theorem column_plain {t : List Char} (h : IsColumn t) : '_' ∉ t ∧ '_' ∉ percent t := by
  have h1 : '_' ∉ t := by
    rcases h with h | rfl
    · intro hm
      have := h.2 _ hm
      revert this
      decide
    · decide
  refine ⟨h1, ?_⟩
  unfold percent
  intro hm
  obtain ⟨ch, h2, h3⟩ := List.mem_flatMap.1 hm
  split at h3
  · revert h3; decide
  · obtain rfl := List.mem_singleton.1 h3
    exact h1 h2

theorem rowOps_plain {P : PyNum} (hstr : ∀ x, '_' ∉ P.str x) {j : Nat} {r : Row} {c : Columns} {line : List Char} (hl : RowLine r c line) : ∀ q ∈ rowOps P j c r, '_' ∉ q.2 := by
  obtain ⟨g1, g2, g3, g4, g5, h1, h2, h3, h4, h5, c1, c2, c3, c4, c5, rfl⟩ := hl
  have hstd : ∀ x, '_' ∉ stdText P x := by
    intro x
    unfold stdText
    simp [hstr]
  have hem : ∀ a b x, '_' ∉ emphasis a b (P.str x) := by
    intro a b x
    unfold emphasis
    split
    · split <;> simp [hstr]
    · exact hstr x
  have hcl : '_' ∉ classicText' P c := by
    unfold classicText'
    split
    · split <;> simp [hstr]
    · exact hstr _
  have hp1 := (column_plain c1).2
  have hp3 := (column_plain c3).2
  cases r <;> (simp only [rowOps, metricOps, List.mem_cons, List.not_mem_nil, or_false]; rintro q hq)
  case solved => rcases hq with rfl | rfl <;> assumption
  case nn => rcases hq with rfl | rfl <;> assumption
  case pnn => subst hq; assumption
  case prob =>
    rcases hq with rfl | rfl
    · exact hstd _
    · exact hstr _
  all_goals
    rcases hq with rfl | rfl | rfl | rfl
    · exact hstd _
    · exact hcl
    · exact hstd _
    · exact hem _ _ _

theorem line_other {P : PyNum} {tab line : List Char} {j : Nat} (h : ∀ r : Row, ¬ r.text <:+: line) : tableLine P j tab line = .ok tab := by
  have t : ∀ r : Row, pyIn r.text line = false := by
    intro r
    rw [← Bool.not_eq_true, pyIn_iff (by cases r <;> simp [Row.text])]
    exact h r
  have t1 : pyIn (chars! "Resolved Instances") line = _ := t .solved
  have t2 : pyIn (chars! "Closed NN") line = _ := t .nn
  have t3 : pyIn (chars! "Closed NN Hybrid") line = _ := t .pnn
  have t4 : pyIn (chars! "total_time") line = _ := t .totalTime
  have t5 : pyIn (chars! "time_bb") line = _ := t .bbTime
  have t6 : pyIn (chars! "time_to_best") line = _ := t .timeToBest
  have t7 : pyIn (chars! "total_tree_level") line = _ := t .depth
  have t8 : pyIn (chars! "best_level") line = _ := t .bestDepth
  have t9 : pyIn (chars! "generate_bbnodes") line = _ := t .generated
  have t10 : pyIn (chars! "explored_bbnodes") line = _ := t .explored
  have t11 : pyIn (chars! "bbnodes_before_best") line = _ := t .beforeBest
  have t12 : pyIn (chars! "prob_best") line = _ := t .prob
  unfold tableLine
  rw [t1, t2, t3, t12]
  simp only [metricRows, forList, t4, t5, t6, t7, t8, t9, t10, t11]
  simp only [if_false, Bool.false_eq_true, pure_eq_ok, ok_bind]

theorem line_pnn {P : PyNum} {tab line : List Char} {j : Nat} {c : Columns} (hj : 1 ≤ j) (hl : RowLine .pnn c line) :
    tableLine P j tab line = .ok (replaces ([(placeholder (chars! "perc_nn") (2 * j - 1), percent c.hybInt), (placeholder (chars! "perc_nn") (2 * j), percent (chars! "Hybrid"))] ++ rowOps P j c .pnn) tab) := by
  have hs := row_split hl
  have t := row_in hl
  have t1 : pyIn (chars! "Resolved Instances") line = _ := t .solved
  have t2 : pyIn (chars! "Closed NN") line = _ := t .nn
  have t3 : pyIn (chars! "Closed NN Hybrid") line = _ := t .pnn
  have t4 : pyIn (chars! "total_time") line = _ := t .totalTime
  have t5 : pyIn (chars! "time_bb") line = _ := t .bbTime
  have t6 : pyIn (chars! "time_to_best") line = _ := t .timeToBest
  have t7 : pyIn (chars! "total_tree_level") line = _ := t .depth
  have t8 : pyIn (chars! "best_level") line = _ := t .bestDepth
  have t9 : pyIn (chars! "generate_bbnodes") line = _ := t .generated
  have t10 : pyIn (chars! "explored_bbnodes") line = _ := t .explored
  have t11 : pyIn (chars! "bbnodes_before_best") line = _ := t .beforeBest
  have t12 : pyIn (chars! "prob_best") line = _ := t .prob
  have e1 : 1 + (j - 1) * 2 = 2 * j - 1 := by omega
  have e2 : 2 * j - 1 + 1 = 2 * j := by omega
  unfold tableLine
  rw [t1, t2, t3, t12]
  simp only [metricRows, forList, t4, t5, t6, t7, t8, t9, t10, t11]
  simp only [reduceCtorEq, decide_true, decide_false, or_false, or_true, true_or, false_or, and_true, and_false, if_true, if_false, Bool.false_eq_true, pure_eq_ok, ok_bind, and_self]
  rw [lineField_of (k := 2) (by rw [hs]; rfl), lineField_of (k := 4) (by rw [hs]; rfl), lineField_of (k := 3) (by rw [hs]; rfl)]
  simp only [ok_bind, e1, e2, escapePercent_eq]
  rfl

theorem lines_ops {P : PyNum} (hstr : ∀ x, '_' ∉ P.str x) {T : List (List Char)} (hT : Alternate T) {j : Nat} (hj : 1 ≤ j) {col : Row → Columns} (hN : Numbers P col) :
    ∀ {rs : List Row} {lines : List (List Char)}, Rows col rs lines → ∀ {D : List (List Char × List Char)}, Filled D → rowsOk T j (D.map Prod.fst) rs = true →
      forList (fun t line => tableLine P j t line) lines (render T D) = .ok (render T (D ++ rs.flatMap fun r => rowOps P j (col r) r)) ∧ Filled (D ++ rs.flatMap fun r => rowOps P j (col r) r) := by
  intro rs lines h
  induction h with
  | nil => intro D hD _; simpa [forList] using hD
  | other hq h ih =>
    intro D hD hk
    rw [forList, line_other hq, ok_bind]
    exact ih hD hk
  | @row r rs line lines hr h ih =>
    intro D hD hk
    rw [rowsOk, Bool.and_eq_true] at hk
    have key : tableLine P j (render T D) line = .ok (render T (D ++ rowOps P j (col r) r)) ∧ Filled (D ++ rowOps P j (col r) r) := by
      by_cases hp : r = .pnn
      · subst hp
        rw [if_pos rfl, Bool.and_eq_true] at hk
        have hd : '_' ∉ percent (col .pnn).hybInt := by
          obtain ⟨g1, g2, g3, g4, g5, h1, h2, h3, h4, h5, c1, c2, c3, c4, c5, -⟩ := hr
          exact (column_plain c2).2
        have hv := rowOps_plain hstr (j := j) hr
        obtain ⟨e, f⟩ := replaces_ok hT ([(placeholder (chars! "perc_nn") (2 * j - 1), percent (col .pnn).hybInt), (placeholder (chars! "perc_nn") (2 * j), percent (chars! "Hybrid"))] ++ rowOps P j (col .pnn) .pnn) D hD (by
          intro q hq
          rcases List.mem_append.1 hq with hq | hq
          · simp only [List.mem_cons, List.not_mem_nil, or_false] at hq
            rcases hq with rfl | rfl
            · exact hd
            · show '_' ∉ percent (chars! "Hybrid")
              decide
          · exact hv q hq) hk.1.1
        rw [line_pnn hj hr, e, ← List.append_assoc, render_dup]
        · refine ⟨rfl, ?_⟩
          intro q hq
          rcases List.mem_append.1 hq with hq | hq
          · exact hD q hq
          · exact f q (by simp [hq])
        · have h2 := hk.1.2
          simp only [rowKeys, List.all_cons, List.all_nil, Bool.and_true, Bool.and_eq_true, List.contains_iff_mem] at h2
          intro q hq
          simp only [List.mem_cons, List.not_mem_nil, or_false] at hq
          rcases hq with rfl | rfl
          · exact h2.1
          · exact h2.2
      · rw [if_neg hp] at hk
        obtain ⟨e, f⟩ := replaces_ok hT (rowOps P j (col r) r) D hD (rowOps_plain hstr hr) (by rw [rowOps_keys]; exact hk.1)
        rw [line_ops hj hr hp (hN.means r) (hN.classic r), e]
        exact ⟨rfl, f⟩
    obtain ⟨e, f⟩ := key
    rw [forList, e, ok_bind]
    have := ih f (by rw [List.map_append, rowOps_keys]; exact hk.2)
    rw [List.append_assoc] at this
    rw [List.flatMap_cons]
    exact this

/-! ### The whole table -/

/-- the replacements for the block `j` -/
def blockOps (P : PyNum) (j n : Nat) (col : Row → Columns) : List (List Char × List Char) := (placeholder (chars! "numn") j, natText n) :: Row.all.flatMap fun r => rowOps P j (col r) r

def blockKeys (j : Nat) : List (List Char) := placeholder (chars! "numn") j :: Row.all.flatMap (rowKeys j)

theorem blockOps_keys (P : PyNum) (j n : Nat) (col : Row → Columns) : (blockOps P j n col).map Prod.fst = blockKeys j := by
  unfold blockOps blockKeys
  rw [List.map_cons, List.map_flatMap]
  simp only [rowOps_keys]

theorem natText_plain (n : Nat) : '_' ∉ natText n := by
  unfold natText
  generalize n + 1 = k
  induction k generalizing n with
  | zero => simp [digitsFrom]
  | succ k ih =>
    have hd : ∀ m, m < 10 → '_' ≠ m.digitChar := by decide
    unfold digitsFrom
    split
    · next h => simpa using hd n h
    · rw [List.mem_append, not_or]
      exact ⟨ih _, by simpa using hd (n % 10) (Nat.mod_lt _ (by norm_num))⟩

/-- `Alternate`, computed -/
def altB : List (List Char) → Bool
  | [] => true
  | w :: ts => ((!w.isEmpty && w.all fun ch => !wordChar ch) || (w.all wordChar && (ts.head?.all fun v => !v.isEmpty && v.all fun ch => !wordChar ch))) && altB ts

theorem altB_alternate : ∀ {T : List (List Char)}, altB T = true → Alternate T := by
  intro T
  induction T with
  | nil => intro _; trivial
  | cons w ts ih =>
    intro h
    simp only [altB, Bool.and_eq_true, Bool.or_eq_true] at h
    refine ⟨?_, ih h.2⟩
    rcases h.1 with h | h
    · left
      simpa [List.isEmpty_iff] using h
    · right
      refine ⟨fun ch hch => List.all_eq_true.1 h.1 ch hch, ?_⟩
      cases ts with
      | nil => simp
      | cons v ts =>
        intro v' hv
        simp only [List.head?_cons, Option.mem_def, Option.some.injEq] at hv
        subst hv
        simpa [List.isEmpty_iff] using h.2

theorem render_runs (s : List Char) : render (runs s) [] = s := by
  unfold render
  simp only [List.lookup_nil, Option.getD_none]
  rw [List.flatMap_id']
  exact List.flatten_splitBy _ _

theorem size_ops {T : List (List Char)} (hT : Alternate T) {P : PyNum} (hstr : ∀ x, '_' ∉ P.str x) {files : Nat → Option (List Char)} {n j : Nat} {text : List Char} {col : Row → Columns} (hj : 1 ≤ j)
    (hf : files n = some text) (hm : MeanFile col text) (hN : Numbers P col)
    {D : List (List Char × List Char)} (hD : Filled D) (hk : keysOk T (D.map Prod.fst) [placeholder (chars! "numn") j] = true)
    (hr : rowsOk T j (D.map Prod.fst ++ [placeholder (chars! "numn") j]) Row.all = true) :
    tableSize P files (render T D, j) n = .ok (render T (D ++ blockOps P j n col), j + 1) ∧ Filled (D ++ blockOps P j n col) := by
  obtain ⟨e, f⟩ := replaces_ok hT [(placeholder (chars! "numn") j, natText n)] D hD (by simpa using natText_plain n) hk
  obtain ⟨e', f'⟩ := lines_ops hstr hT hj hN hm f (by rw [List.map_append]; exact hr)
  unfold tableSize
  rw [hf]
  have e1 : pyReplace (placeholder (chars! "numn") j) (natText n) (render T D) = _ := e
  simp only [e1, e', ok_bind, pure_eq_ok]
  rw [List.append_assoc] at f' ⊢
  exact ⟨rfl, f'⟩

/-- what is known of the files -/
structure Spec.Files (P : PyNum) (files : Nat → Option (List Char)) (col : Nat → Row → Columns) (n : Nat) : Prop where
  file : ∃ text, files n = some text ∧ MeanFile (col n) text
  numbers : Numbers P (col n)

/-- the template is such that no placeholder is replaced inside another one -/
def templateOk (T : List (List Char)) : Bool :=
  altB T && keysOk T [] [placeholder (chars! "numn") 1] && rowsOk T 1 [placeholder (chars! "numn") 1] Row.all &&
    keysOk T (blockKeys 1) [placeholder (chars! "numn") 2] && rowsOk T 2 (blockKeys 1 ++ [placeholder (chars! "numn") 2]) Row.all &&
    keysOk T (blockKeys 1 ++ blockKeys 2) [placeholder (chars! "numn") 3] && rowsOk T 3 (blockKeys 1 ++ blockKeys 2 ++ [placeholder (chars! "numn") 3]) Row.all

/-- the words of the template that contain `_` -/
def templateWords : List (List Char) :=
  [chars! "numn_1", chars! "numn_2", chars! "numn_3", chars! "perc_1", chars! "perc_2", chars! "perc_3", chars! "perc_4", chars! "perc_5", chars! "perc_6", chars! "perc_nn_1", 
    chars! "perc_nn_2", chars! "perc_nn_3", chars! "perc_nn_4", chars! "perc_nn_5", chars! "perc_nn_6", chars! "perc_pnn_1", chars! "perc_pnn_2", chars! "perc_pnn_3", chars! "ttime_1", 
    chars! "std_ttime_1", chars! "ttime_2", chars! "std_ttime_2", chars! "ttime_3", chars! "std_ttime_3", chars! "ttime_4", chars! "std_ttime_4", chars! "ttime_5", chars! "std_ttime_5", 
    chars! "ttime_6", chars! "std_ttime_6", chars! "bbtime_1", chars! "std_bbtime_1", chars! "bbtime_2", chars! "std_bbtime_2", chars! "bbtime_3", chars! "std_bbtime_3", chars! "bbtime_4", 
    chars! "std_bbtime_4", chars! "bbtime_5", chars! "std_bbtime_5", chars! "bbtime_6", chars! "std_bbtime_6", chars! "timetb_1", chars! "std_timetb_1", chars! "timetb_2", 
    chars! "std_timetb_2", chars! "timetb_3", chars! "std_timetb_3", chars! "timetb_4", chars! "std_timetb_4", chars! "timetb_5", chars! "std_timetb_5", chars! "timetb_6", 
    chars! "std_timetb_6", chars! "tdep_1", chars! "std_tdep_1", chars! "tdep_2", chars! "std_tdep_2", chars! "tdep_3", chars! "std_tdep_3", chars! "tdep_4", chars! "std_tdep_4", 
    chars! "tdep_5", chars! "std_tdep_5", chars! "tdep_6", chars! "std_tdep_6", chars! "bdep_1", chars! "std_bdep_1", chars! "bdep_2", chars! "std_bdep_2", chars! "bdep_3", 
    chars! "std_bdep_3", chars! "bdep_4", chars! "std_bdep_4", chars! "bdep_5", chars! "std_bdep_5", chars! "bdep_6", chars! "std_bdep_6", chars! "gbbn_1", chars! "std_gbbn_1", 
    chars! "gbbn_2", chars! "std_gbbn_2", chars! "gbbn_3", chars! "std_gbbn_3", chars! "gbbn_4", chars! "std_gbbn_4", chars! "gbbn_5", chars! "std_gbbn_5", chars! "gbbn_6", 
    chars! "std_gbbn_6", chars! "ebbn_1", chars! "std_ebbn_1", chars! "ebbn_2", chars! "std_ebbn_2", chars! "ebbn_3", chars! "std_ebbn_3", chars! "ebbn_4", chars! "std_ebbn_4", 
    chars! "ebbn_5", chars! "std_ebbn_5", chars! "ebbn_6", chars! "std_ebbn_6", chars! "bbnbb_1", chars! "std_bbnbb_1", chars! "bbnbb_2", chars! "std_bbnbb_2", chars! "bbnbb_3", 
    chars! "std_bbnbb_3", chars! "bbnbb_4", chars! "std_bbnbb_4", chars! "bbnbb_5", chars! "std_bbnbb_5", chars! "bbnbb_6", chars! "std_bbnbb_6", chars! "_", chars! "os_1", chars! "std_os_1", 
    chars! "os_2", chars! "std_os_2", chars! "os_3", chars! "std_os_3"]

/-- `keyOk` for words whose only digit is the last character, and a key that ends with a digit: the key can only be the end of a word -/
def keyFast (W : List (List Char)) (done : List (List Char)) (k : List Char) : Bool := W.all fun w => !(k.reverse.isPrefixOf w.reverse) || w == k || done.contains w

def keysFast (W : List (List Char)) : List (List Char) → List (List Char) → Bool
  | _, [] => true
  | done, k :: ks => (k.all wordChar && k.contains '_' && k.getLast?.any Char.isDigit && keyFast W done k) && keysFast W (done ++ [k]) ks

def rowsFast (W : List (List Char)) (j : Nat) : List (List Char) → List Row → Bool
  | _, [] => true
  | done, r :: rs => (if r = .pnn then keysFast W done (rowKeys j .nn ++ rowKeys j .pnn) && (rowKeys j .nn).all fun k => done.contains k else keysFast W done (rowKeys j r)) && rowsFast W j (done ++ rowKeys j r) rs

/-- `W` contains the words of `T` with `_`; their only digit is the last character -/
def WordsOf (T W : List (List Char)) : Prop := T.filter (fun w => w.contains '_') = W ∧ (W.all fun w => w.dropLast.all fun ch => !ch.isDigit) = true

theorem keysOk_of_fast {T W : List (List Char)} (hW : WordsOf T W) : ∀ {ks done : List (List Char)}, keysFast W done ks = true → keysOk T done ks = true := by
  intro ks
  induction ks with
  | nil => intro _ _; rfl
  | cons k ks ih =>
    intro done h
    rw [keysFast] at h
    rw [keysOk]
    simp only [Bool.and_eq_true] at h ⊢
    obtain ⟨⟨⟨⟨h1, h2⟩, h3⟩, h4⟩, h5⟩ := h
    refine ⟨⟨⟨h1, h2⟩, ?_⟩, ih h5⟩
    have hk : k ≠ [] := by rintro rfl; simp at h3
    have hd : (k.getLast hk).isDigit = true := by rw [List.getLast?_eq_some_getLast hk] at h3; simpa using h3
    rw [keyOk, List.all_eq_true]
    intro w hw
    by_cases hp : pyIn k w = true
    · have hin : k <:+: w := (pyIn_iff hk _).1 hp
      have hu : '_' ∈ w := hin.subset (by simpa using h2)
      have hm : w ∈ W := by rw [← hW.1, List.mem_filter]; exact ⟨hw, by simpa using hu⟩
      have hdig := List.all_eq_true.1 hW.2 w hm
      have hsuf : k <:+ w := by
        obtain ⟨s, t, e⟩ := hin
        rcases List.eq_nil_or_concat t with rfl | ⟨t, x, rfl⟩
        · exact ⟨s, by simpa using e⟩
        · exfalso
          have : k.getLast hk ∈ w.dropLast := by
            rw [← e, List.concat_eq_append, ← List.append_assoc, List.dropLast_concat]
            simp
          have := List.all_eq_true.1 hdig _ this
          rw [hd] at this
          cases this
      have hf := List.all_eq_true.1 h4 w hm
      have hpre : k.reverse.isPrefixOf w.reverse = true := by rw [List.isPrefixOf_iff_prefix, List.reverse_prefix]; exact hsuf
      rw [hpre] at hf
      simp only [Bool.not_true, Bool.false_or] at hf
      rw [hf, Bool.true_or]
    · rw [Bool.not_eq_true] at hp
      rw [hp]
      simp

theorem rowsOk_of_fast {T W : List (List Char)} (hW : WordsOf T W) {j : Nat} : ∀ {rs : List Row} {done : List (List Char)}, rowsFast W j done rs = true → rowsOk T j done rs = true := by
  intro rs
  induction rs with
  | nil => intro _ _; rfl
  | cons r rs ih =>
    intro done h
    rw [rowsFast, Bool.and_eq_true] at h
    rw [rowsOk, Bool.and_eq_true]
    refine ⟨?_, ih h.2⟩
    by_cases hr : r = .pnn
    · rw [if_pos hr, Bool.and_eq_true] at h ⊢
      exact ⟨keysOk_of_fast hW h.1.1, h.1.2⟩
    · rw [if_neg hr] at h ⊢
      exact keysOk_of_fast hW h.1

set_option maxRecDepth 100000 in
theorem template_words : WordsOf (runs tableTemplate) templateWords := ⟨by decide +kernel, by decide +kernel⟩

set_option maxRecDepth 100000 in
theorem template_alt : altB (runs tableTemplate) = true := by decide +kernel

theorem words_1 : (keysFast templateWords [] [placeholder (chars! "numn") 1] && rowsFast templateWords 1 [placeholder (chars! "numn") 1] Row.all) = true := by decide +kernel

theorem words_2 : (keysFast templateWords (blockKeys 1) [placeholder (chars! "numn") 2] && rowsFast templateWords 2 (blockKeys 1 ++ [placeholder (chars! "numn") 2]) Row.all) = true := by decide +kernel

theorem words_3 : (keysFast templateWords (blockKeys 1 ++ blockKeys 2) [placeholder (chars! "numn") 3] && rowsFast templateWords 3 (blockKeys 1 ++ blockKeys 2 ++ [placeholder (chars! "numn") 3]) Row.all) = true := by
  decide +kernel

theorem template_ok : templateOk (runs tableTemplate) = true := by
  have h1 := words_1
  have h2 := words_2
  have h3 := words_3
  rw [Bool.and_eq_true] at h1 h2 h3
  unfold templateOk
  rw [template_alt, keysOk_of_fast template_words h1.1, rowsOk_of_fast template_words h1.2, keysOk_of_fast template_words h2.1, rowsOk_of_fast template_words h2.2, keysOk_of_fast template_words h3.1,
    rowsOk_of_fast template_words h3.2]
  rfl

theorem sizes_ops {T : List (List Char)} (k : templateOk T = true) {P : PyNum} (hstr : ∀ x, '_' ∉ P.str x) {files : Nat → Option (List Char)} {col : Nat → Row → Columns} {n1 n2 n3 : Nat}
    (h1 : Files P files col n1) (h2 : Files P files col n2) (h3 : Files P files col n3) :
    forList (fun s i => tableSize P files s i) [n1, n2, n3] (render T [], 1) = .ok (render T (blockOps P 1 n1 (col n1) ++ blockOps P 2 n2 (col n2) ++ blockOps P 3 n3 (col n3)), 4) := by
  obtain ⟨t1, f1, m1⟩ := h1.file
  obtain ⟨t2, f2, m2⟩ := h2.file
  obtain ⟨t3, f3, m3⟩ := h3.file
  unfold templateOk at k
  simp only [Bool.and_eq_true] at k
  obtain ⟨⟨⟨⟨⟨⟨k0, k1⟩, k2⟩, k3⟩, k4⟩, k5⟩, k6⟩ := k
  have hT := altB_alternate k0
  obtain ⟨a1, b1⟩ := size_ops hT hstr (j := 1) le_rfl f1 m1 h1.numbers (D := []) (by intro q hq; cases hq) k1 k2
  rw [List.nil_append] at a1 b1
  obtain ⟨a2, b2⟩ := size_ops hT hstr (j := 2) (by norm_num) f2 m2 h2.numbers b1 (by rw [blockOps_keys]; exact k3) (by rw [blockOps_keys]; exact k4)
  obtain ⟨a3, b3⟩ := size_ops hT hstr (j := 3) (by norm_num) f3 m3 h3.numbers b2 (by rw [List.map_append, blockOps_keys, blockOps_keys]; exact k5) (by rw [List.map_append, blockOps_keys, blockOps_keys]; exact k6)
  simp only [forList, a1, a2, a3, ok_bind]

theorem fillTable_ops {P : PyNum} (hstr : ∀ x, '_' ∉ P.str x) {files : Nat → Option (List Char)} {col : Nat → Row → Columns} {n1 n2 n3 : Nat} (h1 : Files P files col n1) (h2 : Files P files col n2) (h3 : Files P files col n3) :
    fillTable P files [n1, n2, n3] = .ok (fillIn (blockOps P 1 n1 (col n1) ++ blockOps P 2 n2 (col n2) ++ blockOps P 3 n3 (col n3)) tableTemplate) := by
  have e := sizes_ops template_ok hstr h1 h2 h3
  rw [render_runs] at e
  unfold fillTable
  rw [e, ok_bind, pure_eq_ok]
  unfold render fillIn
  with_reducible rfl

/-- C97, whatever the numbers are: every placeholder of a table is replaced by the text for its row, its size and its solver -/
theorem C97_exact {P : PyNum} (hstr : ∀ x, '_' ∉ P.str x) {files : Nat → Option (List Char)} {col : Nat → Row → Columns} (h : ∀ n ∈ [20, 50, 100, 35, 75, 150], Files P files col n) :
    createTables P files = .ok (fillIn (blockOps P 1 20 (col 20) ++ blockOps P 2 50 (col 50) ++ blockOps P 3 100 (col 100)) tableTemplate,
      fillIn (blockOps P 1 35 (col 35) ++ blockOps P 2 75 (col 75) ++ blockOps P 3 150 (col 150)) tableTemplate) := by
  unfold createTables
  rw [fillTable_ops hstr (h 20 (by simp)) (h 50 (by simp)) (h 100 (by simp)), ok_bind, fillTable_ops hstr (h 35 (by simp)) (h 75 (by simp)) (h 150 (by simp)), ok_bind, pure_eq_ok]

/-- the p-value of a row is below 5 % if and only if it is after rounding to two decimals; and if the mean of the classic solver is the smaller one, the difference is significant -/
structure Spec.Tame (P : PyNum) (c : Columns) : Prop where
  p : pyLt (number2 P c.p) (some (5 / 100)) = significant P c
  classic : classicBetter P c = true → significant P c = true

/-- C97. If the six files exist, with all their rows, the program writes two tables in which every placeholder is replaced by the value of its row, its size and its solver, with two decimals; the better mean is
in bold, and underlined if the difference is significant. (Partial: only if no p-value between 4.5 % and 5 % is rounded to 5 %, and if the classic solver is nowhere better without being significantly better;
`C97_rounded_fails` and `C97_bold_fails` show that the program is wrong in these cases.) -/
theorem C97_tables_partial {P : PyNum} (hstr : ∀ x, '_' ∉ P.str x) {files : Nat → Option (List Char)} {col : Nat → Row → Columns} (h : ∀ n ∈ [20, 50, 100, 35, 75, 150], Files P files col n)
    (ht : ∀ n ∈ [20, 50, 100, 35, 75, 150], ∀ r, r ≠ .solved → r ≠ .nn → r ≠ .pnn → r ≠ .prob → Tame P (col n r)) :
    createTables P files = .ok (tableOf P col 20 50 100, tableOf P col 35 75 150) := by
  have hm : ∀ {c : Columns} (j : Nat) (r : Row), r ≠ .solved → r ≠ .nn → r ≠ .pnn → r ≠ .prob → Tame P c → rowOps P j c r = rowCells P j c r := by
    intro c j r h1 h2 h3 h4 ht
    have hc : classicText' P c = emphasis (classicBetter P c) (significant P c) (P.str (number2 P c.cla)) := by
      unfold classicText' emphasis
      rw [ht.p]
      by_cases hb : classicBetter P c = true
      · have hb' : pyLt (number2 P c.cla) (number2 P c.hyb) = true := hb
        rw [if_pos hb', if_pos hb, ht.classic hb]; simp
      · have hb' : ¬ pyLt (number2 P c.cla) (number2 P c.hyb) = true := hb
        rw [if_neg hb', if_neg hb]
    cases r <;> first | contradiction | (simp only [rowOps, rowCells, metricOps, hc, ht.p])
  have hr : ∀ n ∈ [20, 50, 100, 35, 75, 150], ∀ j, blockOps P j n (col n) = blockCells P j n (col n) := by
    intro n hn j
    unfold blockOps blockCells
    congr 1
    congr 1
    funext r
    cases r
    case solved => rfl
    case nn => rfl
    case pnn => rfl
    case prob => rfl
    all_goals exact hm j _ (by simp) (by simp) (by simp) (by simp) (ht n hn _ (by simp) (by simp) (by simp) (by simp))
  rw [C97_exact hstr h, hr 20 (by simp), hr 50 (by simp), hr 100 (by simp), hr 35 (by simp), hr 75 (by simp), hr 150 (by simp)]
  rfl

end Verif
