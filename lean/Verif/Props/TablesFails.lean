import Verif.Props.Tables

/-!
# C97: no placeholder is left, and what goes wrong
-/
namespace Verif
open Verif.Spec
set_option autoImplicit false

/-- all placeholders that get a value -/
def allKeys : List (List Char) := blockKeys 1 ++ blockKeys 2 ++ blockKeys 3

/-- all replacements for a table -/
def allOps (P : PyNum) (col : Nat → Row → Columns) (n1 n2 n3 : Nat) : List (List Char × List Char) := blockOps P 1 n1 (col n1) ++ blockOps P 2 n2 (col n2) ++ blockOps P 3 n3 (col n3)

theorem allOps_keys (P : PyNum) (col : Nat → Row → Columns) (n1 n2 n3 : Nat) : (allOps P col n1 n2 n3).map Prod.fst = allKeys := by
  unfold allOps allKeys
  rw [List.map_append, List.map_append, blockOps_keys, blockOps_keys, blockOps_keys]

set_option maxRecDepth 100000 in
theorem keys_nodup : allKeys.Nodup := by decide +kernel

set_option maxRecDepth 100000 in
theorem keys_used : (allKeys.all fun k => (runs tableTemplate).contains k) = true := by decide +kernel

set_option maxRecDepth 100000 in
theorem keys_all : ((runs tableTemplate).map fun w => if w ∈ allKeys then 0 else w.count '_').sum = 1 := by decide +kernel

theorem lookup_of_mem {D : List (List Char × List Char)} (hn : (D.map Prod.fst).Nodup) {q : List Char × List Char} (h : q ∈ D) : D.lookup q.1 = some q.2 := by
  induction D with
  | nil => cases h
  | cons x D ih =>
    rw [List.map_cons, List.nodup_cons] at hn
    rw [List.lookup_cons]
    rcases List.mem_cons.1 h with rfl | h
    · simp
    · have : (q.1 == x.1) = false := by
        rw [beq_eq_false_iff_ne]
        intro e
        exact hn.1 (e ▸ List.mem_map_of_mem h)
      rw [this]
      exact ih hn.2 h

theorem fill_mem {vals : List (List Char × List Char)} {s k v : List Char} (hk : k ∈ runs s) (hv : vals.lookup k = some v) {ch : Char} (h : ch ∈ v) : ch ∈ fillIn vals s := by
  unfold fillIn
  exact List.mem_flatMap.2 ⟨k, hk, by rw [hv]; exact h⟩

theorem blockOps_plain {P : PyNum} (hstr : ∀ x, '_' ∉ P.str x) {files : Nat → Option (List Char)} {col : Nat → Row → Columns} {n j : Nat} (h : Files P files col n) : ∀ q ∈ blockOps P j n (col n), '_' ∉ q.2 := by
  have hrow : ∀ {rs : List Row} {lines : List (List Char)}, Rows (col n) rs lines → ∀ r ∈ rs, ∃ line, RowLine r (col n r) line := by
    intro rs lines h
    induction h with
    | nil => intro r hr; cases hr
    | other _ _ ih => exact ih
    | row hr _ ih =>
      intro r h'
      rcases List.mem_cons.1 h' with rfl | h'
      · exact ⟨_, hr⟩
      · exact ih r h'
  obtain ⟨text, -, hm⟩ := h.file
  intro q hq
  rcases List.mem_cons.1 hq with rfl | hq
  · exact natText_plain n
  · obtain ⟨r, hr, hq⟩ := List.mem_flatMap.1 hq
    obtain ⟨line, hl⟩ := hrow hm r hr
    exact rowOps_plain hstr hl q hq

theorem allOps_plain {P : PyNum} (hstr : ∀ x, '_' ∉ P.str x) {files : Nat → Option (List Char)} {col : Nat → Row → Columns} {n1 n2 n3 : Nat} (h1 : Files P files col n1) (h2 : Files P files col n2) (h3 : Files P files col n3) :
    ∀ q ∈ allOps P col n1 n2 n3, '_' ∉ q.2 := by
  intro q hq
  unfold allOps at hq
  rw [List.mem_append, List.mem_append] at hq
  rcases hq with (hq | hq) | hq
  · exact blockOps_plain hstr h1 q hq
  · exact blockOps_plain hstr h2 q hq
  · exact blockOps_plain hstr h3 q hq

theorem count_fill {s : List Char} {D : List (List Char × List Char)} (hp : ∀ q ∈ D, '_' ∉ q.2) : (fillIn D s).count '_' = ((runs s).map fun w => if w ∈ D.map Prod.fst then 0 else w.count '_').sum := by
  unfold fillIn
  rw [List.count_flatMap]
  congr 1
  apply List.map_congr_left
  intro w _
  show List.count '_' ((D.lookup w).getD w) = _
  cases e : D.lookup w with
  | none =>
    have : w ∉ D.map Prod.fst := by
      intro h
      obtain ⟨q, hq, rfl⟩ := List.mem_map.1 h
      rw [List.lookup_eq_none_iff] at e
      have := e q hq
      simp at this
    rw [if_neg this]; rfl
  | some v =>
    obtain ⟨l1, l2, e1, -⟩ := List.lookup_eq_some_iff.1 e
    have hm : (w, v) ∈ D := by rw [e1]; simp
    rw [if_pos (List.mem_map.2 ⟨_, hm, rfl⟩)]
    exact List.count_eq_zero.2 (hp _ hm)

/-- C97: whatever the numbers are, no placeholder is left in the tables: the only `_` is that of the label of the last row -/
theorem C97_all_filled {P : PyNum} (hstr : ∀ x, '_' ∉ P.str x) {files : Nat → Option (List Char)} {col : Nat → Row → Columns} (h : ∀ n ∈ [20, 50, 100, 35, 75, 150], Files P files col n) :
    ∃ t1 t2, createTables P files = .ok (t1, t2) ∧ t1.count '_' = 1 ∧ t2.count '_' = 1 := by
  have key : ∀ n1 n2 n3, Files P files col n1 → Files P files col n2 → Files P files col n3 → (fillIn (allOps P col n1 n2 n3) tableTemplate).count '_' = 1 := by
    intro n1 n2 n3 h1 h2 h3
    rw [count_fill (allOps_plain hstr h1 h2 h3), allOps_keys]
    exact keys_all
  exact ⟨_, _, C97_exact hstr h, key 20 50 100 (h 20 (by simp)) (h 50 (by simp)) (h 100 (by simp)), key 35 75 150 (h 35 (by simp)) (h 75 (by simp)) (h 150 (by simp))⟩

/-- the rows of means that are compared -/
def Spec.Compared (r : Row) : Prop := r ≠ .solved ∧ r ≠ .nn ∧ r ≠ .pnn ∧ r ≠ .prob

theorem compared_ops {P : PyNum} {j n : Nat} {col : Row → Columns} {r : Row} (hr : Compared r) {q : List Char × List Char} (h : q ∈ metricOps P j r.name (col r)) : q ∈ blockOps P j n col := by
  obtain ⟨h1, h2, h3, h4⟩ := hr
  refine List.mem_cons_of_mem _ (List.mem_flatMap.2 ⟨r, by cases r <;> simp [Row.all], ?_⟩)
  cases r <;> first | contradiction | exact h

theorem value_used {P : PyNum} {col : Nat → Row → Columns} {n1 n2 n3 : Nat} {q : List Char × List Char} (h : q ∈ allOps P col n1 n2 n3) : q.1 ∈ runs tableTemplate ∧ (allOps P col n1 n2 n3).lookup q.1 = some q.2 := by
  have hk : q.1 ∈ allKeys := by rw [← allOps_keys P col n1 n2 n3]; exact List.mem_map_of_mem h
  refine ⟨by simpa using List.all_eq_true.1 keys_used q.1 hk, lookup_of_mem ?_ h⟩
  rw [allOps_keys]
  exact keys_nodup

/-- C97 fails: wherever the classic solver has the smaller mean and the p-value, with two decimals, is not below 0.05, the program writes a TAB and `extbf{` instead of `\textbf{` -/
theorem C97_bold_fails {P : PyNum} (hstr : ∀ x, '_' ∉ P.str x) {files : Nat → Option (List Char)} {col : Nat → Row → Columns} (h : ∀ n ∈ [20, 50, 100, 35, 75, 150], Files P files col n)
    {n : Nat} (hn : n ∈ [20, 50, 100, 35, 75, 150]) {r : Row} (hr : Compared r) (hb : classicBetter P (col n r) = true) (hp : pyLt (number2 P (col n r).p) (some (5 / 100)) = false) :
    ∃ t1 t2, createTables P files = .ok (t1, t2) ∧ ('\t' ∈ t1 ∨ '\t' ∈ t2) := by
  refine ⟨_, _, C97_exact hstr h, ?_⟩
  have hc : '\t' ∈ classicText' P (col n r) := by
    unfold classicText'
    rw [if_pos (show pyLt (number2 P (col n r).cla) (number2 P (col n r).hyb) = true from hb), if_neg (by rw [hp]; simp)]
    simp
  have hq : ∀ j, ((placeholder r.name (2 * j - 1), classicText' P (col n r)) : List Char × List Char) ∈ blockOps P j n (col n) := fun j => compared_ops hr (by unfold metricOps; simp)
  have use : ∀ {n1 n2 n3 j : Nat}, ((placeholder r.name (2 * j - 1), classicText' P (col n r)) : List Char × List Char) ∈ allOps P col n1 n2 n3 → '\t' ∈ fillIn (allOps P col n1 n2 n3) tableTemplate := by
    intro n1 n2 n3 j hm
    obtain ⟨h1, h2⟩ := value_used hm
    exact fill_mem h1 h2 hc
  simp only [List.mem_cons, List.not_mem_nil, or_false] at hn
  rcases hn with rfl | rfl | rfl | rfl | rfl | rfl
  · exact Or.inl (use (j := 1) (by unfold allOps; rw [List.mem_append, List.mem_append]; exact Or.inl (Or.inl (hq 1))))
  · exact Or.inl (use (j := 2) (by unfold allOps; rw [List.mem_append, List.mem_append]; exact Or.inl (Or.inr (hq 2))))
  · exact Or.inl (use (j := 3) (by unfold allOps; rw [List.mem_append]; exact Or.inr (hq 3)))
  · exact Or.inr (use (j := 1) (by unfold allOps; rw [List.mem_append, List.mem_append]; exact Or.inl (Or.inl (hq 1))))
  · exact Or.inr (use (j := 2) (by unfold allOps; rw [List.mem_append, List.mem_append]; exact Or.inl (Or.inr (hq 2))))
  · exact Or.inr (use (j := 3) (by unfold allOps; rw [List.mem_append]; exact Or.inr (hq 3)))

set_option maxRecDepth 100000 in
theorem template_tab : ((runs tableTemplate).all fun w => !w.contains '\t') = true := by decide +kernel

theorem column_tab {t : List Char} (h : IsColumn t) : '\t' ∉ percent t := by
  unfold percent
  intro hm
  obtain ⟨ch, h2, h3⟩ := List.mem_flatMap.1 hm
  split at h3
  · revert h3; decide
  · obtain rfl := List.mem_singleton.1 h3
    rcases h with h | rfl
    · have := h.2 _ h2
      revert this
      decide
    · revert h2; decide

/-- the tables of the specification contain no TAB -/
theorem C97_no_tab {P : PyNum} (hstr : ∀ x, '\t' ∉ P.str x) {col : Nat → Row → Columns} {n1 n2 n3 : Nat} (hc : ∀ n r, IsColumn (col n r).hyb ∧ IsColumn (col n r).cla) : '\t' ∉ tableOf P col n1 n2 n3 := by
  have hstd : ∀ x, '\t' ∉ stdText P x := by
    intro x
    unfold stdText
    simp [hstr]
  have hem : ∀ a b x, '\t' ∉ emphasis a b (P.str x) := by
    intro a b x
    unfold emphasis
    split
    · split <;> simp [hstr]
    · exact hstr x
  have hnat : ∀ n, '\t' ∉ natText n := by
    intro n
    unfold natText
    generalize n + 1 = k
    induction k generalizing n with
    | zero => simp [digitsFrom]
    | succ k ih =>
      have hd : ∀ m, m < 10 → '\t' ≠ m.digitChar := by decide
      unfold digitsFrom
      split
      · next h => simpa using hd n h
      · rw [List.mem_append, not_or]
        exact ⟨ih _, by simpa using hd (n % 10) (Nat.mod_lt _ (by norm_num))⟩
  have hblock : ∀ j n, ∀ q ∈ blockCells P j n (col n), '\t' ∉ q.2 := by
    intro j n q hq
    rcases List.mem_cons.1 hq with rfl | hq
    · exact hnat n
    obtain ⟨r, -, hq⟩ := List.mem_flatMap.1 hq
    have h1 := column_tab (hc n r).1
    have h3 := column_tab (hc n r).2
    cases r <;> simp only [rowCells, List.mem_cons, List.not_mem_nil, or_false] at hq
    case solved => rcases hq with rfl | rfl <;> assumption
    case nn => rcases hq with rfl | rfl <;> assumption
    case pnn => subst hq; assumption
    case prob =>
      rcases hq with rfl | rfl
      · exact hstd _
      · exact hstr _
    all_goals
      rcases hq with rfl | rfl | rfl | rfl
      · exact hstd _
      · exact hem _ _ _
      · exact hstd _
      · exact hem _ _ _
  unfold tableOf fillIn
  intro hm
  obtain ⟨w, hw, hm⟩ := List.mem_flatMap.1 hm
  have ht := List.all_eq_true.1 template_tab w hw
  revert hm
  cases e : (blockCells P 1 n1 (col n1) ++ blockCells P 2 n2 (col n2) ++ blockCells P 3 n3 (col n3)).lookup w with
  | none =>
    intro hm
    have hm : '\t' ∈ w := hm
    simp [hm] at ht
  | some v =>
    obtain ⟨l1, l2, e1, -⟩ := List.lookup_eq_some_iff.1 e
    have hq : (w, v) ∈ blockCells P 1 n1 (col n1) ++ blockCells P 2 n2 (col n2) ++ blockCells P 3 n3 (col n3) := by rw [e1]; simp
    intro hm
    have hm : '\t' ∈ v := hm
    rw [List.mem_append, List.mem_append] at hq
    rcases hq with (hq | hq) | hq <;> exact hblock _ _ _ hq hm

end Verif
