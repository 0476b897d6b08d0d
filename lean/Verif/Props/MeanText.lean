import Verif.Model.MeanText
import Verif.Props.Means
import Verif.Props.Tables

/-!
# C102: from the result files to the tables
-/
namespace Verif
open Verif.Spec
set_option autoImplicit false

/-! ### What the columns of a row show -/

/-- `t` is a text that is printed for the number `x` -/
def Spec.PrintedAs (D : Display) (x : Option ℝ) (t : List Char) : Prop := ∃ f i j, t = D.num f i j x

/-- numbers are printed with the characters of numbers, and Python's `float` reads them; so are percentages -/
structure Spec.Readable (D : Display) (P : PyNum) : Prop where
  pct : ∀ x, IsColumn (D.pct x)
  num : ∀ x t, PrintedAs D x t → IsColumn t ∧ ∃ y, P.float t = some y
  curve : ∀ i j, IsColumn (D.curve i j)

/-- the columns show the means and the intervals of the metric `m`, over the same instances (those that are solved in both modes), and the result of the test -/
def Spec.MeansShown (D : Display) (test : List ℚ → List ℚ → Res (Option ℚ)) (hyb cla : List Report) (m : Metric) (c : Columns) : Prop :=
  ∃ (ps : List (Report × Report)) (vh vc : List ℚ) (mh mc : Option ℚ) (ih ic : Option ℝ) (p : Option ℚ), SameInstances hyb cla ps ∧ List.Forall₂ (fun q v => ValueOf m q.1 v) ps vh ∧
    List.Forall₂ (fun q v => ValueOf m q.2 v) ps vc ∧ IsMean vh mh ∧ IsMean vc mc ∧ IsInterval vh ih ∧ IsInterval vc ic ∧ test vh vc = .ok p ∧
    PrintedAs D (mh.map fun x : ℚ => (x : ℝ)) c.hyb ∧ PrintedAs D ih c.hybInt ∧ PrintedAs D (mc.map fun x : ℚ => (x : ℝ)) c.cla ∧ PrintedAs D ic c.claInt ∧ PrintedAs D (p.map fun x : ℚ => (x : ℝ)) c.p

/-- the number of the solved instances -/
def Spec.solvedRuns (rs : List Report) : Nat := rs.countP fun r => !r.problem.interrupted

/-- the number of the solved instances whose solution is of a type -/
def Spec.solvedAs (rs : List Report) (y : BBType) : Nat := rs.countP fun r => !r.problem.interrupted && decide (r.problem.best.type = y)

/-- the columns of all the rows of the file -/
structure Spec.FileColumns (D : Display) (test : List ℚ → List ℚ → Res (Option ℚ)) (hyb cla : List Report) (col : Row → Columns) : Prop where
  solved : (col .solved).hyb = D.pct ((solvedRuns hyb : ℚ) / hyb.length) ∧ (col .solved).cla = D.pct ((solvedRuns cla : ℚ) / cla.length)
  nn : (col .nn).hyb = D.pct ((solvedAs hyb .closedNN : ℚ) / solvedRuns hyb) ∧ (col .nn).cla = D.pct ((solvedAs cla .closedNN : ℚ) / solvedRuns cla)
  pnn : (col .pnn).hyb = D.pct ((solvedAs hyb .closedNNHybrid : ℚ) / solvedRuns hyb) ∧ (col .pnn).cla = D.pct ((solvedAs cla .closedNNHybrid : ℚ) / solvedRuns cla)
  totalTime : MeansShown D test hyb cla .totalTime (col .totalTime)
  bbTime : MeansShown D test hyb cla .timeBb (col .bbTime)
  timeToBest : MeansShown D test hyb cla .timeToBest (col .timeToBest)
  generated : MeansShown D test hyb cla .generated (col .generated)
  explored : MeansShown D test hyb cla .explored (col .explored)
  beforeBest : MeansShown D test hyb cla .beforeBest (col .beforeBest)
  depth : MeansShown D test hyb cla .treeLevel (col .depth)
  bestDepth : MeansShown D test hyb cla .bestLevel (col .bestDepth)
  prob : MeansShown D test hyb cla .prob (col .prob)

/-! ### Lines without a label -/

/-- the word `w` does not occur in `s` -/
def NoWord (w s : List Char) : Prop := ¬ w <:+: s

theorem infix_cut {w a b : List Char} {x : Char} (hx : x ∉ w) (h : w <:+: a ++ x :: b) : w <:+: a ∨ w <:+: b := by
  obtain ⟨s, t, h⟩ := h
  rcases List.append_eq_append_iff.1 h with ⟨c, h1, h2⟩ | ⟨c, h1, h2⟩
  · exact Or.inl ⟨s, c, h1.symm⟩
  · cases c with
    | nil => 
      rw [List.append_nil] at h1
      exact Or.inl ⟨s, [], by rw [List.append_nil, h1]⟩
    | cons y c =>
      rw [List.cons_append, List.cons.injEq] at h2
      obtain ⟨rfl, h2⟩ := h2
      rcases List.append_eq_append_iff.1 h1 with ⟨d, h3, h4⟩ | ⟨d, h3, h4⟩
      · exact absurd (by rw [h4]; simp) hx
      · cases d with
        | nil => exact absurd (by rw [List.nil_append] at h4; rw [← h4]; simp) hx
        | cons z d =>
          rw [List.cons_append, List.cons.injEq] at h4
          exact Or.inr ⟨d, t, by rw [h2, h4.2, List.append_assoc]⟩

theorem NoWord.cut {w a b : List Char} {x : Char} (hx : x ∉ w) (ha : NoWord w a) (hb : NoWord w b) : NoWord w (a ++ x :: b) := fun h => (infix_cut hx h).elim ha hb

theorem NoWord.cons {w b : List Char} {x : Char} (hx : x ∉ w) (h0 : w ≠ []) (hb : NoWord w b) : NoWord w (x :: b) :=
  NoWord.cut (a := []) hx (fun h => h0 (List.infix_nil.1 h)) hb

theorem NoWord.blanks {w b : List Char} (hx : ' ' ∉ w) (h0 : w ≠ []) (hb : NoWord w b) : ∀ k, NoWord w (List.replicate k ' ' ++ b) := by
  intro k
  induction k with
  | zero => exact hb
  | succ k ih => rw [List.replicate_succ, List.cons_append]; exact NoWord.cons hx h0 ih

theorem NoWord.chars {w s : List Char} {x : Char} (hw : x ∈ w) (hs : x ∉ s) : NoWord w s := fun h => hs (h.subset hw)

/-- the texts of the cells of a line -/
theorem NoWord.cells {w : List Char} (hx : ' ' ∉ w) (h0 : w ≠ []) {width : Nat → Nat} : ∀ (ts : List (List Char)) (k : Nat), (∀ t ∈ ts, NoWord w t) → ∀ a, NoWord w a → NoWord w (a ++ cellsText width k ts) := by
  intro ts
  induction ts with
  | nil => intro k _ a ha; rw [cellsText, List.append_nil]; exact ha
  | cons t ts ih =>
    intro k h a ha
    rw [cellsText, rjust]
    rw [List.cons_append]
    refine NoWord.cut hx ha ?_
    rw [List.append_assoc]
    exact NoWord.blanks hx h0 (ih _ (fun u hu => h u (List.mem_cons_of_mem _ hu)) t (h t List.mem_cons_self)) _

theorem NoWord.blanksAfter {w a : List Char} (hx : ' ' ∉ w) (h0 : w ≠ []) (ha : NoWord w a) : ∀ k, NoWord w (a ++ List.replicate k ' ') := by
  intro k
  cases k with
  | zero => rwa [List.replicate_zero, List.append_nil]
  | succ k =>
    rw [List.replicate_succ]
    refine NoWord.cut hx ha ?_
    have := NoWord.blanks hx h0 (b := []) (fun h => h0 (List.infix_nil.1 h)) k
    rwa [List.append_nil] at this

theorem NoWord.frameLine {w : List Char} (hx : ' ' ∉ w) (h0 : w ≠ []) {width : Nat → Nat} {label : List Char} {ts : List (List Char)} (hl : NoWord w label) (ht : ∀ t ∈ ts, NoWord w t) :
    NoWord w (frameLine width label ts) := NoWord.cells hx h0 ts 1 ht _ (NoWord.blanksAfter hx h0 hl _)

/-- a word of each label that is in no other line of the file -/
def rowWord : Row → List Char
  | .solved => chars! "Resolved" | .nn => chars! "NN" | .pnn => chars! "NN" | .totalTime => chars! "total_time" | .bbTime => chars! "time_bb"
  | .timeToBest => chars! "time_to_best" | .generated => chars! "generate_bbnodes" | .explored => chars! "explored_bbnodes" | .beforeBest => chars! "bbnodes_before_best"
  | .depth => chars! "total_tree_level" | .bestDepth => chars! "best_level" | .prob => chars! "prob_best"

theorem rowWord_infix (r : Row) : rowWord r <:+: r.text := by
  rw [← pyIn_iff (by cases r <;> decide)]
  cases r <;> decide

theorem rowWord_plain (r : Row) : ' ' ∉ rowWord r ∧ '\n' ∉ rowWord r ∧ rowWord r ≠ [] := by cases r <;> decide

/-- a character that is in the word, and neither in numbers nor in lists of numbers -/
theorem rowWord_char (r : Row) : ∃ ch ∈ rowWord r, columnChar ch = false ∧ ch ≠ '[' ∧ ch ≠ ']' ∧ ch ≠ ',' ∧ ch ≠ ' ' := by cases r <;> decide

theorem noWord_dec {r : Row} {s : List Char} (h : pyIn (rowWord r) s = false) : NoWord (rowWord r) s := by
  intro hi
  rw [← pyIn_iff (rowWord_plain r).2.2, h] at hi
  cases hi

theorem noWord_column (r : Row) {t : List Char} (h : IsColumn t) : NoWord (rowWord r) t := by
  rcases h with h | rfl
  swap
  · exact noWord_dec (by cases r <;> decide)
  obtain ⟨ch, h1, h2, -⟩ := rowWord_char r
  exact NoWord.chars h1 fun hm => by rw [h.2 ch hm] at h2; cases h2

theorem noLabel {s : List Char} (h : ∀ r, NoWord (rowWord r) s) : ∀ r : Row, ¬ r.text <:+: s := fun r hr => h r ((rowWord_infix r).trans hr)

theorem noLabel_line {s : List Char} (h : ∀ r, NoWord (rowWord r) s) : ∀ r : Row, ¬ r.text <:+: s ++ ['\n'] :=
  noLabel fun r => NoWord.cut (rowWord_plain r).2.1 (h r) fun hi => (rowWord_plain r).2.2 (List.infix_nil.1 hi)

/-! ### The lines of the file -/

theorem fileLines_last {s : List Char} (h : '\n' ∉ s) (h0 : s ≠ []) : fileLines s = [s] := by
  induction s with
  | nil => exact absurd rfl h0
  | cons ch s ih =>
    rw [List.mem_cons, not_or] at h
    rw [fileLines, if_neg (Ne.symm h.1)]
    cases s with
    | nil => rfl
    | cons d s => rw [ih h.2 (by simp)]

theorem fileLines_join : ∀ (ls : List (List Char)) (last : List Char), (∀ l ∈ ls, '\n' ∉ l) → '\n' ∉ last → last ≠ [] →
    fileLines (['\n'].intercalate (ls ++ [last])) = ls.map (fun l => l ++ ['\n']) ++ [last] := by
  intro ls
  induction ls with
  | nil => intro last _ h h0; simpa [List.intercalate] using fileLines_last h h0
  | cons l ls ih =>
    intro last h hl h0
    have e : ['\n'].intercalate (l :: ls ++ [last]) = l ++ '\n' :: ['\n'].intercalate (ls ++ [last]) := by
      cases ls <;> simp [List.intercalate]
    rw [e, fileLines_line _ _ (h l List.mem_cons_self), ih last (fun x hx => h x (List.mem_cons_of_mem _ hx)) hl h0]
    rfl

theorem mapIdx_cast {A B C : Type} (f : B → C) (g : Nat → A → B) (l : List A) : (l.mapIdx g).map f = l.mapIdx fun i a => f (g i a) := by
  apply List.ext_getElem <;> simp

theorem cellsText_newline {width : Nat → Nat} : ∀ (ts : List (List Char)) (k : Nat), (∀ t ∈ ts, '\n' ∉ t) → '\n' ∉ cellsText width k ts := by
  intro ts
  induction ts with
  | nil => intro k _; simp [cellsText]
  | cons t ts ih =>
    intro k h
    rw [cellsText, rjust]
    simp only [List.cons_append, List.mem_cons, List.mem_append, List.mem_replicate, not_or]
    exact ⟨by decide, ⟨fun h' => by simp at h', h t List.mem_cons_self⟩, ih _ fun u hu => h u (List.mem_cons_of_mem _ hu)⟩

theorem frameLine_newline {width : Nat → Nat} {label : List Char} {ts : List (List Char)} (hl : '\n' ∉ label) (ht : ∀ t ∈ ts, '\n' ∉ t) : '\n' ∉ frameLine width label ts := by
  unfold frameLine
  simp only [List.mem_append, List.mem_replicate, not_or]
  exact ⟨⟨hl, fun h' => by simp at h'⟩, cellsText_newline _ _ ht⟩

theorem column_newline {t : List Char} (h : IsColumn t) : '\n' ∉ t := by
  rcases h with h | rfl
  · exact fun hm => by have := h.2 _ hm; revert this; decide
  · decide

theorem digitsFrom_digit (k n : Nat) : ∀ ch ∈ digitsFrom k n, ch.isDigit = true := by
  have hd : ∀ m, m < 10 → m.digitChar.isDigit = true := by decide
  induction k generalizing n with
  | zero => simp [digitsFrom]
  | succ k ih =>
    unfold digitsFrom
    intro ch hc
    split at hc
    · next h => rw [List.mem_singleton] at hc; subst hc; exact hd n h
    · rw [List.mem_append, List.mem_singleton] at hc
      rcases hc with hc | rfl
      · exact ih _ ch hc
      · exact hd _ (Nat.mod_lt _ (by norm_num))

theorem natText_digit (n : Nat) : ∀ ch ∈ natText n, ch.isDigit = true := digitsFrom_digit _ _

theorem mem_listText {l : List Nat} {ch : Char} (h : ch ∈ listText l) : ch = '[' ∨ ch = ']' ∨ ch = ',' ∨ ch = ' ' ∨ ch.isDigit = true := by
  unfold listText at h
  simp only [List.mem_append, List.mem_cons, List.not_mem_nil, or_false] at h
  have key : ∀ (ts : List (List Char)), (∀ t ∈ ts, ∀ ch ∈ t, ch.isDigit = true) → ch ∈ [',', ' '].intercalate ts → ch = ',' ∨ ch = ' ' ∨ ch.isDigit = true := by
    intro ts
    induction ts with
    | nil => intro _ h; simp [List.intercalate] at h
    | cons t ts ih =>
      intro ht h
      cases ts with
      | nil => exact Or.inr (Or.inr (ht t List.mem_cons_self ch (by simpa [List.intercalate] using h)))
      | cons u ts =>
        have e : [',', ' '].intercalate (t :: u :: ts) = t ++ (',' :: ' ' :: [',', ' '].intercalate (u :: ts)) := by simp [List.intercalate]
        rw [e, List.mem_append, List.mem_cons, List.mem_cons] at h
        rcases h with h | h | h | h
        · exact Or.inr (Or.inr (ht t List.mem_cons_self ch h))
        · exact Or.inl h
        · exact Or.inr (Or.inl h)
        · exact ih (fun x hx => ht x (List.mem_cons_of_mem _ hx)) h
  rcases h with (h | h) | h
  · exact Or.inl h
  · rcases key _ (by intro t ht; obtain ⟨n, -, rfl⟩ := List.mem_map.1 ht; exact natText_digit n) h with h | h | h <;> simp [h]
  · exact Or.inr (Or.inl h)

theorem digit_column {ch : Char} (h : ch.isDigit = true) : columnChar ch = true := by
  have h1 : 48 ≤ ch.toNat ∧ ch.toNat ≤ 57 := by
    simp only [Char.isDigit, Bool.and_eq_true, decide_eq_true_eq] at h
    exact ⟨h.1, h.2⟩
  have key : ∀ k : Nat, 48 ≤ k → k ≤ 57 → columnChar (Char.ofNat k) = true := by
    intro k h1 h2
    interval_cases k <;> decide
  have := key ch.toNat h1.1 h1.2
  rwa [Char.ofNat_toNat] at this

theorem noWord_listText (r : Row) (l : List Nat) : NoWord (rowWord r) (listText l) := by
  obtain ⟨ch, h1, h2, h3, h4, h5, h6⟩ := rowWord_char r
  refine NoWord.chars h1 fun hm => ?_
  rcases mem_listText hm with h | h | h | h | h
  · exact h3 h
  · exact h4 h
  · exact h5 h
  · exact h6 h
  · rw [digit_column h] at h2; cases h2

theorem noWord_notResolved (r : Row) {mode : List Char} (hm : mode = chars! "hybrid" ∨ mode = chars! "classic") (l : List Nat) : NoWord (rowWord r) (notResolvedText mode l) := by
  have hb := (rowWord_plain r).1
  have e : notResolvedText mode l = chars! "Not resolved" ++ ' ' :: (natText l.length ++ ' ' :: ((chars! "instances for " ++ mode ++ chars! ":") ++ ' ' :: listText (l.insertionSort (· ≤ ·)))) := by
    unfold notResolvedText
    simp only [List.append_assoc, List.cons_append, List.nil_append]
  rw [e]
  refine NoWord.cut hb (noWord_dec (by cases r <;> decide)) (NoWord.cut hb ?_ (NoWord.cut hb (noWord_dec ?_) (noWord_listText r _)))
  · obtain ⟨ch, h1, h2, -⟩ := rowWord_char r
    exact NoWord.chars h1 fun hm => by rw [digit_column (natText_digit _ _ hm)] at h2; cases h2
  · rcases hm with rfl | rfl <;> cases r <;> decide

theorem notResolved_newline {mode : List Char} (hm : '\n' ∉ mode) (l : List Nat) : '\n' ∉ notResolvedText mode l := by
  unfold notResolvedText
  simp only [List.mem_append, not_or]
  refine ⟨⟨⟨⟨⟨by decide, fun h => ?_⟩, by decide⟩, hm⟩, by decide⟩, fun h => ?_⟩
  · have := natText_digit _ _ h; revert this; decide
  · rcases mem_listText h with h | h | h | h | h <;> revert h <;> decide

/-! ### The lines of the rows -/

theorem gap_blanks (a b : Nat) : IsGap (List.replicate a ' ' ++ ' ' :: List.replicate b ' ') := by
  refine ⟨by simp, ?_⟩
  intro ch h
  simp only [List.mem_append, List.mem_cons, List.mem_replicate] at h
  rcases h with h | h | h
  · exact h.2
  · exact h
  · exact h.2

theorem row_frameLine (r : Row) {width : Nat → Nat} {c : Columns} (h1 : IsColumn c.hyb) (h2 : IsColumn c.hybInt) (h3 : IsColumn c.cla) (h4 : IsColumn c.claInt) (h5 : IsColumn c.p) :
    RowLine r c (frameLine width r.text [c.hyb, c.hybInt, c.cla, c.claInt, c.p] ++ ['\n']) := by
  have g0 : ∀ b, IsGap (' ' :: List.replicate b ' ') := fun b => gap_blanks 0 b
  refine ⟨_, _, _, _, _, gap_blanks (width 0 - r.text.length) (width 1 - c.hyb.length), g0 (width 2 - c.hybInt.length), g0 (width 3 - c.cla.length), g0 (width 4 - c.claInt.length), g0 (width 5 - c.p.length), h1, h2, h3, h4, h5, ?_⟩
  simp only [frameLine, cellsText, rjust, List.append_assoc, List.cons_append, List.append_nil, List.nil_append]

/-- the row of the file for a metric -/
def metricRow : Metric → Option Row
  | .totalTime => some .totalTime | .timeBb => some .bbTime | .timeToBest => some .timeToBest | .generated => some .generated | .explored => some .explored | .beforeBest => some .beforeBest
  | .treeLevel => some .depth | .bestLevel => some .bestDepth | .prob => some .prob | .bestValue => none

/-- the columns that are printed for the cells number `i` of the frame -/
def columnsOf (D : Display) (f : Frame) (i : Nat) (cs : List Cell) : Columns :=
  let t := cs.mapIdx fun j c => cellString D f i j c
  ⟨t.getD 0 [], t.getD 1 [], t.getD 2 [], t.getD 3 [], t.getD 4 []⟩

/-- the columns of a row of the file -/
def fileColumns (D : Display) (f : Frame) (r : Row) : Columns :=
  let i : Nat := match r with
    | .solved => 0 | .nn => 1 | .pnn => 2 | .totalTime => 5 | .bbTime => 6 | .timeToBest => 7 | .generated => 8 | .explored => 9 | .beforeBest => 10 | .depth => 11 | .bestDepth => 12 | .prob => 13
  columnsOf D f i (f.getD i ([], [])).2

section
variable {D : Display} {P : PyNum}

theorem meanCells_ok (hD : Readable D P) (f : Frame) (i : Nat) (row : TestRow) :
    let c := columnsOf D f i (meanCells row)
    IsColumn c.hyb ∧ IsColumn c.hybInt ∧ IsColumn c.cla ∧ IsColumn c.claInt ∧ IsColumn c.p :=
  ⟨(hD.num _ _ ⟨_, _, _, rfl⟩).1, (hD.num _ _ ⟨_, _, _, rfl⟩).1, (hD.num _ _ ⟨_, _, _, rfl⟩).1, (hD.num _ _ ⟨_, _, _, rfl⟩).1, (hD.num _ _ ⟨_, _, _, rfl⟩).1⟩

theorem percentCells_ok (hD : Readable D P) (f : Frame) (i : Nat) (a b : ℚ) :
    let c := columnsOf D f i (percentCells D a b)
    IsColumn c.hyb ∧ IsColumn c.hybInt ∧ IsColumn c.cla ∧ IsColumn c.claInt ∧ IsColumn c.p :=
  ⟨hD.pct _, (hD.num _ _ ⟨_, _, _, rfl⟩).1, hD.pct _, (hD.num _ _ ⟨_, _, _, rfl⟩).1, .inl ⟨by simp [columnsOf, percentCells, cellString], by simp [columnsOf, percentCells, cellString]; decide⟩⟩

/-- the lines of the file for a frame with fifteen rows -/
theorem meanFile_frame (hD : Readable D P) {h0 h1 h2 h3 h4 c0 c1 c2 c3 c4 : ℚ} {r1 r2 r3 r4 r5 r6 r7 r8 r9 r10 : TestRow} {nh nc : List Nat} {f : Frame}
    (hf : f = meanFrame D [h0, h1, h2, h3, h4] [c0, c1, c2, c3, c4] [(.totalTime, r1), (.timeBb, r2), (.timeToBest, r3), (.generated, r4), (.explored, r5), (.beforeBest, r6), (.treeLevel, r7), (.bestLevel, r8), (.prob, r9), (.bestValue, r10)]) :
    MeanFile (fileColumns D f) (meanFileText D f nh nc) := by
  have hcurve : ∀ r i, NoWord (rowWord r) (frameLine D.curveWidth (if i = 0 then chars! "Log values" else chars! "Original values") ((List.range 6).map (D.curve i))) := by
    intro r i
    refine NoWord.frameLine (rowWord_plain r).1 (rowWord_plain r).2.2 (noWord_dec ?_) ?_
    · split <;> cases r <;> decide
    · intro t ht
      obtain ⟨j, -, rfl⟩ := List.mem_map.1 ht
      exact noWord_column r (hD.curve i j)
  have hlines : fileLines (meanFileText D f nh nc) = (frameLines D f).map (fun l => l ++ ['\n']) ++ [['\n'], notResolvedText (chars! "hybrid") nh ++ ['\n'], ['\n'], notResolvedText (chars! "classic") nc ++ ['\n'], ['\n'],
      frameLine D.curveWidth [] [chars! "H_mean_generated", chars! "H_mean_+_std", chars! "H_mean_-_std", chars! "C_mean_generated", chars! "C_mean_+_std", chars! "C_mean_-_std"] ++ ['\n'],
      frameLine D.curveWidth (chars! "Log values") ((List.range 6).map (D.curve 0)) ++ ['\n'], frameLine D.curveWidth (chars! "Original values") ((List.range 6).map (D.curve 1))] := by
    have e : meanFileText D f nh nc = ['\n'].intercalate ((frameLines D f ++ [[], notResolvedText (chars! "hybrid") nh, [], notResolvedText (chars! "classic") nc, [],
        frameLine D.curveWidth [] [chars! "H_mean_generated", chars! "H_mean_+_std", chars! "H_mean_-_std", chars! "C_mean_generated", chars! "C_mean_+_std", chars! "C_mean_-_std"],
        frameLine D.curveWidth (chars! "Log values") ((List.range 6).map (D.curve 0))]) ++ [frameLine D.curveWidth (chars! "Original values") ((List.range 6).map (D.curve 1))]) := by
      unfold meanFileText curveLines
      simp only [List.append_assoc, List.cons_append, List.nil_append]
    have hn : ∀ i, ∀ t ∈ (List.range 6).map (D.curve i), '\n' ∉ t := by
      intro i t ht
      obtain ⟨j, -, rfl⟩ := List.mem_map.1 ht
      exact column_newline (hD.curve i j)
    rw [e, fileLines_join]
    · simp only [List.map_append, List.map_cons, List.map_nil, List.append_assoc, List.cons_append, List.nil_append]
    · intro l hl
      rw [List.mem_append] at hl
      rcases hl with hl | hl
      · unfold frameLines at hl
        rw [List.mem_cons] at hl
        rcases hl with rfl | hl
        · exact frameLine_newline (by simp) (by decide)
        · obtain ⟨i, hi, rfl⟩ := List.mem_mapIdx.1 hl
          have hrow : '\n' ∉ f[i].1 ∧ ∀ c ∈ f[i].2, ∀ t, c = .text t → '\n' ∉ t := by
            have : ∀ r ∈ f, '\n' ∉ r.1 ∧ ∀ c ∈ r.2, ∀ t, c = .text t → '\n' ∉ t := by
              have hp : ∀ a b : ℚ, ∀ c ∈ percentCells D a b, ∀ t, c = .text t → '\n' ∉ t := by
                intro a b c hc t ht
                simp only [percentCells, List.mem_cons, List.not_mem_nil, or_false] at hc
                rcases hc with rfl | rfl | rfl | rfl | rfl
                · cases ht; exact column_newline (hD.pct _)
                · cases ht
                · cases ht; exact column_newline (hD.pct _)
                · cases ht
                · cases ht; decide
              have hmn : ∀ r : TestRow, ∀ c ∈ meanCells r, ∀ t, c = .text t → '\n' ∉ t := by
                intro r c hc t ht
                simp only [meanCells, List.mem_cons, List.not_mem_nil, or_false] at hc
                rcases hc with rfl | rfl | rfl | rfl | rfl <;> cases ht
              intro r hr
              rw [hf] at hr
              unfold meanFrame at hr
              rw [List.mem_append] at hr
              rcases hr with hr | hr
              · simp only [percentLabels, List.zip_cons_cons, List.zip_nil_right, List.zipWith_cons_cons, List.zipWith_nil_right, List.mem_cons, List.not_mem_nil, or_false] at hr
                rcases hr with rfl | rfl | rfl | rfl | rfl <;> exact ⟨by dsimp only; decide, hp _ _⟩
              · obtain ⟨q, -, rfl⟩ := List.mem_map.1 hr
                refine ⟨?_, hmn _⟩
                dsimp only
                cases q.1 <;> decide
            exact this _ (List.getElem_mem hi)
          refine frameLine_newline hrow.1 ?_
          intro t ht
          obtain ⟨j, hj, rfl⟩ := List.mem_mapIdx.1 ht
          cases hc : f[i].2[j] with
          | text t => exact hrow.2 _ (List.getElem_mem hj) t hc
          | num x => exact column_newline (hD.num _ _ ⟨_, _, _, rfl⟩).1
      · simp only [List.mem_cons, List.not_mem_nil, or_false] at hl
        rcases hl with rfl | rfl | rfl | rfl | rfl | rfl | rfl
        · simp
        · exact notResolved_newline (by decide) _
        · simp
        · exact notResolved_newline (by decide) _
        · simp
        · exact frameLine_newline (by simp) (by decide)
        · exact frameLine_newline (by decide) (hn 0)
    · exact frameLine_newline (by decide) (hn 1)
    · intro h
      have := congrArg List.length h
      simp [frameLine] at this
  have hother : ∀ {label : List Char} {ts : List (List Char)} {width : Nat → Nat}, (∀ r, pyIn (rowWord r) label = false) → (∀ r, ∀ t ∈ ts, NoWord (rowWord r) t) → ∀ r : Row, ¬ r.text <:+: frameLine width label ts ++ ['\n'] :=
    fun h1 h2 => noLabel_line fun r => NoWord.frameLine (rowWord_plain r).1 (rowWord_plain r).2.2 (noWord_dec (h1 r)) (h2 r)
  have hempty : ∀ r : Row, ¬ r.text <:+: ['\n'] := fun r => noLabel_line (s := []) (fun r => noWord_dec (by cases r <;> decide)) r
  have htail : Rows (fileColumns D f) [] [['\n'], notResolvedText (chars! "hybrid") nh ++ ['\n'], ['\n'], notResolvedText (chars! "classic") nc ++ ['\n'], ['\n'],
      frameLine D.curveWidth [] [chars! "H_mean_generated", chars! "H_mean_+_std", chars! "H_mean_-_std", chars! "C_mean_generated", chars! "C_mean_+_std", chars! "C_mean_-_std"] ++ ['\n'],
      frameLine D.curveWidth (chars! "Log values") ((List.range 6).map (D.curve 0)) ++ ['\n'], frameLine D.curveWidth (chars! "Original values") ((List.range 6).map (D.curve 1))] := by
    refine .other hempty (.other (noLabel_line fun r => noWord_notResolved r (Or.inl rfl) _) (.other hempty (.other (noLabel_line fun r => noWord_notResolved r (Or.inr rfl) _) (.other hempty
      (.other (hother (fun r => by cases r <;> decide) fun r t ht => noWord_dec ?_) (.other (noLabel_line fun r => hcurve r 0) (.other (noLabel fun r => hcurve r 1) .nil)))))))
    simp only [List.mem_cons, List.not_mem_nil, or_false] at ht
    rcases ht with rfl | rfl | rfl | rfl | rfl | rfl <;> cases r <;> decide
  have hhead : ∀ r : Row, ¬ r.text <:+: frameLine (D.width f) [] headers ++ ['\n'] := hother (fun r => by cases r <;> decide) fun r t ht => noWord_dec (by
    simp only [headers, List.mem_cons, List.not_mem_nil, or_false] at ht
    rcases ht with rfl | rfl | rfl | rfl | rfl <;> cases r <;> decide)
  have hcol : ∀ {i : Nat} {cs : List Cell} (_ : cs.length = 5), (let c := columnsOf D f i cs; IsColumn c.hyb ∧ IsColumn c.hybInt ∧ IsColumn c.cla ∧ IsColumn c.claInt ∧ IsColumn c.p) →
      cs.mapIdx (fun j c => cellString D f i j c) = [(columnsOf D f i cs).hyb, (columnsOf D f i cs).hybInt, (columnsOf D f i cs).cla, (columnsOf D f i cs).claInt, (columnsOf D f i cs).p] := by
    intro i cs hl _
    match cs, hl with
    | [a, b, c, d, e], _ => rfl
  have hrow : ∀ (r : Row) {i : Nat} {cs : List Cell}, cs.length = 5 → fileColumns D f r = columnsOf D f i cs → (let c := columnsOf D f i cs; IsColumn c.hyb ∧ IsColumn c.hybInt ∧ IsColumn c.cla ∧ IsColumn c.claInt ∧ IsColumn c.p) →
      RowLine r (fileColumns D f r) (frameLine (D.width f) r.text (cs.mapIdx fun j c => cellString D f i j c) ++ ['\n']) := by
    intro r i cs hl e h
    rw [e, hcol hl h]
    exact row_frameLine r h.1 h.2.1 h.2.2.1 h.2.2.2.1 h.2.2.2.2
  have hplain : ∀ {label : List Char} {i : Nat} {cs : List Cell}, cs.length = 5 → (∀ r, pyIn (rowWord r) label = false) → (let c := columnsOf D f i cs; IsColumn c.hyb ∧ IsColumn c.hybInt ∧ IsColumn c.cla ∧ IsColumn c.claInt ∧ IsColumn c.p) →
      ∀ r : Row, ¬ r.text <:+: frameLine (D.width f) label (cs.mapIdx fun j c => cellString D f i j c) ++ ['\n'] := by
    intro label i cs hl h1 h
    rw [hcol hl h]
    refine hother h1 fun r t ht => noWord_column r ?_
    simp only [List.mem_cons, List.not_mem_nil, or_false] at ht
    rcases ht with rfl | rfl | rfl | rfl | rfl
    exacts [h.1, h.2.1, h.2.2.1, h.2.2.2.1, h.2.2.2.2]
  unfold MeanFile
  rw [hlines]
  have hfl : (frameLines D f).map (fun l => l ++ ['\n']) = (frameLine (D.width f) [] headers ++ ['\n']) :: f.mapIdx fun i r => frameLine (D.width f) r.1 (r.2.mapIdx fun j c => cellString D f i j c) ++ ['\n'] := by
    unfold frameLines
    rw [List.map_cons, mapIdx_cast]
  rw [hfl]
  have pc := fun i a b => percentCells_ok hD f i a b
  have mc := fun i r => meanCells_ok hD f i r
  generalize hg : (fun (i : Nat) (r : List Char × List Cell) => frameLine (D.width f) r.1 (r.2.mapIdx fun j c => cellString D f i j c) ++ ['\n']) = g
  have hge : f.mapIdx g = [g 0 (chars! "Resolved Instances", percentCells D h0 c0), g 1 (chars! "Closed NN", percentCells D h1 c1), g 2 (chars! "Closed NN Hybrid", percentCells D h2 c2),
      g 3 (chars! "Closed 1Tree", percentCells D h3 c3), g 4 (chars! "Closed Subgradient", percentCells D h4 c4), g 5 (Metric.totalTime.key, meanCells r1), g 6 (Metric.timeBb.key, meanCells r2),
      g 7 (Metric.timeToBest.key, meanCells r3), g 8 (Metric.generated.key, meanCells r4), g 9 (Metric.explored.key, meanCells r5), g 10 (Metric.beforeBest.key, meanCells r6), g 11 (Metric.treeLevel.key, meanCells r7),
      g 12 (Metric.bestLevel.key, meanCells r8), g 13 (Metric.prob.key, meanCells r9), g 14 (Metric.bestValue.key, meanCells r10)] := by
    rw [hf]; rfl
  rw [hge, ← hg]
  have fc : ∀ i (hi : i < f.length), f.getD i ([], []) = f[i] := fun i hi => by simp [hi]
  have e0 : fileColumns D f .solved = columnsOf D f 0 (percentCells D h0 c0) := by simp only [fileColumns]; congr 1; rw [hf]; rfl
  have e1 : fileColumns D f .nn = columnsOf D f 1 (percentCells D h1 c1) := by simp only [fileColumns]; congr 1; rw [hf]; rfl
  have e2 : fileColumns D f .pnn = columnsOf D f 2 (percentCells D h2 c2) := by simp only [fileColumns]; congr 1; rw [hf]; rfl
  have e5 : fileColumns D f .totalTime = columnsOf D f 5 (meanCells r1) := by simp only [fileColumns]; congr 1; rw [hf]; rfl
  have e6 : fileColumns D f .bbTime = columnsOf D f 6 (meanCells r2) := by simp only [fileColumns]; congr 1; rw [hf]; rfl
  have e7 : fileColumns D f .timeToBest = columnsOf D f 7 (meanCells r3) := by simp only [fileColumns]; congr 1; rw [hf]; rfl
  have e8 : fileColumns D f .generated = columnsOf D f 8 (meanCells r4) := by simp only [fileColumns]; congr 1; rw [hf]; rfl
  have e9 : fileColumns D f .explored = columnsOf D f 9 (meanCells r5) := by simp only [fileColumns]; congr 1; rw [hf]; rfl
  have e10 : fileColumns D f .beforeBest = columnsOf D f 10 (meanCells r6) := by simp only [fileColumns]; congr 1; rw [hf]; rfl
  have e11 : fileColumns D f .depth = columnsOf D f 11 (meanCells r7) := by simp only [fileColumns]; congr 1; rw [hf]; rfl
  have e12 : fileColumns D f .bestDepth = columnsOf D f 12 (meanCells r8) := by simp only [fileColumns]; congr 1; rw [hf]; rfl
  have e13 : fileColumns D f .prob = columnsOf D f 13 (meanCells r9) := by simp only [fileColumns]; congr 1; rw [hf]; rfl
  refine .other hhead (.row (hrow .solved rfl e0 (pc _ _ _)) (.row (hrow .nn rfl e1 (pc _ _ _)) (.row (hrow .pnn rfl e2 (pc _ _ _)) (.other (hplain rfl (fun r => by dsimp only; cases r <;> decide) (pc _ _ _))
    (.other (hplain rfl (fun r => by dsimp only; cases r <;> decide) (pc _ _ _)) (.row (hrow .totalTime rfl e5 (mc _ _)) (.row (hrow .bbTime rfl e6 (mc _ _)) (.row (hrow .timeToBest rfl e7 (mc _ _))
    (.row (hrow .generated rfl e8 (mc _ _)) (.row (hrow .explored rfl e9 (mc _ _)) (.row (hrow .beforeBest rfl e10 (mc _ _)) (.row (hrow .depth rfl e11 (mc _ _)) (.row (hrow .bestDepth rfl e12 (mc _ _))
    (.row (hrow .prob rfl e13 (mc _ _)) (.other (hplain rfl (fun r => by dsimp only; cases r <;> decide) (mc _ _)) htail)))))))))))))))

end

/-! ### From the runs to the file -/

theorem solved_count (rs : List Report) : (((rs.map recordOf).map Prod.fst).countP fun f => !f.interrupted) = solvedRuns rs := by
  rw [List.map_map, List.countP_map]
  rfl

theorem solved_nn (rs : List Report) : ofType ((rs.map recordOf).map Prod.fst) .nearest = solvedAs rs .closedNN := by
  unfold ofType solvedAs
  rw [List.map_map, List.countP_map]
  refine List.countP_congr fun r _ => ?_
  have key : ∀ (t : BBType) (b : Bool), decide (b = false ∧ shownClass t = .nearest) = (!b && decide (t = .closedNN)) := by intro t b; cases t <;> cases b <;> rfl
  exact Bool.eq_iff_iff.1 (key r.problem.best.type r.problem.interrupted)

theorem solved_nnHybrid (rs : List Report) : ofType ((rs.map recordOf).map Prod.fst) .nearestHybrid = solvedAs rs .closedNNHybrid := by
  unfold ofType solvedAs
  rw [List.map_map, List.countP_map]
  refine List.countP_congr fun r _ => ?_
  have key : ∀ (t : BBType) (b : Bool), decide (b = false ∧ shownClass t = .nearestHybrid) = (!b && decide (t = .closedNNHybrid)) := by intro t b; cases t <;> cases b <;> rfl
  exact Bool.eq_iff_iff.1 (key r.problem.best.type r.problem.interrupted)

theorem fractions {rs : List Report} (h : ∃ r ∈ rs, r.problem.interrupted = false) : ∃ s q3 q4, readValues ((rs.map recordOf).map Prod.fst) =
    .ok (s, [(solvedRuns rs : ℚ) / rs.length, (solvedAs rs .closedNN : ℚ) / solvedRuns rs, (solvedAs rs .closedNNHybrid : ℚ) / solvedRuns rs, q3, q4]) := by
  obtain ⟨r, hr, hi⟩ := h
  have hm : (recordOf r).1 ∈ (rs.map recordOf).map Prod.fst := List.mem_map_of_mem (f := Prod.fst) (List.mem_map_of_mem hr)
  obtain ⟨s, fr, e1, e2, -⟩ := C79_statistics hm (by simpa [recordOf] using hi)
  rw [solved_count, solved_nn, solved_nnHybrid, List.length_map, List.length_map] at e2
  exact ⟨s, _, _, by rw [e1, e2]⟩

/-- the file: its lines have the twelve rows, with columns that show what the runs of the two modes say, and the columns are numbers -/
theorem C102_file {D : Display} {P : PyNum} (hD : Readable D P) {c c' : Cfg} {hyb cla : List Report} {dirH dirC : List (List Char × List Char)} (h : BothModes c c' hyb cla dirH dirC)
    {test : List ℚ → List ℚ → Res (Option ℚ)} {order : Metric → List Nat} (ho : ∀ m, SetOrder (order m) hyb cla) {text : List Char} (e : analyzeText D test order dirH dirC = .ok text) :
    ∃ col, MeanFile col text ∧ Numbers P col ∧ FileColumns D test hyb cla col := by
  obtain ⟨sh, h3, h4, eh⟩ := fractions h.hybSome
  obtain ⟨sc, c3, c4, ec⟩ := fractions h.claSome
  unfold analyzeText at e
  rw [readFiles_dir h.hybDir h.hybPlain, ok_bind, eh, ok_bind, readFiles_dir h.claDir h.claPlain, ok_bind, ec, ok_bind] at e
  obtain ⟨rows, er, e⟩ := bind_eq_ok.1 e
  have hs := C98_same h ho er
  rcases rows with _ | ⟨⟨m1, r1⟩, _ | ⟨⟨m2, r2⟩, _ | ⟨⟨m3, r3⟩, _ | ⟨⟨m4, r4⟩, _ | ⟨⟨m5, r5⟩, _ | ⟨⟨m6, r6⟩, _ | ⟨⟨m7, r7⟩, _ | ⟨⟨m8, r8⟩, _ | ⟨⟨m9, r9⟩, _ | ⟨⟨m10, r10⟩, _ | ⟨x, rows⟩⟩⟩⟩⟩⟩⟩⟩⟩⟩⟩ <;>
    simp only [List.forall₂_cons, List.forall₂_nil_left_iff, List.forall₂_nil_right_iff, and_false, reduceCtorEq, false_and] at hs
  obtain ⟨⟨rfl, s1⟩, ⟨rfl, s2⟩, ⟨rfl, s3⟩, ⟨rfl, s4⟩, ⟨rfl, s5⟩, ⟨rfl, s6⟩, ⟨rfl, s7⟩, ⟨rfl, s8⟩, ⟨rfl, s9⟩, ⟨rfl, s10⟩, -⟩ := hs
  generalize hf : meanFrame D [(solvedRuns hyb : ℚ) / hyb.length, (solvedAs hyb .closedNN : ℚ) / solvedRuns hyb, (solvedAs hyb .closedNNHybrid : ℚ) / solvedRuns hyb, h3, h4]
    [(solvedRuns cla : ℚ) / cla.length, (solvedAs cla .closedNN : ℚ) / solvedRuns cla, (solvedAs cla .closedNNHybrid : ℚ) / solvedRuns cla, c3, c4]
    [(.totalTime, r1), (.timeBb, r2), (.timeToBest, r3), (.generated, r4), (.explored, r5), (.beforeBest, r6), (.treeLevel, r7), (.bestLevel, r8), (.prob, r9), (.bestValue, r10)] = f
  rw [pure_eq_ok] at e
  have et : text = meanFileText D f sh.notResolved sc.notResolved := by rw [← hf]; exact (Except.ok.inj e).symm
  have cell : ∀ (r : Row) (i : Nat) (m : Metric) (row : TestRow), fileColumns D f r = columnsOf D f i (meanCells row) →
      (∃ (ps : List (Report × Report)) (vh vc : List ℚ), SameInstances hyb cla ps ∧ List.Forall₂ (fun q v => ValueOf m q.1 v) ps vh ∧ List.Forall₂ (fun q v => ValueOf m q.2 v) ps vc ∧
        IsMean vh row.hybMean ∧ IsMean vc row.claMean ∧ IsInterval vh row.hybInt ∧ IsInterval vc row.claInt ∧ test vh vc = .ok row.p) → MeansShown D test hyb cla m (fileColumns D f r) := by
    rintro r i m row e ⟨ps, vh, vc, a1, a2, a3, a4, a5, a6, a7, a8⟩
    rw [e]
    exact ⟨ps, vh, vc, _, _, _, _, _, a1, a2, a3, a4, a5, a6, a7, a8, ⟨f, i, 0, rfl⟩, ⟨f, i, 1, rfl⟩, ⟨f, i, 2, rfl⟩, ⟨f, i, 3, rfl⟩, ⟨f, i, 4, rfl⟩⟩
  have hcells : ∀ r, r ≠ .solved → r ≠ .nn → r ≠ .pnn → ∃ i row, fileColumns D f r = columnsOf D f i (meanCells row) := by
    intro r n1 n2 n3
    rw [← hf]
    cases r <;> first | contradiction | exact ⟨_, _, rfl⟩
  have num : ∀ x, (∃ f i j, x = D.num f i j none ∨ ∃ y, x = D.num f i j y) → ∃ y, P.float x = some y := by
    rintro x ⟨f, i, j, rfl | ⟨y, rfl⟩⟩
    · exact (hD.num none _ ⟨_, _, _, rfl⟩).2
    · exact (hD.num y _ ⟨_, _, _, rfl⟩).2
  refine ⟨fileColumns D f, by rw [et]; exact meanFile_frame hD hf.symm, ⟨?_, ?_⟩, ?_⟩
  · intro r n1 n2 n3
    obtain ⟨i, row, e⟩ := hcells r n1 n2 n3
    rw [e]
    exact ⟨num _ ⟨f, i, 0, Or.inr ⟨_, rfl⟩⟩, num _ ⟨f, i, 1, Or.inr ⟨_, rfl⟩⟩⟩
  · intro r n1 n2 n3 _
    obtain ⟨i, row, e⟩ := hcells r n1 n2 n3
    rw [e]
    exact ⟨num _ ⟨f, i, 2, Or.inr ⟨_, rfl⟩⟩, num _ ⟨f, i, 3, Or.inr ⟨_, rfl⟩⟩, num _ ⟨f, i, 4, Or.inr ⟨_, rfl⟩⟩⟩
  · refine ⟨⟨by rw [← hf]; rfl, by rw [← hf]; rfl⟩, ⟨by rw [← hf]; rfl, by rw [← hf]; rfl⟩, ⟨by rw [← hf]; rfl, by rw [← hf]; rfl⟩, cell _ 5 _ r1 ?_ s1, cell _ 6 _ r2 ?_ s2, cell _ 7 _ r3 ?_ s3, cell _ 8 _ r4 ?_ s4,
      cell _ 9 _ r5 ?_ s5, cell _ 10 _ r6 ?_ s6, cell _ 11 _ r7 ?_ s7, cell _ 12 _ r8 ?_ s8, cell _ 13 _ r9 ?_ s9⟩ <;> (rw [← hf]; rfl)

/-- the text about the unsolved instances of a mode -/
def Spec.unsolvedText (mode : List Char) (l : List Nat) : List Char :=
  chars! "Not resolved " ++ natText l.length ++ chars! " instances for " ++ mode ++ chars! ": [" ++ [',', ' '].intercalate (l.map natText) ++ [']']

/-- the numbers of the interrupted runs, in increasing order -/
def Spec.Unsolved (rs : List Report) (l : List Nat) : Prop := l.Pairwise (· ≤ ·) ∧ ∀ k, k ∈ l ↔ ∃ r ∈ rs, r.inst = k ∧ r.problem.interrupted = true

theorem intercalate_lines : ∀ (A B : List (List Char)), A ≠ [] → B ≠ [] → ['\n'].intercalate (A ++ B) = ['\n'].intercalate A ++ '\n' :: ['\n'].intercalate B := by
  intro A
  induction A with
  | nil => intro B h; exact absurd rfl h
  | cons a A ih =>
    intro B _ hB
    cases A with
    | nil => cases B with
      | nil => exact absurd rfl hB
      | cons b B => simp [List.intercalate]
    | cons a' A =>
      have := ih B (by simp) hB
      simp only [List.intercalate, List.cons_append, List.intersperse_cons₂, List.flatten_cons] at this ⊢
      rw [this]
      simp

theorem unsolved_spec {rs : List Report} (l : List Nat) (h : l = (((rs.map recordOf).map Prod.fst).filter fun f => f.interrupted).map ResultFile.inst) : Unsolved rs (l.insertionSort (· ≤ ·)) := by
  refine ⟨List.pairwise_insertionSort _ _, fun k => ?_⟩
  rw [(List.perm_insertionSort (· ≤ ·) l).mem_iff, h]
  simp only [List.mem_map, List.mem_filter, recordOf]
  constructor
  · rintro ⟨f, ⟨⟨q, ⟨r, hr, rfl⟩, rfl⟩, hi⟩, rfl⟩; exact ⟨r, hr, rfl, hi⟩
  · rintro ⟨r, hr, rfl, hi⟩; exact ⟨_, ⟨⟨_, ⟨r, hr, rfl⟩, rfl⟩, hi⟩, rfl⟩

/-- the file says how many and which instances were not solved, in each mode -/
theorem C102_unsolved {D : Display} {c c' : Cfg} {hyb cla : List Report} {dirH dirC : List (List Char × List Char)} (h : BothModes c c' hyb cla dirH dirC)
    {test : List ℚ → List ℚ → Res (Option ℚ)} {order : Metric → List Nat} {text : List Char} (e : analyzeText D test order dirH dirC = .ok text) :
    ∃ lh lc, Unsolved hyb lh ∧ Unsolved cla lc ∧ lh.length = (hyb.countP fun r => r.problem.interrupted) ∧ lc.length = (cla.countP fun r => r.problem.interrupted) ∧
      chars! "\n\n" ++ unsolvedText (chars! "hybrid") lh ++ chars! "\n\n" ++ unsolvedText (chars! "classic") lc ++ chars! "\n\n" <:+: text := by
  have run : ∀ {rs : List Report}, (∃ r ∈ rs, r.problem.interrupted = false) → ∃ s fr, readValues ((rs.map recordOf).map Prod.fst) = .ok (s, fr) ∧
      s.notResolved = (((rs.map recordOf).map Prod.fst).filter fun f => f.interrupted).map ResultFile.inst := by
    rintro rs ⟨r, hr, hi⟩
    have hm : (recordOf r).1 ∈ (rs.map recordOf).map Prod.fst := List.mem_map_of_mem (f := Prod.fst) (List.mem_map_of_mem hr)
    obtain ⟨s, fr, e1, -, -, e2, -⟩ := C79_statistics hm (by simpa [recordOf] using hi)
    exact ⟨s, fr, e1, e2⟩
  have len : ∀ rs : List Report, ((((rs.map recordOf).map Prod.fst).filter fun f => f.interrupted).map ResultFile.inst).length = rs.countP fun r => r.problem.interrupted := by
    intro rs
    rw [List.length_map, ← List.countP_eq_length_filter, List.map_map, List.countP_map]
    rfl
  obtain ⟨sh, fh, eh, nh⟩ := run h.hybSome
  obtain ⟨sc, fc, ec, nc⟩ := run h.claSome
  unfold analyzeText at e
  rw [readFiles_dir h.hybDir h.hybPlain, ok_bind, eh, ok_bind, readFiles_dir h.claDir h.claPlain, ok_bind, ec, ok_bind] at e
  obtain ⟨rows, er, e⟩ := bind_eq_ok.1 e
  rw [pure_eq_ok] at e
  refine ⟨sh.notResolved.insertionSort (· ≤ ·), sc.notResolved.insertionSort (· ≤ ·), unsolved_spec _ nh, unsolved_spec _ nc, by rw [List.length_insertionSort, nh, len], by rw [List.length_insertionSort, nc, len], ?_⟩
  rw [← Except.ok.inj e]
  unfold meanFileText
  rw [intercalate_lines _ _ (by simp [frameLines]) (by simp)]
  rw [intercalate_lines [[], notResolvedText _ _, [], notResolvedText _ _, []] (curveLines D) (by simp) (by simp [curveLines])]
  refine ⟨['\n'].intercalate (frameLines D (meanFrame D fh fc rows)), ['\n'].intercalate (curveLines D), ?_⟩
  have hl : ∀ mode l, notResolvedText mode l = unsolvedText mode (l.insertionSort (· ≤ ·)) := by
    intro mode l
    unfold notResolvedText unsolvedText listText
    rw [List.length_insertionSort]
    simp only [List.append_assoc, List.cons_append, List.nil_append]
  have hj : ∀ a b : List Char, ['\n'].intercalate [[], a, [], b, []] ++ ['\n'] = '\n' :: (a ++ ('\n' :: '\n' :: (b ++ ['\n', '\n']))) := by
    intro a b
    simp [List.intercalate]
  have hj' := hj (unsolvedText (chars! "hybrid") (sh.notResolved.insertionSort (· ≤ ·))) (unsolvedText (chars! "classic") (sc.notResolved.insertionSort (· ≤ ·)))
  simp only [hl]
  generalize unsolvedText (chars! "hybrid") (sh.notResolved.insertionSort (· ≤ ·)) = A at hj' ⊢
  generalize unsolvedText (chars! "classic") (sc.notResolved.insertionSort (· ≤ ·)) = B at hj' ⊢
  generalize ['\n'].intercalate (curveLines D) = C
  have e2 : ['\n'].intercalate [[], A, [], B, []] ++ '\n' :: C = ('\n' :: (A ++ ('\n' :: '\n' :: (B ++ ['\n', '\n'])))) ++ C := by
    rw [← hj', List.append_assoc, List.singleton_append]
  rw [e2]
  simp only [List.append_assoc, List.cons_append, List.nil_append]

/-- the file is written if the test raises no exception -/
theorem C102_succeeds (D : Display) {c c' : Cfg} {hyb cla : List Report} {dirH dirC : List (List Char × List Char)} (h : BothModes c c' hyb cla dirH dirC)
    {test : List ℚ → List ℚ → Res (Option ℚ)} {order : Metric → List Nat} (ho : ∀ m, SetOrder (order m) hyb cla) (ht : ∀ vh vc, vh.length = vc.length → ∃ p, test vh vc = .ok p) :
    ∃ text, analyzeText D test order dirH dirC = .ok text := by
  obtain ⟨sh, h3, h4, eh⟩ := fractions h.hybSome
  obtain ⟨sc, c3, c4, ec⟩ := fractions h.claSome
  obtain ⟨rows, er⟩ := C98_succeeds h ho ht
  unfold analyzeText
  rw [readFiles_dir h.hybDir h.hybPlain, ok_bind, eh, ok_bind, readFiles_dir h.claDir h.claPlain, ok_bind, ec, ok_bind, er, ok_bind]
  exact ⟨_, rfl⟩

/-- the six sizes of the tables -/
def Spec.tableSizes : List Nat := [20, 50, 100, 35, 75, 150]

/-- **C102** (partial, as C97). If the files of means of the six sizes were written by `analyze` from directories of result files of hybrid and classic runs, the program that fills the tables writes two tables in which every
placeholder of a row and a size shows the columns of the file: the percentages of the runs of that size, or the means over the instances of that size that are solved in both modes, the classic solver in the odd
positions and the hybrid one in the even positions. Missing: see `C97_rounded_fails` and `C97_bold_fails`. -/
theorem C102_tables_partial {D : Display} {P : PyNum} (hD : Readable D P) (hstr : ∀ x, '_' ∉ P.str x) {c c' : Nat → Cfg} {hyb cla : Nat → List Report} {dirH dirC : Nat → List (List Char × List Char)}
    (h : ∀ n ∈ tableSizes, BothModes (c n) (c' n) (hyb n) (cla n) (dirH n) (dirC n)) {test : List ℚ → List ℚ → Res (Option ℚ)} {order : Nat → Metric → List Nat}
    (ho : ∀ n ∈ tableSizes, ∀ m, SetOrder (order n m) (hyb n) (cla n)) {files : Nat → Option (List Char)}
    (hf : ∀ n ∈ tableSizes, ∃ text, analyzeText D test (order n) (dirH n) (dirC n) = .ok text ∧ files n = some text) :
    ∃ col : Nat → Row → Columns, (∀ n ∈ tableSizes, FileColumns D test (hyb n) (cla n) (col n)) ∧
      createTables P files = .ok (fillIn (blockOps P 1 20 (col 20) ++ blockOps P 2 50 (col 50) ++ blockOps P 3 100 (col 100)) tableTemplate,
        fillIn (blockOps P 1 35 (col 35) ++ blockOps P 2 75 (col 75) ++ blockOps P 3 150 (col 150)) tableTemplate) ∧
      ((∀ n ∈ tableSizes, ∀ r, r ≠ .solved → r ≠ .nn → r ≠ .pnn → r ≠ .prob → Spec.Tame P (col n r)) → createTables P files = .ok (tableOf P col 20 50 100, tableOf P col 35 75 150)) := by
  have key : ∀ n, ∃ col : Row → Columns, n ∈ tableSizes → FileColumns D test (hyb n) (cla n) col ∧ Files P files (fun _ => col) n := by
    intro n
    by_cases hn : n ∈ tableSizes
    · obtain ⟨text, e1, e2⟩ := hf n hn
      obtain ⟨col, a1, a2, a3⟩ := C102_file hD (h n hn) (ho n hn) e1
      exact ⟨col, fun _ => ⟨a3, ⟨text, e2, a1⟩, a2⟩⟩
    · exact ⟨fun _ => ⟨[], [], [], [], []⟩, fun h => absurd h hn⟩
  choose col hcol using key
  have hfiles : ∀ n ∈ tableSizes, Files P files col n := fun n hn => ⟨(hcol n hn).2.file, (hcol n hn).2.numbers⟩
  exact ⟨col, fun n hn => (hcol n hn).1, C97_exact hstr hfiles, fun ht => C97_tables_partial hstr hfiles ht⟩

end Verif
