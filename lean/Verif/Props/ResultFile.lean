import Verif.Proofs.ResultRead
import Verif.Spec.ResultFile
import Verif.Props.Analyzer
import Verif.Props.Main

/-!
# C82, C83: the analyzer reads what the solver wrote
-/
namespace Verif
open Verif.Spec
set_option autoImplicit false

/-! ### Numbers -/

theorem printed_six (x : ℚ) : Spec.SixDecimals x (printed x) := by
  refine ⟨?_, printed_near x⟩
  unfold printed
  split
  · exact ⟨-(roundEven (|x| * 1000000) : ℤ), by push_cast; ring⟩
  · exact ⟨(roundEven (|x| * 1000000) : ℤ), by push_cast; rfl⟩

theorem mem_digits {ch : Char} (h : ch ∈ "0123456789".toList) : ch.isDigit = true := by
  revert ch
  decide +kernel

theorem digitsVal_ofDigits (s : List Char) : digitsVal s = Nat.ofDigits 10 (s.reverse.map fun ch => ch.toNat - '0'.toNat) := by
  induction s using List.reverseRecOn with
  | nil => rfl
  | append_singleton s ch ih =>
    rw [digitsVal_snoc, List.reverse_append, List.reverse_singleton, List.singleton_append, List.map_cons, Nat.ofDigits_cons, ih]
    have : '0'.toNat = 48 := rfl
    rw [this]
    simp
    omega

theorem digitsVal_append (a b : List Char) : digitsVal (a ++ b) = digitsVal a * 10 ^ b.length + digitsVal b := by
  induction b using List.reverseRecOn with
  | nil => simp [digitsVal]
  | append_singleton b ch ih =>
    rw [← List.append_assoc, digitsVal_snoc, digitsVal_snoc, ih, List.length_append, List.length_singleton, pow_succ]
    ring

theorem Spec.Decimal.dec {t : List Char} {x : ℚ} (h : Spec.Decimal t x) : DecText t ∧ pyFloat t = x := by
  obtain ⟨a, b, rfl, ha, hb, hd, hx⟩ := h
  have da : IsDigits a := ⟨ha, fun ch hc => mem_digits (hd ch (by simp [hc]))⟩
  have db : IsDigits b := ⟨hb, fun ch hc => mem_digits (hd ch (by simp [hc]))⟩
  refine ⟨⟨a, b, by simp, da, db⟩, ?_⟩
  rw [List.append_assoc, List.singleton_append, pyFloat_dec da]
  rw [← digitsVal_ofDigits, digitsVal_append] at hx
  have h10 : (10 : ℚ) ^ b.length ≠ 0 := by positivity
  field_simp
  push_cast at hx
  linarith

theorem Spec.FloatChars.soft {t : List Char} (h : Spec.FloatChars t) : CitySoft t := by
  intro ch hc
  have h1 := h ch hc
  have key : ∀ ch ∈ "0123456789.e+-".toList, cityChar ch = true := by decide +kernel
  exact key ch h1

/-! ### Reading the text -/

theorem readText_segs {inst : Nat} {u cand el gh ep g e m fx val lv pr id rc br nc legs nm nf cs wall : List Char} {b : Bool} {ty : BBType} (hU : Quiet u)
    (h : SegsOk cand el gh ep g e m fx val lv pr id rc br nc legs nm nf cs wall) :
    readText inst (segs u cand el b gh ep g e m fx val ty lv pr id rc br nc legs nm nf cs wall).flatten =
      .ok ({ inst := inst, interrupted := b, type := shownClass ty, cost := pyFloat val, timeTaken := pyFloat wall, elapsed := pyFloat el, timeToObtain := pyFloat rc,
             updates := readUpdates (segs u cand el b gh ep g e m fx val ty lv pr id rc br nc legs nm nf cs wall).flatten },
        if b then none else some { generated := digitsVal g, explored := digitsVal e, maxLevel := digitsVal m, bestLevel := digitsVal lv, prob := pyFloat pr, number := digitsVal id }) := by
  obtain ⟨a1, a2, a3, a4, a5, a6, a7, a8, a9, a10, a11⟩ := segs_read (b := b) (ty := ty) hU h
  have a12 := segs_interrupted (b := b) (ty := ty) hU h
  have a13 := segs_type (b := b) (ty := ty) hU h
  have a14 : readCost (segs u cand el b gh ep g e m fx val ty lv pr id rc br nc legs nm nf cs wall).flatten = .ok (pyFloat val) := by
    unfold readCost
    rw [a4, a5]; rfl
  have a15 : readRow (segs u cand el b gh ep g e m fx val ty lv pr id rc br nc legs nm nf cs wall).flatten =
      .ok { generated := digitsVal g, explored := digitsVal e, maxLevel := digitsVal m, bestLevel := digitsVal lv, prob := pyFloat pr, number := digitsVal id } := by
    unfold readRow
    rw [a6, a7, a8, a9, a10, a11]; rfl
  unfold readText
  rw [a1, a2, a3, a14, a15, a12, a13]
  cases b <;> rfl

theorem segsOk {c : Cfg} {r : Spec.Report} (h : r.Plain) :
    SegsOk (natText r.problem.cand) (lfText r.elapsed) (lfText r.ghosh) (lfText c.eps) (natText r.problem.generated) (natText r.problem.explored) (natText r.problem.totLevels) (natText r.problem.fixed)
      (lfText r.problem.best.value) (natText r.problem.best.treeLevel) (lfText r.problem.best.prob) (natText r.problem.best.id) (lfText r.reach) (intText r.problem.best.edgeToBranch)
      (natText r.problem.best.numCycle) (legsText r.problem.best.numCycle 0 (printCycle r.problem.best)) (natText r.problem.best.numMandatory) (natText r.problem.best.numForbidden)
      (nodesText 0 r.cities) r.wallText where
  cand := natText_soft _
  el := lfText_dec h.elapsed
  gh := lfText_soft _
  ep := lfText_soft _
  g := natText_digits _
  e := natText_digits _
  m := natText_digits _
  fx := natText_soft _
  val := lfText_dec h.value
  lv := natText_digits _
  pr := lfText_sdec _
  id := natText_digits _
  rc := lfText_dec h.reach
  br := intText_soft _
  nc := natText_soft _
  legs := legsText_soft _ _ _
  nm := natText_soft _
  nf := natText_soft _
  cs := nodesText_soft _ _ fun q hq => ⟨(h.cities q hq).1.soft, (h.cities q hq).2.soft⟩
  wall := h.wall.dec.1

set_option maxRecDepth 4000 in
theorem readUpdates_run {c : Cfg} {r : Spec.Report} (h : r.Plain) : readUpdates (r.text c) = r.updates.map fun u => (printed u.1, printed u.2) := by
  have hs := segsOk (c := c) h
  have e := resultText_segs c r.ghosh r.elapsed (lfText r.reach) r.problem r.updates r.cities r.wallText
  have h1 := hs.cand
  have h2 := hs.el.soft
  have h3 := hs.gh
  have h4 := hs.ep
  have h5 := hs.g.soft
  have h6 := hs.e.soft
  have h7 := hs.m.soft
  have h8 := hs.fx
  have h9 := hs.val.soft
  have h10 := hs.lv.soft
  have h11 := sdec_soft hs.pr
  have h12 := hs.id.soft
  have h13 := hs.rc.soft
  have h14 := hs.br
  have h15 := hs.nc
  have h16 := hs.legs
  have h17 := hs.nm
  have h18 := hs.nf
  have h19 := hs.cs
  have h20 := hs.wall.soft
  have hi := intSeg_clear_int r.problem.interrupted (l := chars! "Updated best value: ") (by decide) (by decide)
  have ht := typeSeg_clear r.problem.best.type (l := chars! "Updated best value: ") (by decide)
  have hlen : r.updates.length ≤ (r.text c).length := by
    unfold Spec.Report.text resultText
    rw [List.length_append, List.length_append, List.length_flatMap]
    have : r.updates.length ≤ (r.updates.map fun u => (updateLine u).length).sum := by
      have h' : ∀ l : List (ℚ × ℚ), l.length ≤ (l.map fun u => (updateLine u).length).sum := by
        intro l
        induction l with
        | nil => simp
        | cons x l ih =>
          have : 1 ≤ (updateLine x).length := by unfold updateLine; simp
          simp only [List.length_cons, List.map_cons, List.sum_cons]; omega
      exact h' _
    omega
  unfold readUpdates
  have ef : reFindAll updatePattern (r.text c).length (r.text c) = r.updates.map fun u => [lfText u.1, lfText u.2] := by
    generalize hk : (r.text c).length = k at hlen
    unfold Spec.Report.text
    rw [e]
    unfold segs
    rw [List.flatten_cons]
    refine reFindAll_log r.updates _ k h.updates (clear_flatten ?_) hlen
    clr0
  rw [ef, List.map_map]
  refine List.map_congr_left fun u _ => ?_
  simp only [Function.comp_apply, pyFloat_lfText]

/-- what `readText` returns on the result file of a run -/
def recordOf (r : Spec.Report) : ResultFile × Option FileRow :=
  ({ inst := r.inst, interrupted := r.problem.interrupted, type := shownClass r.problem.best.type, cost := printed r.problem.best.value, timeTaken := r.wall, elapsed := printed r.elapsed, timeToObtain := printed r.reach, updates := r.updates.map fun u => (printed u.1, printed u.2) },
   if r.problem.interrupted then none else some { generated := r.problem.generated, explored := r.problem.explored, maxLevel := r.problem.totLevels, bestLevel := r.problem.best.treeLevel, prob := printed r.problem.best.prob, number := r.problem.best.id })

theorem readText_run {c : Cfg} {r : Spec.Report} (h : r.Plain) : readText r.inst (r.text c) = .ok (recordOf r) := by
  have hs := segsOk (c := c) h
  have e := resultText_segs c r.ghosh r.elapsed (lfText r.reach) r.problem r.updates r.cities r.wallText
  have key := readText_segs (inst := r.inst) (b := r.problem.interrupted) (ty := r.problem.best.type) (quiet_log r.updates) hs
  rw [← e] at key
  have hu := readUpdates_run (c := c) h
  unfold Spec.Report.text at hu ⊢
  rw [key, hu, h.wall.dec.2]
  simp only [pyFloat_lfText, digitsVal_natText]
  rfl

theorem forall₂_printed : ∀ (l : List (ℚ × ℚ)), List.Forall₂ (fun u v => Spec.SixDecimals u.1 v.1 ∧ Spec.SixDecimals u.2 v.2) l (l.map fun u => (printed u.1, printed u.2)) := by
  intro l
  induction l with
  | nil => exact List.Forall₂.nil
  | cons u l ih => exact List.Forall₂.cons ⟨printed_six _, printed_six _⟩ ih

/-- **C82.** The analyzer reads back what the solver and the driver wrote: for every run that ended, whatever its numbers, the searches in the result file find the instance, the interruption, the cost of the solution,
the three times, all the improvements in order and, if the run was not interrupted, the statistics of the tree. Costs, times and probabilities are those of the run with six decimals, the counters are exact. -/
theorem C82_read_back {c : Cfg} {r : Spec.Report} (h : r.Plain) : ∃ x, readText r.inst (r.text c) = .ok x ∧ r.ReadAs x := by
  refine ⟨_, readText_run h, ?_⟩
  refine { inst := rfl, interrupted := rfl, cost := printed_six _, timeTaken := rfl, elapsed := printed_six _, timeToObtain := printed_six _, updates := forall₂_printed _,
           noRow := fun hi => by simp [recordOf, hi], row := fun hi => ⟨_, by simp only [recordOf, hi]; rfl, rfl, rfl, rfl, rfl, printed_six _, rfl⟩ }

/-! ### Directories -/

theorem stem_ok : ∀ (a acc : List Char), a ≠ [] → (∀ ch ∈ a, ch ≠ '.') → stem acc (a ++ chars! ".txt") = .ok (acc ++ a) := by
  intro a
  induction a with
  | nil => intro acc h; exact absurd rfl h
  | cons ch a ih =>
    intro acc _ h
    rw [List.cons_append, stem]
    cases a with
    | nil => rfl
    | cons x a =>
      have hx : x ≠ '.' := h x (by simp)
      have : afterLit (chars! ".txt") (x :: a ++ chars! ".txt") = none := by
        rw [List.cons_append, afterLit, if_neg (Ne.symm hx)]
      rw [this]
      simp only
      rw [ih (acc ++ [ch]) (by simp) (fun y hy => h y (List.mem_cons_of_mem _ hy))]
      simp

theorem cutAt_digits {sep : List Char} {x : Char} (hx : x.isDigit = false) : ∀ {d : List Char}, (∀ ch ∈ d, ch.isDigit = true) → cutAt (x :: sep) d = none := by
  intro d
  induction d with
  | nil => intro _; rfl
  | cons ch d ih =>
    intro h
    rw [cutAt]
    have : afterLit (x :: sep) (ch :: d) = none := by rw [afterLit, if_neg (Ne.symm (digit_ne (h ch (by simp)) hx))]
    rw [this]
    simp only
    rw [ih fun y hy => h y (by simp [hy])]
    rfl

theorem instId_ok (i : Nat) : instId (chars! "tsp_result_" ++ natText i) = .ok i := by
  have hd := natText_digits i
  have h1 : cutAt (chars! "result_") (chars! "tsp_result_" ++ natText i) = some (chars! "tsp_", natText i) := rfl
  unfold instId
  rw [h1]
  simp only
  rw [cutAt_digits (by decide) hd.2]
  simp only
  rw [if_pos ⟨hd.1, List.all_eq_true.2 hd.2⟩, digitsVal_natText]

theorem isResultName_ok (i : Nat) : isResultName (resultName i) = true := by
  unfold isResultName resultName
  rw [Bool.and_eq_true]
  constructor
  · rw [List.isSuffixOf_iff_suffix]
    exact List.suffix_append _ _
  · rfl

theorem readFiles_cons {i : Nat} {text : List Char} {rest : List (List Char × List Char)} :
    readFiles ((resultName i, text) :: rest) = readText i text >>= fun x => readFiles rest >>= fun l => pure (x :: l) := by
  rw [readFiles, if_pos (isResultName_ok i)]
  have : stem [] (resultName i) = .ok (chars! "tsp_result_" ++ natText i) := by
    unfold resultName
    rw [stem_ok]
    · rfl
    · simp
    · intro ch hc
      rcases List.mem_append.1 hc with h | h
      · clear hc; revert ch; decide
      · exact digit_ne ((natText_digits i).2 ch h) (by decide)
  simp only [this, ok_bind, instId_ok]

/-- the directory of the runs: the files that the driver wrote, and others that are not result files -/
inductive Spec.Directory (c : Cfg) : List Spec.Report → List (List Char × List Char) → Prop
  | nil : Spec.Directory c [] []
  | run {r : Spec.Report} {rs : List Spec.Report} {dir : List (List Char × List Char)} : Spec.Directory c rs dir → Spec.Directory c (r :: rs) ((resultName r.inst, r.text c) :: dir)
  | other {f : List Char × List Char} {rs : List Spec.Report} {dir : List (List Char × List Char)} : ¬ ".txt".toList <:+ f.1 ∨ "mean_results".toList <+: f.1 → Spec.Directory c rs dir →
      Spec.Directory c rs (f :: dir)

theorem readFiles_dir {c : Cfg} {rs : List Spec.Report} {dir : List (List Char × List Char)} (hd : Spec.Directory c rs dir) (h : ∀ r ∈ rs, r.Plain) : readFiles dir = .ok (rs.map recordOf) := by
  induction hd with
  | nil => rfl
  | @run r rs dir hd ih =>
    rw [readFiles_cons, readText_run (h r (by simp)), ih fun q hq => h q (by simp [hq])]
    rfl
  | @other f rs dir ho hd ih =>
    rw [readFiles, if_neg, ih h]
    unfold isResultName
    rw [Bool.and_eq_true, List.isSuffixOf_iff_suffix, Bool.not_eq_true', ← Bool.not_eq_true, List.isPrefixOf_iff_prefix]
    rintro ⟨h1, h2⟩
    rcases ho with h' | h'
    · exact h' h1
    · exact h2 h'

theorem readDirectory_dir {c : Cfg} {rs : List Spec.Report} {dir : List (List Char × List Char)} (hd : Spec.Directory c rs dir) (h : ∀ r ∈ rs, r.Plain) {s : Stats} {fr : List ℚ}
    {rows : List (Nat × FileRow)} (e : readDirectory dir = .ok ((s, fr), rows)) : s = ((rs.map recordOf).map Prod.fst).foldl readFile {} := by
  unfold readDirectory at e
  rw [readFiles_dir hd h, ok_bind] at e
  obtain ⟨q, e1, e2⟩ := bind_eq_ok.1 e
  cases e2
  unfold readValues at e1
  simp only at e1
  split at e1
  · simp at e1
  · split at e1
    · simp at e1
    · injection e1 with e1; injection e1 with e1 _; exact e1.symm

/-- **C82** (a whole directory). On the directory of any number of runs, one of them not interrupted, in any order and mixed with other files, `read_values` succeeds: the fraction of resolved instances is that of the runs
that were not interrupted, and the list of the other instances is the list of the interrupted runs. -/
theorem C82_directory {c : Cfg} {rs : List Spec.Report} {dir : List (List Char × List Char)} (hd : Spec.Directory c rs dir) (h : ∀ r ∈ rs, r.Plain) {r : Spec.Report} (hr : r ∈ rs)
    (hi : r.problem.interrupted = false) : ∃ s fr rows, readDirectory dir = .ok ((s, fr), rows) ∧
      fr.head? = some (((rs.countP fun r => !r.problem.interrupted : Nat) : ℚ) / rs.length) ∧ s.notResolved = (rs.filter fun r => r.problem.interrupted).map Spec.Report.inst ∧
      s.resolved = rs.countP fun r => !r.problem.interrupted := by
  have hl := readFiles_dir hd h
  have o := readAll_ok ((rs.map recordOf).map Prod.fst)
  have hm : (recordOf r).1 ∈ (rs.map recordOf).map Prod.fst := List.mem_map_of_mem (f := Prod.fst) (List.mem_map_of_mem hr)
  obtain ⟨s, fr, e1, e2, -⟩ := C79_statistics hm (by simpa [recordOf] using hi)
  have ed : readDirectory dir = .ok ((s, fr), (rs.map recordOf).foldl (fun d x => match x.2 with | some row => setKey d x.1.inst row | none => d) []) := by
    unfold readDirectory
    rw [hl, ok_bind, e1, ok_bind]
    rfl
  refine ⟨s, fr, _, ed, ?_, ?_, ?_⟩
  · rw [e2, List.head?_cons, List.map_map, List.countP_map, List.length_map]
    rfl
  · rw [readDirectory_dir hd h ed, o.not, List.map_map, List.filter_map, List.map_map]
    rfl
  · rw [readDirectory_dir hd h ed, o.res, List.map_map, List.countP_map]
    rfl

/-! ### The classes -/

/-- **C83** (partial): the fractions of the solutions found by the nearest neighbour and by its hybrid form are right. Missing: the other two, see `C83_fails`. -/
theorem C83_classes_partial {c : Cfg} {rs : List Spec.Report} {dir : List (List Char × List Char)} (hd : Spec.Directory c rs dir) (h : ∀ r ∈ rs, r.Plain) {s : Stats} {fr : List ℚ}
    {rows : List (Nat × FileRow)} (e : readDirectory dir = .ok ((s, fr), rows)) :
    s.nn = (rs.countP fun r => !r.problem.interrupted && decide (Spec.trueClass r.problem.best.type = .nearest)) ∧
    s.nnHybrid = (rs.countP fun r => !r.problem.interrupted && decide (Spec.trueClass r.problem.best.type = .nearestHybrid)) ∧
    s.oneTree + s.subgradient = (rs.countP fun r => !r.problem.interrupted && decide (Spec.trueClass r.problem.best.type = .oneTree)) +
      rs.countP fun r => !r.problem.interrupted && decide (Spec.trueClass r.problem.best.type = .other) := by
  have o := readAll_ok ((rs.map recordOf).map Prod.fst)
  rw [readDirectory_dir hd h e, o.nn, o.nnh, o.one, o.sub]
  unfold Spec.ofType
  rw [List.map_map]
  simp only [List.countP_map]
  refine ⟨?_, ?_, ?_⟩
  · refine List.countP_congr fun r _ => ?_
    have key : ∀ (t : BBType) (b : Bool), decide (b = false ∧ shownClass t = .nearest) = (!b && decide (Spec.trueClass t = .nearest)) := by intro t b; cases t <;> cases b <;> rfl
    exact Bool.eq_iff_iff.1 (key r.problem.best.type r.problem.interrupted)
  · refine List.countP_congr fun r _ => ?_
    have key : ∀ (t : BBType) (b : Bool), decide (b = false ∧ shownClass t = .nearestHybrid) = (!b && decide (Spec.trueClass t = .nearestHybrid)) := by intro t b; cases t <;> cases b <;> rfl
    exact Bool.eq_iff_iff.1 (key r.problem.best.type r.problem.interrupted)
  · clear o e hd h
    induction rs with
    | nil => rfl
    | cons r rs ih =>
      simp only [List.countP_cons, Function.comp_apply, recordOf] at ih ⊢
      have : ∀ a b c d a' b' c' d' : Nat, a + b = c + d → a' + b' = c' + d' → a + a' + (b + b') = c + c' + (d + d') := by intros; omega
      refine this _ _ _ _ _ _ _ _ ih ?_
      have key : ∀ (t : BBType) (b : Bool), ((if decide (b = false ∧ shownClass t = SolType.oneTree) = true then 1 else 0) + if decide (b = false ∧ shownClass t = SolType.other) = true then 1 else 0) =
          (if (!b && decide (Spec.trueClass t = SolType.oneTree)) = true then 1 else 0) + if (!b && decide (Spec.trueClass t = SolType.other)) = true then 1 else 0 := by
        intro t b; cases t <;> cases b <;> rfl
      exact key _ _

/-- **C83** is false of the code: the class `1Tree` of the analyzer is always empty, also when all the solutions were found as 1-trees: `print_subProblem` prints their kind as `CLOSED_SUBGRADIENT`. -/
theorem C83_fails {c : Cfg} {rs : List Spec.Report} {dir : List (List Char × List Char)} (hd : Spec.Directory c rs dir) (h : ∀ r ∈ rs, r.Plain) {s : Stats} {fr : List ℚ}
    {rows : List (Nat × FileRow)} (e : readDirectory dir = .ok ((s, fr), rows)) : s.oneTree = 0 := by
  have o := readAll_ok ((rs.map recordOf).map Prod.fst)
  rw [readDirectory_dir hd h e, o.one]
  unfold Spec.ofType
  rw [List.map_map, List.countP_map, List.countP_eq_zero]
  intro r _
  have key : ∀ (t : BBType), shownClass t ≠ SolType.oneTree := by intro t; cases t <;> decide
  have : ¬ (r.problem.interrupted = false ∧ shownClass r.problem.best.type = SolType.oneTree) := fun h => key _ h.2
  exact fun h => this (of_decide_eq_true h)

end Verif
