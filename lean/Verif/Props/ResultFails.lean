import Verif.Props.ResultFile

/-!
# C82: from the instance to the analyzer, and the runs that the analyzer cannot read
-/
namespace Verif
open Verif.Spec
set_option autoImplicit false

/-! ### From the matrix file to the analyzer -/

theorem legs_each_nonneg {n : Nat} {w : Nat → Nat → ℚ} (hw : ∀ i < n, ∀ j < n, i ≠ j → 0 ≤ w i j) (h2 : 2 ≤ n) {t : List Nat} (ht : IsTour n t) : ∀ q ∈ legs t, 0 ≤ w q.1 q.2 := by
  have hl : t.length = n := by rw [ht.length_eq, List.length_range]
  have hnd : t.Nodup := (ht.nodup_iff).2 List.nodup_range
  intro q hq
  obtain ⟨i, hi, rfl⟩ := List.getElem_of_mem hq
  have hi' : i < t.length := by simpa [legs] using hi
  have e : (legs t)[i] = (t[i], t[(i + 1) % t.length]'(Nat.mod_lt _ (by omega))) := by
    simp only [legs, List.getElem_zip, List.getElem_rotate]
  rw [e]
  have hlt : ∀ x ∈ t, x < n := fun x hx => List.mem_range.1 (ht.mem_iff.1 hx)
  refine hw _ (hlt _ (List.getElem_mem _)) _ (hlt _ (List.getElem_mem _)) ?_
  intro e'
  have := (List.Nodup.getElem_inj_iff hnd).1 e'
  rcases Nat.lt_or_ge (i + 1) t.length with h' | h'
  · rw [Nat.mod_eq_of_lt h'] at this; omega
  · rw [show i + 1 = t.length by omega, Nat.mod_self] at this; omega

/-- **C82** (from the matrix file to the statistics). When the program returns on a matrix file, the cost that the analyzer reads in the result file is, with six decimals, the length of the tour whose legs are printed, as the machine adds it up. -/
theorem C82_cost [Rounding] {c : Cfg} {env : Env} {num : List Char → Option (ℚ × List Char)} {text : List Char} {xs : List (ℚ × ℚ)} {w pr : Nat → Nat → ℚ} {p0 : Problem} (hf : CsvFile num text xs w pr)
    (h : SolverInput c xs.length w pr) (hc : p0.cand < c.maxV) {fuel : Nat} {p' : Problem} {out : List (Nat × Nat)} (e : mainRun c num env fuel p0 text = .ok (p', out))
    {r : Spec.Report} (hr : r.problem = p') (he : 0 ≤ r.elapsed) (hre : 0 ≤ r.reach) (hu : ∀ u ∈ r.updates, 0 ≤ u.1 ∧ 0 ≤ u.2) (hci : ∀ q ∈ r.cities, Spec.FloatChars q.1 ∧ Spec.FloatChars q.2)
    (hwa : Spec.Decimal r.wallText r.wall) : ∃ x t L, readText r.inst (r.text c) = .ok x ∧ IsTour xs.length t ∧ out = legs t ∧ MachineLength w t L ∧ Spec.SixDecimals L x.1.cost := by
  obtain ⟨t, ht, ho, hv⟩ := C57_tour hf h hc e
  have hnn : 0 ≤ r.problem.best.value := by
    rw [hr]
    exact hv.nonneg (legs_each_nonneg (fun i hi j hj hij => (h.pos i hi j hj hij).1.le) (by have := h.three; omega) ht)
  obtain ⟨x, hx, hread⟩ := C82_read_back (c := c) (r := r) ⟨hnn, he, hre, hu, hci, hwa⟩
  refine ⟨x, t, _, hx, ht, ho, hv, ?_⟩
  have := hread.cost
  rw [hr] at this
  exact this

/-! ### Runs that cannot be read -/

theorem afterLit_mem : ∀ {l s r : List Char}, afterLit l s = some r → ∀ ch ∈ l, ch ∈ s := by
  intro l
  induction l with
  | nil => intro s r _ ch h; cases h
  | cons a l ih =>
    intro s r h ch hc
    cases s with
    | nil => simp [afterLit] at h
    | cons b s =>
      rw [afterLit] at h
      split at h
      · next e =>
        rcases List.mem_cons.1 hc with rfl | hc
        · simp [e]
        · exact List.mem_cons_of_mem _ (ih h ch hc)
      · cases h

theorem reSearch_missing {l : List Char} {ps : List Piece} {x : Char} (hx : x ∈ l) : ∀ {s : List Char}, x ∉ s → reSearch (.lit l :: ps) s = none := by
  have key : ∀ s : List Char, x ∉ s → matchAt (.lit l :: ps) s = [] := by
    intro s hs
    rw [matchAt]
    cases ha : afterLit l s with
    | none => rfl
    | some r => exact absurd (afterLit_mem ha x hx) hs
  intro s
  induction s with
  | nil => intro h; rw [reSearch, key _ h]; rfl
  | cons ch s ih =>
    intro h
    rw [reSearch, key _ h, List.head?_nil]
    exact ih fun h' => h (List.mem_cons_of_mem _ h')

/-- a text without an equals sign is not a result file -/
theorem readText_noEq {inst : Nat} {s : List Char} (h : '=' ∉ s) : readText inst s = .error .null := by
  have h1 : group1 [.lit (chars! "elapsed time = "), .num, .lit (chars! "s")] s = .error .null := by
    unfold group1
    rw [reSearch_missing (x := '=') (by decide) h]
  unfold readText
  rw [h1]
  have h2 : group1 [.lit (chars! "Time taken: "), .num, .lit (chars! "s")] s = .error .null ∨ ∃ t, group1 [.lit (chars! "Time taken: "), .num, .lit (chars! "s")] s = .ok t := by
    unfold group1
    split
    · exact Or.inr ⟨_, rfl⟩
    · exact Or.inl rfl
  rcases h2 with h2 | ⟨t, h2⟩ <;> rw [h2] <;> rfl

theorem readFiles_error {i : Nat} {text : List Char} {e : Fault} (h : readText i text = .error e) (after : List (List Char × List Char)) :
    ∀ before : List (List Char × List Char), ∃ e', readFiles (before ++ (resultName i, text) :: after) = .error e' := by
  intro before
  induction before with
  | nil => exact ⟨e, by rw [List.nil_append, readFiles_cons, h]; rfl⟩
  | cons f before ih =>
    obtain ⟨e', ih⟩ := ih
    rw [List.cons_append, readFiles, ih]
    split
    · rcases stem [] f.1 with e1 | a
      · exact ⟨e1, rfl⟩
      · rcases hb : instId a with e2 | b
        · exact ⟨e2, by simp [hb]⟩
        · rcases hd : readText b f.2 with e3 | d
          · exact ⟨e3, by simp [hb, hd]⟩
          · exact ⟨e', by simp [hb, hd]⟩
    · exact ⟨e', rfl⟩

theorem readDirectory_error {i : Nat} {text : List Char} {e : Fault} (h : readText i text = .error e) (before after : List (List Char × List Char)) :
    ∃ e', readDirectory (before ++ (resultName i, text) :: after) = .error e' := by
  obtain ⟨e', he⟩ := readFiles_error h after before
  exact ⟨e', by unfold readDirectory; rw [he]; rfl⟩

/-- **C82** does not extend to runs that failed: if on one instance the solver stops before it prints its report (an access outside an array, `exit`), so that the file has at most some of the log lines, possibly
cut off, and what the driver appends, `read_values` raises an exception and reports nothing about any instance of the directory. -/
theorem C82_fails_crash {i : Nat} {updates : List (ℚ × ℚ)} {log : List Char} (hl : log <+: updates.flatMap updateLine) {cities : List (List Char × List Char)} {wall : List Char}
    (hc : ∀ q ∈ cities, Spec.FloatChars q.1 ∧ Spec.FloatChars q.2) (hw : Spec.FloatChars wall) (before after : List (List Char × List Char)) :
    ∃ e, readDirectory (before ++ (resultName i, log ++ driverText cities wall) :: after) = .error e := by
  refine readDirectory_error (e := .null) (readText_noEq ?_) before after
  have soft : ∀ s : List Char, CitySoft s → '=' ∉ s := fun s hs h => absurd (hs _ h) (by decide)
  intro h
  rcases List.mem_append.1 h with h | h
  · have h := hl.subset h
    obtain ⟨u, _, h⟩ := List.mem_flatMap.1 h
    unfold updateLine at h
    simp only [List.mem_append] at h
    rcases h with (((h | h) | h) | h) | h
    · revert h; decide
    · exact soft _ (lfText_soft _).city h
    · revert h; decide
    · exact soft _ (lfText_soft _).city h
    · revert h; decide
  · unfold driverText at h
    simp only [List.mem_append] at h
    rcases h with (((h | h) | h) | h) | h
    · revert h; decide
    · exact soft _ (nodesText_soft _ _ fun q hq => ⟨(hc q hq).1.soft, (hc q hq).2.soft⟩) h
    · revert h; decide
    · exact soft _ hw.soft h
    · revert h; decide

/-- **C82**, infeasible instances: when the solver finds that the graph has no tour, it prints that and then the report of the problem, whose static memory is still zero. The analyzer counts the instance among the
resolved ones, with cost 0. -/
theorem C82_fails_infeasible [Rounding] {c : Cfg} {env : Env} {num : List Char → Option (ℚ × List Char)} {fuel : Nat} {p0 : Problem} {text : List Char} {g : Graph} (hg : readCsv c num p0.graph text = .ok g)
    (hf : checkFeasibility g = false) (h0 : p0.interrupted = false ∧ p0.best.value = 0) {inst node : Nat} {ghosh : ℚ} {cities : List (List Char × List Char)} {wall : List Char} {wt : ℚ}
    (hc : ∀ q ∈ cities, Spec.FloatChars q.1 ∧ Spec.FloatChars q.2) (hw : Spec.Decimal wall wt) : ∃ p', mainRun c num env fuel p0 text = .ok (p', printCycle p'.best) ∧
      ∃ x, readText inst (infeasibleText node ++ problemText c ghosh 0 (lfText 0) p' ++ driverText cities wall) = .ok x ∧ x.1.interrupted = false ∧ x.1.cost = 0 := by
  refine ⟨{ p0 with graph := g }, ?_, ?_⟩
  · unfold mainRun branchAndBound
    rw [hg, ok_bind, if_neg (by simp [hf])]
    rfl
  · have hs := segsOk (c := c) (r := { inst := inst, problem := { p0 with graph := g }, ghosh := ghosh, elapsed := 0, reach := 0, updates := [], cities := cities, wallText := wall, wall := wt })
      ⟨by rw [show ({ p0 with graph := g } : Problem).best.value = p0.best.value from rfl, h0.2], le_refl _, le_refl _, by simp, hc, hw⟩
    have e := report_segs c ghosh 0 (lfText 0) { p0 with graph := g } (infeasibleText node) cities wall
    rw [e, readText_segs (inst := inst) (quiet_infeasible node) hs]
    refine ⟨_, rfl, h0.1, ?_⟩
    show pyFloat (lfText p0.best.value) = 0
    rw [h0.2, pyFloat_lfText]
    decide +kernel

theorem group1_cases (ps : List Piece) (s : List Char) : group1 ps s = .error .null ∨ ∃ t, group1 ps s = .ok t := by
  unfold group1
  split
  · exact Or.inr ⟨_, rfl⟩
  · exact Or.inl rfl

set_option maxRecDepth 4000 in
/-- `nearest_prob_neighbour` never sets `timeToReach` of the tour that it builds with the probabilities (branch_and_bound.c:892-934), so `time to obtain` can be any number when this tour is the solution (in hybrid mode).
**C82** fails for a negative one: `read_values` raises an exception and reports nothing about any instance of the directory. -/
theorem C82_fails_time {c : Cfg} {r : Spec.Report} (h : Spec.Report.Plain { r with reach := 0 }) (hneg : r.reach < 0) (before after : List (List Char × List Char)) :
    ∃ e, readDirectory (before ++ (resultName r.inst, r.text c) :: after) = .error e := by
  refine readDirectory_error (e := .null) ?_ before after
  have hs := segsOk (c := c) h
  have e := resultText_segs c r.ghosh r.elapsed (lfText r.reach) r.problem r.updates r.cities r.wallText
  have h1 := hs.cand
  have h2 := hs.el.soft
  have h3 := hs.gh
  have h4 := hs.ep
  have h5 := hs.g.soft
  have h6 := hs.e.soft
  have h7 := hs.m.soft
  have h8 := hs.fx
  have h9 := hs.val.soft
  have h10 := hs.lv.soft
  have h11 := sdec_soft hs.pr
  have h12 := hs.id.soft
  have h13 : Soft (lfText r.reach) := lfText_soft _
  have h14 := hs.br
  have h15 := hs.nc
  have h16 := hs.legs
  have h17 := hs.nm
  have h18 := hs.nf
  have h19 := hs.cs
  have h20 := hs.wall.soft
  simp only at h1 h2 h3 h4 h5 h6 h7 h8 h9 h10 h11 h12 h14 h15 h16 h17 h18 h19 h20
  have hi := intSeg_clear_int r.problem.interrupted (l := chars! "time to obtain = ") (by decide) (by decide)
  have ht := typeSeg_clear r.problem.best.type (l := chars! "time to obtain = ") (by decide)
  have hu := quiet_log r.updates (chars! "time to obtain = ") (by simp [searched])
  obtain ⟨s, es⟩ : ∃ s, lfText r.reach = '-' :: s := by
    unfold lfText
    rw [if_pos hneg]
    exact ⟨_, rfl⟩
  have key : reSearch [.lit (chars! "time to obtain = "), .num, .lit (chars! "s")] (r.text c) = none := by
    unfold Spec.Report.text
    rw [e]
    generalize hS : segs (r.updates.flatMap updateLine) (natText r.problem.cand) (lfText r.elapsed) r.problem.interrupted (lfText r.ghosh) (lfText c.eps) (natText r.problem.generated)
      (natText r.problem.explored) (natText r.problem.totLevels) (natText r.problem.fixed) (lfText r.problem.best.value) r.problem.best.type (natText r.problem.best.treeLevel)
      (lfText r.problem.best.prob) (natText r.problem.best.id) (lfText r.reach) (intText r.problem.best.edgeToBranch) (natText r.problem.best.numCycle)
      (legsText r.problem.best.numCycle 0 (printCycle r.problem.best)) (natText r.problem.best.numMandatory) (natText r.problem.best.numForbidden) (nodesText 0 r.cities) r.wallText = S
    have eS : S = S.take 40 ++ (chars! "time to obtain = ") :: lfText r.reach :: S.drop 42 := by rw [← hS]; rfl
    have hpre : ∀ s ∈ S.take 40, clear (chars! "time to obtain = ") s = true := by rw [← hS]; clr
    have hpost : ∀ s ∈ S.drop 42, clear (chars! "time to obtain = ") s = true := by
      rw [← hS]
      simp only [segs, List.drop_succ_cons, List.drop_zero]
      clr0
    rw [eS, List.flatten_append, List.flatten_cons, List.flatten_cons, reSearch_skip _ (clear_flatten hpre)]
    have hrest : clear (chars! "time to obtain = ") (chars! "ime to obtain = " ++ (lfText r.reach ++ (S.drop 42).flatten)) = true :=
      clear_append (by decide) (clear_append (clear_soft h13 (by decide)) (clear_flatten hpost))
    have hm : matchAt [.lit (chars! "time to obtain = "), .num, .lit (chars! "s")] (chars! "time to obtain = " ++ (lfText r.reach ++ (S.drop 42).flatten)) = [] := by
      rw [matchAt, afterLit_append]
      simp only
      rw [matchAt, es]
      have : numMatches ('-' :: s ++ (S.drop 42).flatten) = [] := by
        unfold numMatches andThen
        rw [List.cons_append, plusDigits, if_neg (by decide)]
        rfl
      rw [this]
      rfl
    show (match (matchAt [.lit (chars! "time to obtain = "), .num, .lit (chars! "s")] (chars! "time to obtain = " ++ (lfText r.reach ++ (S.drop 42).flatten))).head? with
      | some r => some r
      | none => reSearch [.lit (chars! "time to obtain = "), .num, .lit (chars! "s")] (chars! "ime to obtain = " ++ (lfText r.reach ++ (S.drop 42).flatten))) = none
    rw [hm]
    exact reSearch_none hrest
  have g3 : group1 [.lit (chars! "time to obtain = "), .num, .lit (chars! "s")] (r.text c) = .error .null := by
    unfold group1
    rw [key]
  unfold readText
  rw [g3]
  rcases group1_cases [.lit (chars! "Time taken: "), .num, .lit (chars! "s")] (r.text c) with g1 | ⟨t1, g1⟩ <;> rw [g1]
  · rfl
  · rcases group1_cases [.lit (chars! "elapsed time = "), .num, .lit (chars! "s")] (r.text c) with g2 | ⟨t2, g2⟩ <;> rw [g2] <;> rfl

end Verif
