import Verif.Proofs.ResultSegs

/-!
# The searches in a result file
-/
namespace Verif
set_option autoImplicit false

theorem split_flatten (pre : List (List Char)) (x y z : List Char) (rest : List (List Char)) :
    (pre ++ x :: y :: z :: rest).flatten = pre.flatten ++ (x ++ (y ++ (z ++ rest.flatten))) := by
  simp only [List.flatten_append, List.flatten_cons]

theorem group1_num_segs {ss pre rest : List (List Char)} {l t post : List Char} (e : ss = pre ++ l :: t :: post :: rest) (hc : ∀ s ∈ pre, clear l s = true) (ht : DecText t)
    (hp : ∃ ch s, post = ch :: s ∧ ch.isDigit = false) : group1 [.lit l, .num, .lit post] ss.flatten = .ok t := by
  obtain ⟨ch, s, rfl, hd⟩ := hp
  rw [e, split_flatten]
  exact group1_num (clear_flatten hc) ht (noDigit_cons hd)

theorem group1_int_segs {ss pre rest : List (List Char)} {l t post : List Char} (e : ss = pre ++ l :: t :: post :: rest) (hc : ∀ s ∈ pre, clear l s = true) (ht : IsDigits t)
    (hp : ∃ ch s, post = ch :: s ∧ ch.isDigit = false) : group1 [.lit l, .int] ss.flatten = .ok t := by
  obtain ⟨ch, s, rfl, hd⟩ := hp
  rw [e, split_flatten]
  exact group1_int (clear_flatten hc) ht (noDigit_cons hd)

theorem group1_snum_segs {ss pre rest : List (List Char)} {l t post : List Char} (e : ss = pre ++ l :: t :: post :: rest) (hc : ∀ s ∈ pre, clear l s = true)
    (ht : DecText t ∨ ∃ s, t = '-' :: s ∧ DecText s) (hp : ∃ ch s, post = ch :: s ∧ ch.isDigit = false) : group1 [.lit l, .snum] ss.flatten = .ok t := by
  obtain ⟨ch, s, rfl, hd⟩ := hp
  rw [e, split_flatten]
  exact group1_snum (clear_flatten hc) ht (noDigit_cons hd)

theorem found_segs {ss pre rest : List (List Char)} {l x : List Char} (e : ss = pre ++ x :: rest) (hx : ∃ a b, x = a ++ (l ++ b)) : found l ss.flatten = true := by
  obtain ⟨a, b, rfl⟩ := hx
  rw [e, List.flatten_append, List.flatten_cons]
  have : pre.flatten ++ (a ++ (l ++ b) ++ rest.flatten) = (pre.flatten ++ a) ++ (l ++ (b ++ rest.flatten)) := by simp only [List.append_assoc]
  rw [this]
  exact found_here

/-- `∀ s ∈ list, clear l s = true` for a list of literals and of holes about which there is an assumption -/
macro "clr0" : tactic => `(tactic| (
  repeat' (first
    | exact List.forall_mem_nil _
    | (refine List.forall_mem_cons.2 ⟨?_, ?_⟩
       · first
         | exact clear_soft (by assumption) (by decide)
         | exact clear_city (by assumption) (by decide)
         | assumption
         | decide))))

@[inherit_doc tacticClr0]
macro "clr" : tactic => `(tactic| (
  simp only [segs, List.take_succ_cons, List.take_zero]
  clr0))

/-- the literals at the head of the patterns of the analyzer, without the one of the log lines -/
def searched : List (List Char) :=
  [chars! "Time taken: ", chars! "elapsed time = ", chars! "time to obtain = ", chars! "Final cycle with ", chars! "SUBPROBLEM with cost = ", chars! "generated BBNodes = ", chars! "explored BBNodes = ",
   chars! "max tree level = ", chars! "level of the BB tree = ", chars! "prob_tour = ", chars! "BBNode number = ", chars! "interrupted = FALSE", chars! "type = CLOSED_"]

/-- nothing that the analyzer searches starts in the text -/
def Quiet (u : List Char) : Prop := ∀ l ∈ searched, clear l u = true

theorem quiet_log (us : List (ℚ × ℚ)) : Quiet (us.flatMap updateLine) := by
  intro l hl
  simp only [searched, List.mem_cons, List.not_mem_nil, or_false] at hl
  rcases hl with rfl | rfl | rfl | rfl | rfl | rfl | rfl | rfl | rfl | rfl | rfl | rfl | rfl <;>
    exact clear_log (by decide) (by decide) (by decide) (by decide) us

theorem quiet_infeasible (n : Nat) : Quiet (infeasibleText n) := by
  intro l hl
  simp only [searched, List.mem_cons, List.not_mem_nil, or_false] at hl
  rcases hl with rfl | rfl | rfl | rfl | rfl | rfl | rfl | rfl | rfl | rfl | rfl | rfl | rfl <;>
    exact clear_append (clear_append (by decide) (clear_soft (natText_soft n) (by decide))) (by decide)

/-- the holes of the result file -/
structure SegsOk (cand el gh ep g e m fx val lv pr id rc br nc legs nm nf cs wall : List Char) : Prop where
  cand : Soft cand
  el : DecText el
  gh : Soft gh
  ep : Soft ep
  g : IsDigits g
  e : IsDigits e
  m : IsDigits m
  fx : Soft fx
  val : DecText val
  lv : IsDigits lv
  pr : DecText pr ∨ ∃ s, pr = '-' :: s ∧ DecText s
  id : IsDigits id
  rc : DecText rc
  br : Soft br
  nc : Soft nc
  legs : Soft legs
  nm : Soft nm
  nf : Soft nf
  cs : CitySoft cs
  wall : DecText wall

theorem sdec_soft {pr : List Char} (h : DecText pr ∨ ∃ s, pr = '-' :: s ∧ DecText s) : Soft pr := by
  rcases h with h | ⟨s, rfl, h⟩
  · exact h.soft
  · exact Soft.cons (by decide) h.soft

theorem intSeg_clear_int (b : Bool) {l : List Char} (h1 : clear l (intSeg true) = true) (h2 : clear l (intSeg false) = true) : clear l (intSeg b) = true := by cases b <;> assumption

theorem typeSeg_clear (ty : BBType) {l : List Char} (h : ∀ t ∈ [BBType.opened, .closedUnfeasible, .closedBound, .closedNN, .closedNNHybrid, .closedSubgradient], clear l (typeSeg t) = true) : clear l (typeSeg ty) = true := by
  cases ty
  · exact h _ (by simp)
  · exact h _ (by simp)
  · exact h _ (by simp)
  · exact h _ (by simp)
  · exact h _ (by simp)
  · exact h .closedSubgradient (by simp)
  · exact h _ (by simp)

section
variable {u cand el gh ep g e m fx val lv pr id rc br nc legs nm nf cs wall : List Char} {b : Bool} {ty : BBType}

local notation "SS" => segs u cand el b gh ep g e m fx val ty lv pr id rc br nc legs nm nf cs wall

set_option maxRecDepth 4000 in
theorem segs_read (hU : Quiet u) (h : SegsOk cand el gh ep g e m fx val lv pr id rc br nc legs nm nf cs wall) :
    group1 [.lit (chars! "Time taken: "), .num, .lit (chars! "s")] (SS).flatten = .ok wall ∧
    group1 [.lit (chars! "elapsed time = "), .num, .lit (chars! "s")] (SS).flatten = .ok el ∧
    group1 [.lit (chars! "time to obtain = "), .num, .lit (chars! "s")] (SS).flatten = .ok rc ∧
    found (chars! "Final cycle with ") (SS).flatten = false ∧
    group1 [.lit (chars! "SUBPROBLEM with cost = "), .num, .lit (chars! ",")] (SS).flatten = .ok val ∧
    group1 [.lit (chars! "generated BBNodes = "), .int] (SS).flatten = .ok g ∧
    group1 [.lit (chars! "explored BBNodes = "), .int] (SS).flatten = .ok e ∧
    group1 [.lit (chars! "max tree level = "), .int] (SS).flatten = .ok m ∧
    group1 [.lit (chars! "level of the BB tree = "), .int] (SS).flatten = .ok lv ∧
    group1 [.lit (chars! "prob_tour = "), .snum] (SS).flatten = .ok pr ∧
    group1 [.lit (chars! "BBNode number = "), .int] (SS).flatten = .ok id := by
  have h1 := h.cand
  have h2 := h.el.soft
  have h3 := h.gh
  have h4 := h.ep
  have h5 := h.g.soft
  have h6 := h.e.soft
  have h7 := h.m.soft
  have h8 := h.fx
  have h9 := h.val.soft
  have h10 := h.lv.soft
  have h11 := sdec_soft h.pr
  have h12 := h.id.soft
  have h13 := h.rc.soft
  have h14 := h.br
  have h15 := h.nc
  have h16 := h.legs
  have h17 := h.nm
  have h18 := h.nf
  have h19 := h.cs
  have h20 := h.wall.soft
  refine ⟨?_, ?_, ?_, ?_, ?_, ?_, ?_, ?_, ?_, ?_, ?_⟩
  · have hu := hU (chars! "Time taken: ") (by simp [searched])
    have hi := intSeg_clear_int b (l := chars! "Time taken: ") (by decide) (by decide)
    have ht := typeSeg_clear ty (l := chars! "Time taken: ") (by decide)
    refine group1_num_segs (pre := (SS).take 57) (rest := (SS).drop 60) rfl ?_ h.wall ⟨_, _, rfl, by decide⟩
    clr
  · have hu := hU (chars! "elapsed time = ") (by simp [searched])
    refine group1_num_segs (pre := (SS).take 4) (rest := (SS).drop 7) rfl ?_ h.el ⟨_, _, rfl, by decide⟩
    clr
  · have hu := hU (chars! "time to obtain = ") (by simp [searched])
    have hi := intSeg_clear_int b (l := chars! "time to obtain = ") (by decide) (by decide)
    have ht := typeSeg_clear ty (l := chars! "time to obtain = ") (by decide)
    refine group1_num_segs (pre := (SS).take 40) (rest := (SS).drop 43) rfl ?_ h.rc ⟨_, _, rfl, by decide⟩
    clr
  · have hu := hU (chars! "Final cycle with ") (by simp [searched])
    have hi := intSeg_clear_int b (l := chars! "Final cycle with ") (by decide) (by decide)
    have ht := typeSeg_clear ty (l := chars! "Final cycle with ") (by decide)
    refine found_not (clear_flatten ?_)
    clr
  · have hu := hU (chars! "SUBPROBLEM with cost = ") (by simp [searched])
    have hi := intSeg_clear_int b (l := chars! "SUBPROBLEM with cost = ") (by decide) (by decide)
    refine group1_num_segs (pre := (SS).take 25) (rest := (SS).drop 28) rfl ?_ h.val ⟨_, _, rfl, by decide⟩
    clr
  · have hu := hU (chars! "generated BBNodes = ") (by simp [searched])
    have hi := intSeg_clear_int b (l := chars! "generated BBNodes = ") (by decide) (by decide)
    refine group1_int_segs (pre := (SS).take 14) (rest := (SS).drop 17) rfl ?_ h.g ⟨_, _, rfl, by decide⟩
    clr
  · have hu := hU (chars! "explored BBNodes = ") (by simp [searched])
    have hi := intSeg_clear_int b (l := chars! "explored BBNodes = ") (by decide) (by decide)
    refine group1_int_segs (pre := (SS).take 17) (rest := (SS).drop 20) rfl ?_ h.e ⟨_, _, rfl, by decide⟩
    clr
  · have hu := hU (chars! "max tree level = ") (by simp [searched])
    have hi := intSeg_clear_int b (l := chars! "max tree level = ") (by decide) (by decide)
    refine group1_int_segs (pre := (SS).take 20) (rest := (SS).drop 23) rfl ?_ h.m ⟨_, _, rfl, by decide⟩
    clr
  · have hu := hU (chars! "level of the BB tree = ") (by simp [searched])
    have hi := intSeg_clear_int b (l := chars! "level of the BB tree = ") (by decide) (by decide)
    have ht := typeSeg_clear ty (l := chars! "level of the BB tree = ") (by decide)
    refine group1_int_segs (pre := (SS).take 31) (rest := (SS).drop 34) rfl ?_ h.lv ⟨_, _, rfl, by decide⟩
    clr
  · have hu := hU (chars! "prob_tour = ") (by simp [searched])
    have hi := intSeg_clear_int b (l := chars! "prob_tour = ") (by decide) (by decide)
    have ht := typeSeg_clear ty (l := chars! "prob_tour = ") (by decide)
    refine group1_snum_segs (pre := (SS).take 34) (rest := (SS).drop 37) rfl ?_ h.pr ⟨_, _, rfl, by decide⟩
    clr
  · have hu := hU (chars! "BBNode number = ") (by simp [searched])
    have hi := intSeg_clear_int b (l := chars! "BBNode number = ") (by decide) (by decide)
    have ht := typeSeg_clear ty (l := chars! "BBNode number = ") (by decide)
    refine group1_int_segs (pre := (SS).take 37) (rest := (SS).drop 40) rfl ?_ h.id ⟨_, _, rfl, by decide⟩
    clr

set_option maxRecDepth 4000 in
theorem segs_interrupted (hU : Quiet u) (h : SegsOk cand el gh ep g e m fx val lv pr id rc br nc legs nm nf cs wall) : found (chars! "interrupted = FALSE") (SS).flatten = !b := by
  have h1 := h.cand
  have h2 := h.el.soft
  have h3 := h.gh
  have h4 := h.ep
  have h5 := h.g.soft
  have h6 := h.e.soft
  have h7 := h.m.soft
  have h8 := h.fx
  have h9 := h.val.soft
  have h10 := h.lv.soft
  have h11 := sdec_soft h.pr
  have h12 := h.id.soft
  have h13 := h.rc.soft
  have h14 := h.br
  have h15 := h.nc
  have h16 := h.legs
  have h17 := h.nm
  have h18 := h.nf
  have h19 := h.cs
  have h20 := h.wall.soft
  cases b with
  | true =>
    have hu := hU (chars! "interrupted = FALSE") (by simp [searched])
    have ht := typeSeg_clear ty (l := chars! "interrupted = FALSE") (by decide)
    refine found_not (clear_flatten ?_)
    clr
  | false =>
    refine found_segs (pre := (segs u cand el false gh ep g e m fx val ty lv pr id rc br nc legs nm nf cs wall).take 8) (rest := (segs u cand el false gh ep g e m fx val ty lv pr id rc br nc legs nm nf cs wall).drop 9) rfl ?_
    exact ⟨[], [], rfl⟩

set_option maxRecDepth 4000 in
theorem segs_no_type (hU : Quiet u) (h : SegsOk cand el gh ep g e m fx val lv pr id rc br nc legs nm nf cs wall) {l : List Char}
    (ht : clear (chars! "type = CLOSED_" ++ l) (typeSeg ty) = true) : found (chars! "type = CLOSED_" ++ l) (SS).flatten = false := by
  have h1 := h.cand
  have h2 := h.el.soft
  have h3 := h.gh
  have h4 := h.ep
  have h5 := h.g.soft
  have h6 := h.e.soft
  have h7 := h.m.soft
  have h8 := h.fx
  have h9 := h.val.soft
  have h10 := h.lv.soft
  have h11 := sdec_soft h.pr
  have h12 := h.id.soft
  have h13 := h.rc.soft
  have h14 := h.br
  have h15 := h.nc
  have h16 := h.legs
  have h17 := h.nm
  have h18 := h.nf
  have h19 := h.cs
  have h20 := h.wall.soft
  have key : ∀ s : List Char, clear (chars! "type = CLOSED_") s = true → clear (chars! "type = CLOSED_" ++ l) s = true := by
    intro s
    have hm : ∀ (x y s : List Char), mism x s = true → mism (x ++ y) s = true := by
      intro x
      induction x with
      | nil => intro y s h; simp [mism] at h
      | cons a x ih =>
        intro y s h
        cases s with
        | nil => simp [mism] at h
        | cons b s =>
          simp only [mism, Bool.or_eq_true, List.cons_append] at h ⊢
          exact h.imp (fun h => h) (ih y s)
    induction s with
    | nil => intro _; rfl
    | cons ch s ih =>
      intro h
      simp only [clear, Bool.and_eq_true] at h ⊢
      exact ⟨hm _ _ _ h.1, ih h.2⟩
  have hu := hU (chars! "type = CLOSED_") (by simp [searched])
  have hi := intSeg_clear_int b (l := chars! "type = CLOSED_") (by decide) (by decide)
  have hpre : ∀ s ∈ (SS).take 29, clear (chars! "type = CLOSED_") s = true := by clr
  have hpost : ∀ s ∈ (SS).drop 30, clear (chars! "type = CLOSED_") s = true := by
    simp only [segs, List.drop_succ_cons, List.drop_zero]
    clr0
  refine found_not (h := 't') (l := chars! "ype = CLOSED_" ++ l) (clear_flatten ?_)
  intro s hs
  have e : SS = (SS).take 29 ++ typeSeg ty :: (SS).drop 30 := rfl
  rw [e] at hs
  rcases List.mem_append.1 hs with hs | hs
  · exact key s (hpre s hs)
  · rcases List.mem_cons.1 hs with rfl | hs
    · exact ht
    · exact key s (hpost s hs)

/-- the class that the analyzer gives to the text of a kind -/
def shownClass : BBType → SolType
  | .closedNNHybrid => .nearestHybrid
  | .closedNN => .nearest
  | _ => .other

set_option maxRecDepth 4000 in
theorem segs_type (hU : Quiet u) (h : SegsOk cand el gh ep g e m fx val lv pr id rc br nc legs nm nf cs wall) : readType (SS).flatten = shownClass ty := by
  unfold readType
  have hfound : ∀ l x, typeSeg ty = chars! "type = CLOSED_" ++ l ++ x → found (chars! "type = CLOSED_" ++ l) (SS).flatten = true := by
    intro l x hx
    exact found_segs (x := typeSeg ty) (pre := (SS).take 29) (rest := (SS).drop 30) rfl ⟨[], x, by rw [hx]; simp⟩
  have hno : ∀ l, clear (chars! "type = CLOSED_" ++ l) (typeSeg ty) = true → found (chars! "type = CLOSED_" ++ l) (SS).flatten = false := fun l hl => segs_no_type hU h hl
  have n1 := hno (chars! "NEAREST_NEIGHBOR_HYBRID")
  have n2 := hno (chars! "NEAREST_NEIGHBOR")
  have n3 := hno (chars! "1TREE")
  have f1 := hfound (chars! "NEAREST_NEIGHBOR_HYBRID") [',']
  have f2 := hfound (chars! "NEAREST_NEIGHBOR") [',']
  simp only [List.cons_append, List.nil_append] at n1 n2 n3 f1 f2
  cases ty
  · rw [n1 (by decide), n2 (by decide), n3 (by decide)]; rfl
  · rw [show found _ _ = false from ?_, f2 rfl]
    · rfl
    · exact n1 (by decide)
  · rw [f1 rfl]; rfl
  · rw [n1 (by decide), n2 (by decide), n3 (by decide)]; rfl
  · rw [n1 (by decide), n2 (by decide), n3 (by decide)]; rfl
  · rw [n1 (by decide), n2 (by decide), n3 (by decide)]; rfl
  · rw [n1 (by decide), n2 (by decide), n3 (by decide)]; rfl

end

end Verif
