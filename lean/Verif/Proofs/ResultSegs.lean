import Verif.Proofs.ResultText

/-!
# A result file as a list of literals and numbers
-/
namespace Verif
set_option autoImplicit false

/-- the characters of numbers and legs -/
def softChar (ch : Char) : Bool := ch.isDigit || [' ', '.', '-', '<', '>', ','].contains ch

/-- the characters of the list of cities: the texts of Python floats as well -/
def cityChar (ch : Char) : Bool := softChar ch || ['e', '+', '\t', ':', '\n'].contains ch

def Soft (s : List Char) : Prop := ∀ ch ∈ s, softChar ch = true

def CitySoft (s : List Char) : Prop := ∀ ch ∈ s, cityChar ch = true

theorem Soft.append {a b : List Char} (ha : Soft a) (hb : Soft b) : Soft (a ++ b) := fun ch h => (List.mem_append.1 h).elim (ha ch) (hb ch)
theorem CitySoft.append {a b : List Char} (ha : CitySoft a) (hb : CitySoft b) : CitySoft (a ++ b) := fun ch h => (List.mem_append.1 h).elim (ha ch) (hb ch)
theorem Soft.city {a : List Char} (ha : Soft a) : CitySoft a := fun ch h => by unfold cityChar; rw [ha ch h]; rfl
theorem Soft.cons {a : List Char} {x : Char} (hx : softChar x = true) (ha : Soft a) : Soft (x :: a) := fun ch h => by
  rcases List.mem_cons.1 h with rfl | h
  · exact hx
  · exact ha ch h

theorem IsDigits.soft {s : List Char} (h : IsDigits s) : Soft s := fun ch hc => by unfold softChar; rw [h.2 ch hc]; rfl
theorem DecText.soft {s : List Char} (h : DecText s) : Soft s := by
  obtain ⟨a, b, rfl, ha, hb⟩ := h
  exact ha.soft.append (Soft.cons (by decide) hb.soft)
theorem natText_soft (n : Nat) : Soft (natText n) := (natText_digits n).soft
theorem lfText_soft (x : ℚ) : Soft (lfText x) := by
  rcases lfText_sdec x with h | ⟨s, e, h⟩
  · exact h.soft
  · rw [e]; exact Soft.cons (by decide) h.soft
theorem intText_soft (n : Int) : Soft (intText n) := by
  cases n with
  | ofNat n => exact natText_soft n
  | negSucc n => exact Soft.cons (by decide) (natText_soft _)

theorem legsText_soft (k : Nat) : ∀ (l : List (Nat × Nat)) (i : Nat), Soft (legsText k i l) := by
  intro l
  induction l with
  | nil => intro i ch h; cases h
  | cons x l ih =>
    intro i
    rw [legsText]
    refine Soft.append ?_ (ih _)
    unfold legText
    refine Soft.append (Soft.append (Soft.append (Soft.append ?_ (natText_soft _)) ?_) (natText_soft _)) ?_
    · split <;> (intro ch h; revert ch; decide)
    · intro ch h; revert ch; decide
    · split
      · intro ch h; cases h
      · intro ch h; revert ch; decide

theorem nodesText_soft : ∀ (l : List (List Char × List Char)) (i : Nat), (∀ q ∈ l, CitySoft q.1 ∧ CitySoft q.2) → CitySoft (nodesText i l) := by
  intro l
  induction l with
  | nil => intro i _ ch h; cases h
  | cons x l ih =>
    intro i h
    rw [nodesText]
    have hx := h x (by simp)
    refine CitySoft.append (CitySoft.append (CitySoft.append (CitySoft.append (CitySoft.append (CitySoft.append ?_ (natText_soft _).city) ?_) hx.1) ?_) hx.2) ?_ |>.append (ih _ fun q hq => h q (by simp [hq]))
    all_goals (intro ch h; revert ch; decide)

theorem clear_soft {h : Char} {l s : List Char} (hs : Soft s) (hh : softChar h = false) : clear (h :: l) s = true :=
  clear_of_head fun ch hc e => by rw [← e, hs ch hc] at hh; cases hh

theorem clear_city {h : Char} {l s : List Char} (hs : CitySoft s) (hh : cityChar h = false) : clear (h :: l) s = true :=
  clear_of_head fun ch hc e => by rw [← e, hs ch hc] at hh; cases hh

theorem clear_log {h : Char} {l : List Char} (hh : softChar h = false) (h1 : clear (h :: l) (chars! "Updated best value: ") = true) (h2 : clear (h :: l) (chars! ", at time: ") = true)
    (h3 : clear (h :: l) ['\n'] = true) (us : List (ℚ × ℚ)) : clear (h :: l) (us.flatMap updateLine) = true := by
  rw [List.flatMap_def]
  refine clear_flatten ?_
  intro s hs
  obtain ⟨u, _, rfl⟩ := List.mem_map.1 hs
  exact clear_append (clear_append (clear_append (clear_append h1 (clear_soft (lfText_soft _) hh)) h2) (clear_soft (lfText_soft _) hh)) h3

/-- `interrupted = …` -/
def intSeg (b : Bool) : List Char := chars! "interrupted = " ++ if b then chars! "TRUE" else chars! "FALSE"

/-- `type = …,` -/
def typeSeg (t : BBType) : List Char := chars! "type = " ++ typeText t ++ [',']

/-- the parts of a result file -/
def segs (u cand el : List Char) (b : Bool) (gh ep g e m fx val : List Char) (ty : BBType) (lv pr id rc br nc legs nm nf cs wall : List Char) : List (List Char) :=
  [u, chars! "Optimal tour found with candidate node = ", cand, chars! ", ", chars! "elapsed time = ", el, chars! "s", chars! " and ", intSeg b, chars! "\n\nMST solved with: Prim algorithm\n\nGHOSH_UB = ",
   gh, chars! ", SUBPROBLEM_UB = ", ep, chars! "\n\nB-&-B tree with ", chars! "generated BBNodes = ", g, chars! ",  ", chars! "explored BBNodes = ", e, chars! " and ",
   chars! "max tree level = ", m, chars! "\n\nNumber of fixed edges = ", fx, chars! "\n\n", chars! "SUBPROBLEM with cost = ", val, chars! ",", chars! " ", typeSeg ty,
   chars! " ", chars! "level of the BB tree = ", lv, chars! ", ", chars! "prob_tour = ", pr, chars! ", ", chars! "BBNode number = ", id, chars! " and ",
   chars! "time to obtain = ", rc, chars! "s", chars! ", edge to branch = ", br, chars! "\n\nCycle with ", nc, chars! " edges:", legs, chars! "\n",
   nm, chars! " Mandatory edges:\n", nf, chars! " Forbidden edges:\n", chars! "\nNodes: \n", cs, chars! "\n", chars! "Time taken: ", wall, chars! "s",
   chars! "\n"]

set_option maxRecDepth 10000 in
theorem report_segs (c : Cfg) (ghosh elapsed : ℚ) (reach : List Char) (p : Problem) (u : List Char) (cities : List (List Char × List Char)) (wall : List Char) :
    u ++ problemText c ghosh elapsed reach p ++ driverText cities wall =
      (segs u (natText p.cand) (lfText elapsed) p.interrupted (lfText ghosh) (lfText c.eps) (natText p.generated) (natText p.explored) (natText p.totLevels)
        (natText p.fixed) (lfText p.best.value) p.best.type (natText p.best.treeLevel) (lfText p.best.prob) (natText p.best.id) reach (intText p.best.edgeToBranch) (natText p.best.numCycle)
        (legsText p.best.numCycle 0 (printCycle p.best)) (natText p.best.numMandatory) (natText p.best.numForbidden) (nodesText 0 cities) wall).flatten := by
  unfold problemText subProblemText driverText segs intSeg typeSeg
  simp only [List.flatten_cons, List.flatten_nil, List.append_assoc, List.cons_append, List.nil_append, List.append_nil]

theorem resultText_segs (c : Cfg) (ghosh elapsed : ℚ) (reach : List Char) (p : Problem) (updates : List (ℚ × ℚ)) (cities : List (List Char × List Char)) (wall : List Char) :
    resultText c ghosh elapsed reach p updates cities wall =
      (segs (updates.flatMap updateLine) (natText p.cand) (lfText elapsed) p.interrupted (lfText ghosh) (lfText c.eps) (natText p.generated) (natText p.explored) (natText p.totLevels)
        (natText p.fixed) (lfText p.best.value) p.best.type (natText p.best.treeLevel) (lfText p.best.prob) (natText p.best.id) reach (intText p.best.edgeToBranch) (natText p.best.numCycle)
        (legsText p.best.numCycle 0 (printCycle p.best)) (natText p.best.numMandatory) (natText p.best.numForbidden) (nodesText 0 cities) wall).flatten :=
  report_segs c ghosh elapsed reach p _ cities wall

end Verif
