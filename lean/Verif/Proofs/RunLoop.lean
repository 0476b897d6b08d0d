import Verif.Proofs.Run

/-!
# The loop of the driver is safe
-/
namespace Verif
open Verif.Spec
set_option autoImplicit false

theorem instanceLine_iff {lines : List (List Char)} {i : Int} {line : List Char} (hi : 1 ≤ i) : instanceLine lines i = .ok line ↔ lines[(i - 1).toNat]? = some line := by
  unfold instanceLine
  have e : i - 1 = (((i - 1).toNat : Nat) : Int) := by omega
  by_cases h : (lines.length : Int) < i - 1
  · rw [if_pos h, List.getElem?_eq_none (by omega)]; simp
  · rw [if_neg h]
    conv_lhs => rw [e, pyIndex_nonneg]
    cases lines[(i - 1).toNat]? <;> simp

theorem getInstance_spec {W : World} {text : Text} {i : Int} {line : Text} {cities : List (ℚ × ℚ)} (hi : 1 ≤ i) :
    getInstance W.float text i = .ok (line, cities) ↔ IsInstance W (some text) i line cities := by
  unfold getInstance IsInstance
  constructor
  · intro h
    obtain ⟨ln, h1, h2⟩ := bind_eq_ok.1 h
    obtain ⟨cs, h3, h4⟩ := bind_eq_ok.1 h2
    cases h4
    exact ⟨hi, text, rfl, (instanceLine_iff hi).1 h1, h3⟩
  · rintro ⟨-, t', ht', hl, hc⟩
    cases ht'
    exact bind_eq_ok.2 ⟨line, (instanceLine_iff hi).2 hl, bind_eq_ok.2 ⟨cities, hc, rfl⟩⟩

section
variable (W : World) (n m : Nat) (hyb : Bool) (l : List Int) (old : Disk)

/-- the files that a run reads -/
def Reads (p : Text) : Prop := p = instancesPath n ∨ Own n hyb l p

/-- the reasons of an exception: the build or the network fails, or an instance does not exist -/
def Cause : Prop := W.buildFails ∨ (hyb = true ∧ W.networkFails) ∨ ∃ i ∈ l, ∀ line cities, ¬ IsInstance W (old.files (instancesPath n)) i line cities

/-- the end of a run -/
def Final (d : Disk) : Prop := (∀ i ∈ l, Solved W n m hyb (old.files (instancesPath n)) d i) ∧ (hyb = true → l ≠ [] → d.files (tempPath n) = none)

/-- the disk before a round of the loop: the instances of `a` are solved, those of `b` are untouched -/
structure Between (a b : List Int) (d : Disk) : Prop where
  same : d.files (instancesPath n) = old.files (instancesPath n)
  solved : ∀ i ∈ a, Solved W n m hyb (old.files (instancesPath n)) d i
  todo : ∀ i ∈ b, Untouched n hyb old d i
  exe : d.exe = some (n, hyb)
  temp : hyb = true → a ≠ [] → d.files (tempPath n) = none

abbrev RunSafe (P : Proc) (d : Disk) : Prop := Safe (Reads n hyb l) (Own n hyb l) (n, hyb) (Progress W n m hyb l old) (Final W n m hyb l old) (Cause W n hyb l old) W P d

/-- `d'` differs from `d` only in the files of the instance `i` and in the temporary file -/
def Near (i : Int) (d d' : Disk) : Prop :=
  d'.exe = d.exe ∧ ∀ p, p ≠ matrixPath n i → p ≠ resultPath n hyb i → (hyb = true → p ≠ tempPath n) → d'.files p = d.files p

end

section
variable {W : World} {n m : Nat} {hyb : Bool} {l : List Int} {old : Disk}

theorem Near.refl (i : Int) (d : Disk) : Near n hyb i d d := ⟨rfl, fun _ _ _ _ => rfl⟩

theorem Near.set {i : Int} {d d' : Disk} (h : Near n hyb i d d') {p : Text} (hp : p = matrixPath n i ∨ p = resultPath n hyb i ∨ (hyb = true ∧ p = tempPath n)) (t : Option Text) :
    Near n hyb i d (d'.set p t) := by
  refine ⟨h.1, fun q h1 h2 h3 => ?_⟩
  rw [Disk.set_other, h.2 q h1 h2 h3]
  rintro rfl
  rcases hp with e | e | ⟨e1, e⟩
  · exact h1 e
  · exact h2 e
  · exact h3 e1 e

theorem Near.add {i : Int} {d d' : Disk} (h : Near n hyb i d d') {p : Text} (hp : p = matrixPath n i ∨ p = resultPath n hyb i ∨ (hyb = true ∧ p = tempPath n)) (t : Text) :
    Near n hyb i d (d'.add p t) := h.set hp _

theorem solved_congr {d d' : Disk} {text : Option Text} {i : Int} (h : Solved W n m hyb text d i) (h1 : d'.files (matrixPath n i) = d.files (matrixPath n i))
    (h2 : d'.files (resultPath n hyb i) = d.files (resultPath n hyb i)) : Solved W n m hyb text d' i := by
  obtain ⟨line, cities, csv, out, wall, a, b, c, e, f, g⟩ := h
  exact ⟨line, cities, csv, out, wall, a, b, c, e, h1.trans f, h2.trans g⟩

theorem Near.other {i j : Int} {d d' : Disk} (h : Near n hyb i d d') (hij : j ≠ i) :
    d'.files (matrixPath n j) = d.files (matrixPath n j) ∧ d'.files (resultPath n hyb j) = d.files (resultPath n hyb j) :=
  ⟨h.2 _ (fun e => hij (matrixPath_inj e)) (matrix_ne_result _ _ _ _ _) fun _ => matrix_ne_temp _ _ _,
   h.2 _ (fun e => matrix_ne_result _ _ _ _ _ e.symm) (fun e => hij (resultPath_inj e)) fun _ => result_ne_temp _ _ _ _⟩

theorem Near.instances {i : Int} {d d' : Disk} (h : Near n hyb i d d') : d'.files (instancesPath n) = d.files (instancesPath n) :=
  h.2 _ (fun e => matrix_ne_instances _ _ _ e.symm) (fun e => result_ne_instances _ _ _ _ e.symm) fun _ e => temp_ne_instances _ e.symm

section round
variable {a r : List Int} {i : Int} {d d' : Disk} (hl : l = a ++ i :: r) (hnd : l.Nodup) (hb : Between W n m hyb old a (i :: r) d)
include hl hnd hb

theorem Between.progress (hn : Near n hyb i d d') (hp : InProgress W n m hyb (old.files (instancesPath n)) old d' i) : Progress W n m hyb l old d' := by
  subst hl
  refine ⟨hn.instances.trans hb.same, a, i :: r, rfl, fun j hj => ?_, fun j hj => ?_, fun j hj => ?_⟩
  · have hji : j ≠ i := by
      rintro rfl
      exact (List.nodup_append.1 hnd).2.2 _ hj _ List.mem_cons_self rfl
    exact solved_congr (hb.solved j hj) (hn.other hji).1 (hn.other hji).2
  · simp at hj; subst hj; exact hp
  · simp only [List.tail_cons] at hj
    have hji : j ≠ i := by
      rintro rfl
      exact (List.nodup_cons.1 (List.nodup_append.1 hnd).2.1).1 hj
    have := hb.todo j (List.mem_cons_of_mem _ hj)
    exact ⟨(hn.other hji).1.trans this.1, (hn.other hji).2.trans this.2⟩

/-- the round is over -/
theorem Between.next (hn : Near n hyb i d d') (hs : Solved W n m hyb (old.files (instancesPath n)) d' i) (ht : hyb = true → d'.files (tempPath n) = none) : Between W n m hyb old (a ++ [i]) r d' := by
  subst hl
  refine ⟨hn.instances.trans hb.same, fun j hj => ?_, fun j hj => ?_, hn.1.trans hb.exe, fun h _ => ht h⟩
  · rcases List.mem_append.1 hj with hja | hj
    · have hji : j ≠ i := by
        rintro rfl
        exact (List.nodup_append.1 hnd).2.2 _ hja _ List.mem_cons_self rfl
      exact solved_congr (hb.solved j hja) (hn.other hji).1 (hn.other hji).2
    · simp at hj; subst hj; exact hs
  · have hji : j ≠ i := by
      rintro rfl
      exact (List.nodup_cons.1 (List.nodup_append.1 hnd).2.1).1 hj
    have := hb.todo j (List.mem_cons_of_mem _ hj)
    exact ⟨(hn.other hji).1.trans this.1, (hn.other hji).2.trans this.2⟩

omit hnd hb in
theorem own_matrix : Own n hyb l (matrixPath n i) := Or.inr ⟨i, by rw [hl]; simp, Or.inl rfl⟩
omit hnd hb in
theorem own_result : Own n hyb l (resultPath n hyb i) := Or.inr ⟨i, by rw [hl]; simp, Or.inr rfl⟩

/-- the end of a round -/
theorem safe_finish {line : Text} {cities : List (ℚ × ℚ)} {csv out : Text} {k : Proc} (hi : IsInstance W (old.files (instancesPath n)) i line cities) (hm : MatrixOf W n m hyb line cities csv)
    (hs : W.solver (n, hyb) (some csv) out) (hn : Near n hyb i d d') (h1 : d'.files (matrixPath n i) = some csv) (h2 : d'.files (resultPath n hyb i) = some out)
    (ht : hyb = true → d'.files (tempPath n) = none) (hk : ∀ e, Between W n m hyb old (a ++ [i]) r e → RunSafe W n m hyb l old k e) :
    RunSafe W n m hyb l old (finishProc W n hyb i cities k) d' := by
  have hJ : ∀ {e : Disk} {t : Text}, Near n hyb i d e → e.files (matrixPath n i) = some csv → e.files (resultPath n hyb i) = some t →
      (t <+: out ∨ ∃ wall, W.clock wall ∧ t <+: out ++ driverText (cities.map fun q => (W.fmt q.1, W.fmt q.2)) wall) → Progress W n m hyb l old e :=
    fun hn h1 h2 h3 => hb.progress hl hnd hn (Or.inr (Or.inr ⟨line, cities, csv, out, _, hi, hm, hs, h1, h2, h3⟩))
  refine ⟨hJ hn h1 h2 (Or.inl List.prefix_rfl), fun hT => hT.clock, fun wall hw => ?_⟩
  refine ⟨hJ hn h1 h2 (Or.inl List.prefix_rfl), own_result hl, ?_⟩
  have hn2 := hn.set (p := resultPath n hyb i) (Or.inr (Or.inl rfl)) (some ((d'.files (resultPath n hyb i)).getD []))
  have g1 : (d'.set (resultPath n hyb i) (some ((d'.files (resultPath n hyb i)).getD []))).files (matrixPath n i) = some csv := by
    rw [Disk.set_other _ _ (matrix_ne_result _ _ _ _ _), h1]
  have g2 : (d'.set (resultPath n hyb i) (some ((d'.files (resultPath n hyb i)).getD []))).files (resultPath n hyb i) = some out := by
    rw [Disk.set_same, h2]; rfl
  have gt : hyb = true → (d'.set (resultPath n hyb i) (some ((d'.files (resultPath n hyb i)).getD []))).files (tempPath n) = none := by
    intro h
    rw [Disk.set_other _ _ (result_ne_temp _ _ _ _).symm, ht h]
  generalize d'.set (resultPath n hyb i) (some ((d'.files (resultPath n hyb i)).getD [])) = e at hn2 g1 g2 gt
  have k1 : ∀ t, (e.add (resultPath n hyb i) t).files (matrixPath n i) = some csv := fun t => by rw [Disk.add_other _ _ (matrix_ne_result _ _ _ _ _), g1]
  have k2 : ∀ t, (e.add (resultPath n hyb i) t).files (resultPath n hyb i) = some (out ++ t) := fun t => by rw [Disk.add_same, g2]; rfl
  refine ⟨own_result hl, fun x y hxy => ?_, hk _ ?_⟩
  · refine hJ (hn2.add (Or.inr (Or.inl rfl)) _) (k1 x) (k2 x) (Or.inr ⟨wall, hw, ?_⟩)
    rw [List.prefix_append_right_inj]
    exact ⟨y, hxy⟩
  · refine hb.next hl hnd (hn2.add (Or.inr (Or.inl rfl)) _) ⟨line, cities, csv, out, wall, hi, hm, hs, hw, k1 _, k2 _⟩ fun h => ?_
    rw [Disk.add_other _ _ (result_ne_temp _ _ _ _).symm, gt h]

/-- the solver -/
theorem safe_solver {line : Text} {cities : List (ℚ × ℚ)} {csv : Text} {k : Proc} (hi : IsInstance W (old.files (instancesPath n)) i line cities) (hm : MatrixOf W n m hyb line cities csv)
    (hn : Near n hyb i d d') (h1 : d'.files (matrixPath n i) = some csv) (h2 : d'.files (resultPath n hyb i) = old.files (resultPath n hyb i))
    (hk : ∀ e out, W.solver (n, hyb) (some csv) out → Near n hyb i d e → e.files (matrixPath n i) = some csv → e.files (resultPath n hyb i) = some out →
      (e.files (tempPath n) = d'.files (tempPath n)) → RunSafe W n m hyb l old k e) :
    RunSafe W n m hyb l old (solverProc W n hyb i k) d' := by
  refine ⟨hb.progress hl hnd hn (Or.inl h2), hn.1.trans hb.exe, hb.progress hl hnd hn (Or.inl h2), own_result hl, ?_⟩
  have hn2 := hn.set (p := resultPath n hyb i) (Or.inr (Or.inl rfl)) (some [])
  have g1 : (d'.set (resultPath n hyb i) (some [])).files (matrixPath n i) = some csv := by rw [Disk.set_other _ _ (matrix_ne_result _ _ _ _ _), h1]
  have g2 : (d'.set (resultPath n hyb i) (some [])).files (resultPath n hyb i) = some [] := Disk.set_same _ _ _
  have gt : (d'.set (resultPath n hyb i) (some [])).files (tempPath n) = d'.files (tempPath n) := Disk.set_other _ _ (result_ne_temp _ _ _ _).symm
  generalize d'.set (resultPath n hyb i) (some []) = e at hn2 g1 g2 gt
  have hJ0 := hb.progress hl hnd hn2 (Or.inr (Or.inl g2))
  refine ⟨hJ0, Or.inr (own_matrix hl), hJ0, fun hT => hT.solver _ _, ?_⟩
  rw [g1]
  intro out hs
  have k1 : ∀ t, (e.add (resultPath n hyb i) t).files (matrixPath n i) = some csv := fun t => by rw [Disk.add_other _ _ (matrix_ne_result _ _ _ _ _), g1]
  have k2 : ∀ t, (e.add (resultPath n hyb i) t).files (resultPath n hyb i) = some t := fun t => by rw [Disk.add_same, g2]; rfl
  refine ⟨own_result hl, fun x y hxy => ?_, ?_⟩
  · exact hb.progress hl hnd (hn2.add (Or.inr (Or.inl rfl)) _) (Or.inr (Or.inr ⟨line, cities, csv, out, x, hi, hm, hs, k1 x, k2 x, Or.inl ⟨y, hxy⟩⟩))
  · exact hk _ out hs (hn2.add (Or.inr (Or.inl rfl)) _) (k1 _) (k2 _) (by rw [Disk.add_other _ _ (result_ne_temp _ _ _ _).symm, gt])

/-- a file of the round other than the result file written -/
theorem safe_write {p t : Text} {k : Proc} (hp : p = matrixPath n i ∨ (hyb = true ∧ p = tempPath n)) (hn : Near n hyb i d d') (h2 : d'.files (resultPath n hyb i) = old.files (resultPath n hyb i))
    (hk : ∀ e, Near n hyb i d e → e.files p = some t → e.files (resultPath n hyb i) = old.files (resultPath n hyb i) → (∀ q, q ≠ p → e.files q = d'.files q) → RunSafe W n m hyb l old k e) :
    RunSafe W n m hyb l old (writeFile p t k) d' := by
  have hp' : p = matrixPath n i ∨ p = resultPath n hyb i ∨ (hyb = true ∧ p = tempPath n) := by tauto
  have hne : resultPath n hyb i ≠ p := by
    rcases hp with rfl | ⟨-, rfl⟩
    · exact (matrix_ne_result _ _ _ _ _).symm
    · exact result_ne_temp _ _ _ _
  have ho : Own n hyb l p := by
    rcases hp with rfl | hp
    · exact own_matrix hl
    · exact Or.inl hp
  refine ⟨hb.progress hl hnd hn (Or.inl h2), ho, ho, fun x y hxy => ?_, ?_⟩
  · exact hb.progress hl hnd ((hn.set hp' _).add hp' _) (Or.inl (by rw [Disk.add_other _ _ hne, Disk.set_other _ _ hne, h2]))
  · refine hk _ ((hn.set hp' _).add hp' _) (by rw [Disk.add_same, Disk.set_same]; rfl) (by rw [Disk.add_other _ _ hne, Disk.set_other _ _ hne, h2]) fun q hq => ?_
    rw [Disk.add_other _ _ hq, Disk.set_other _ _ hq]

/-- the network -/
theorem safe_network {line : Text} {cities : List (ℚ × ℚ)} {k : Proc} (hh : hyb = true)
    (hn : Near n hyb i d d') (ht : d'.files (tempPath n) = some line) (h2 : d'.files (resultPath n hyb i) = old.files (resultPath n hyb i))
    (hk : ∀ e csv, MatrixOf W n m hyb line cities csv → Near n hyb i d e → e.files (matrixPath n i) = some csv → e.files (resultPath n hyb i) = old.files (resultPath n hyb i) →
      e.files (tempPath n) ≠ none → RunSafe W n m hyb l old k e) :
    RunSafe W n m hyb l old (networkProc W n m i k) d' := by
  have hJ := hb.progress hl hnd hn (Or.inl h2)
  refine ⟨hJ, fun hf => Or.inr (Or.inl ⟨hh, hf⟩), hJ, Or.inr (Or.inl ⟨hh, rfl⟩), ?_⟩
  rw [ht]
  show Safe _ _ _ _ _ _ _ (if n = m then _ else _) _
  by_cases hnm : n = m
  · rw [if_pos hnm]
    refine ⟨hJ, fun hT => hT.network _ _ _ _, fun csv hc => safe_write hl hnd hb (Or.inl rfl) hn h2 fun e hne he hr hq => hk e csv ?_ hne he hr ?_⟩
    · rw [MatrixOf, if_pos hh]; exact ⟨line, by rw [if_pos hnm], hc⟩
    · rw [hq _ (matrix_ne_temp _ _ _).symm, ht]; simp
  · rw [if_neg hnm]
    refine ⟨hJ, fun hT => hT.resize _ _ _, fun t' ht' => safe_write hl hnd hb (Or.inr ⟨hh, rfl⟩) hn h2 fun e hne he hr hq => ?_⟩
    have hJ2 := hb.progress hl hnd hne (Or.inl hr)
    refine ⟨hJ2, Or.inr (Or.inl ⟨hh, rfl⟩), ?_⟩
    rw [he]
    refine ⟨hJ2, fun hT => hT.network _ _ _ _, fun csv hc => safe_write hl hnd hb (Or.inl rfl) hne hr fun e2 hne2 he2 hr2 hq2 => hk e2 csv ?_ hne2 he2 hr2 ?_⟩
    · rw [MatrixOf, if_pos hh]; exact ⟨t', by rw [if_neg hnm]; exact ht', hc⟩
    · rw [hq2 _ (matrix_ne_temp _ _ _).symm, he]; simp

/-- one round -/
theorem safe_round {k : Proc} (h1 : 1 ≤ i) (hk : ∀ e, Between W n m hyb old (a ++ [i]) r e → RunSafe W n m hyb l old k e) : RunSafe W n m hyb l old (roundProc W n m hyb i k) d := by
  have hr : d.files (resultPath n hyb i) = old.files (resultPath n hyb i) := (hb.todo i List.mem_cons_self).2
  have hJ := hb.progress hl hnd (Near.refl i d) (Or.inl hr)
  have hbad : (∀ line cities, ¬ IsInstance W (old.files (instancesPath n)) i line cities) → Cause W n hyb l old := fun h => Or.inr (Or.inr ⟨i, by rw [hl]; simp, h⟩)
  refine ⟨hJ, Or.inl rfl, ?_⟩
  rw [hb.same]
  cases ho : old.files (instancesPath n) with
  | none =>
    refine ⟨hJ, hbad fun line cities h => ?_⟩
    obtain ⟨-, t, e, -⟩ := h
    rw [ho] at e; cases e
  | some text =>
    cases hg : getInstance W.float text i with
    | error f =>
      simp only [hg]
      refine ⟨hJ, hbad fun line cities h => ?_⟩
      rw [ho] at h
      rw [← getInstance_spec h1, hg] at h
      cases h
    | ok lc =>
      obtain ⟨line, cities⟩ := lc
      simp only [hg]
      have hi : IsInstance W (old.files (instancesPath n)) i line cities := by rw [ho]; exact (getInstance_spec h1).1 hg
      by_cases hh : hyb = true
      · rw [if_pos hh]
        refine safe_write hl hnd hb (Or.inr ⟨hh, rfl⟩) (Near.refl i d) hr fun e hne he her hq => ?_
        refine safe_network hl hnd hb (cities := cities) hh hne he her fun e2 csv hm hne2 he2 her2 het2 => ?_
        refine safe_solver hl hnd hb hi hm hne2 he2 her2 fun e3 out hs hne3 he3 her3 het3 => ?_
        refine ⟨hb.progress hl hnd hne3 (Or.inr (Or.inr ⟨line, cities, csv, out, out, hi, hm, hs, he3, her3, Or.inl List.prefix_rfl⟩)), Or.inl ⟨hh, rfl⟩, by rw [het3]; exact het2, ?_⟩
        refine safe_finish hl hnd hb hi hm hs (hne3.set (Or.inr (Or.inr ⟨hh, rfl⟩)) none) ?_ ?_ (fun _ => Disk.set_same _ _ _) hk
        · rw [Disk.set_other _ _ (matrix_ne_temp _ _ _), he3]
        · rw [Disk.set_other _ _ (result_ne_temp _ _ _ _), her3]
      · rw [if_neg hh]
        refine safe_write hl hnd hb (Or.inl rfl) (Near.refl i d) hr fun e hne he her hq => ?_
        have hm : MatrixOf W n m hyb line cities (classicText W.fmt cities (adjacencyMatrix W.dist cities)) := by rw [MatrixOf, if_neg hh]
        refine safe_solver hl hnd hb hi hm hne he her fun e3 out hs hne3 he3 her3 het3 => ?_
        exact safe_finish hl hnd hb hi hm hs hne3 he3 her3 (fun h => absurd h hh) hk

end round

theorem safe_loop (hnd : l.Nodup) (hpos : ∀ i ∈ l, 1 ≤ i) : ∀ (b a : List Int) (d : Disk), l = a ++ b → Between W n m hyb old a b d → RunSafe W n m hyb l old (loopProc W n m hyb b) d := by
  intro b
  induction b with
  | nil =>
    intro a d hl hb
    rw [List.append_nil] at hl
    subst hl
    refine ⟨⟨hb.same, l, [], by simp, hb.solved, by simp, by simp⟩, hb.solved, fun h1 h2 => hb.temp h1 h2⟩
  | cons i r ih =>
    intro a d hl hb
    exact safe_round hl hnd hb (hpos i (by rw [hl]; simp)) fun e he => ih (a ++ [i]) e (by rw [hl]; simp) he

end

end Verif
