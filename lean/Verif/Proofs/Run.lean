import Verif.Spec.RunSpec
import Verif.Proofs.ResultText
import Verif.Props.Driver

/-!
# Processes that own their files
-/
namespace Verif
open Verif.Spec
set_option autoImplicit false

/-! ### Names of files -/

theorem natText_inj {a b : Nat} (h : natText a = natText b) : a = b := by rw [← digitsVal_natText a, h, digitsVal_natText]

theorem natText_no_minus (n : Nat) (r : List Char) : natText n ≠ '-' :: r := by
  intro h
  have := natText_digits n
  have h1 := this.2 '-' (by rw [h]; exact List.mem_cons_self)
  revert h1; decide

theorem intText_inj {a b : Int} (h : intText a = intText b) : a = b := by
  cases a with
  | ofNat a => cases b with
    | ofNat b => simp only [intText] at h; rw [natText_inj h]
    | negSucc b => simp only [intText] at h; exact absurd h (natText_no_minus _ _)
  | negSucc a => cases b with
    | ofNat b => simp only [intText] at h; exact absurd h.symm (natText_no_minus _ _)
    | negSucc b => 
      simp only [intText, List.cons.injEq, true_and] at h
      have := natText_inj h
      congr 1; omega

theorem matrixPath_inj {n : Nat} {i j : Int} (h : matrixPath n i = matrixPath n j) : i = j := by
  unfold matrixPath at h
  exact intText_inj (List.append_cancel_left (List.append_cancel_right h))

theorem resultPath_inj {n : Nat} {hyb : Bool} {i j : Int} (h : resultPath n hyb i = resultPath n hyb j) : i = j := by
  unfold resultPath at h
  exact intText_inj (List.append_cancel_left (List.append_cancel_right h))

theorem result_modes (n n' : Nat) (i j : Int) : resultPath n false i ≠ resultPath n' true j := by
  have hd : ∀ m : Nat, 'b' ∉ natText m := by
    intro m h
    have := (natText_digits m).2 _ h
    revert this; decide
  have hi : 'b' ∉ intText i := by
    cases i with
    | ofNat a => exact hd a
    | negSucc a =>
      simp only [intText, List.mem_cons, not_or]
      exact ⟨by decide, hd _⟩
  intro h
  have h1 : 'b' ∈ resultPath n' true j := by simp [resultPath]
  rw [← h] at h1
  simp [resultPath, hd, hi] at h1

theorem matrix_ne_result (n n' : Nat) (hyb : Bool) (i j : Int) : matrixPath n i ≠ resultPath n' hyb j := by
  intro h; simp [matrixPath, resultPath] at h

theorem matrix_ne_instances (n n' : Nat) (i : Int) : matrixPath n i ≠ instancesPath n' := by
  intro h; simp [matrixPath, instancesPath] at h

theorem result_ne_instances (n n' : Nat) (hyb : Bool) (i : Int) : resultPath n hyb i ≠ instancesPath n' := by
  intro h; simp [resultPath, instancesPath] at h

theorem matrix_ne_temp (n n' : Nat) (i : Int) : matrixPath n i ≠ tempPath n' := by
  intro h; simp [matrixPath, tempPath] at h

theorem result_ne_temp (n n' : Nat) (hyb : Bool) (i : Int) : resultPath n hyb i ≠ tempPath n' := by
  intro h; simp [resultPath, tempPath] at h

theorem temp_ne_instances (n : Nat) : tempPath n ≠ instancesPath n := by
  intro h
  unfold tempPath instancesPath at h
  rw [List.append_assoc, List.append_assoc] at h
  have := List.append_cancel_left (List.append_cancel_left h)
  revert this; decide

/-! ### The disk -/

@[simp] theorem Disk.set_same (d : Disk) (p : Text) (t : Option Text) : (d.set p t).files p = t := by simp [Disk.set]
theorem Disk.set_other (d : Disk) {p q : Text} (t : Option Text) (h : q ≠ p) : (d.set p t).files q = d.files q := by simp [Disk.set, h]
@[simp] theorem Disk.set_exe (d : Disk) (p : Text) (t : Option Text) : (d.set p t).exe = d.exe := rfl
@[simp] theorem Disk.add_same (d : Disk) (p t : Text) : (d.add p t).files p = (d.files p).map (· ++ t) := by simp [Disk.add]
theorem Disk.add_other (d : Disk) {p q : Text} (t : Text) (h : q ≠ p) : (d.add p t).files q = d.files q := by simp [Disk.add, Disk.set, h]
@[simp] theorem Disk.add_exe (d : Disk) (p t : Text) : (d.add p t).exe = d.exe := rfl

theorem Disk.add_nil (d : Disk) (p : Text) : d.add p [] = d := by
  unfold Disk.add Disk.set
  cases d with
  | mk f e =>
    congr 1
    funext q
    by_cases h : q = p
    · subst h; simp
    · simp [h]

theorem Disk.add_add (d : Disk) (p a b : Text) : (d.add p a).add p b = d.add p (a ++ b) := by
  unfold Disk.add Disk.set
  congr 1
  funext q
  by_cases h : q = p
  · subst h; cases d.files q <;> simp
  · simp [h]

/-! ### Safe processes -/

section
variable (rd wr : Text → Prop) (cfg : Nat × Bool) (J Q : Disk → Prop) (E : Prop) (W : World)

/-- the process, run from the disk `d`, reads only the files `rd`, changes only the files `wr`, builds and starts only the program `cfg`, keeps `J` at every moment, ends with `Q`, and raises an exception only if `E`; it waits only for results that exist in a total world -/
def Safe : Proc → Disk → Prop
  | .done, d => J d ∧ Q d
  | .raised, d => J d ∧ E
  | .build c k, d => J d ∧ (W.buildFails → E) ∧ c = cfg ∧ Safe k { d with exe := some c }
  | .mayFail k, d => J d ∧ (W.networkFails → E) ∧ Safe k d
  | .truncate p k, d => J d ∧ wr p ∧ Safe k (d.set p (some []))
  | .openAppend p k, d => J d ∧ wr p ∧ Safe k (d.set p (some ((d.files p).getD [])))
  | .write p t k, d => wr p ∧ (∀ a b, a ++ b = t → J (d.add p a)) ∧ Safe k (d.add p t)
  | .readFile p k, d => J d ∧ rd p ∧ Safe (k (d.files p)) d
  | .remove p k, d => J d ∧ wr p ∧ d.files p ≠ none ∧ Safe k (d.set p none)
  | .loadExe k, d => J d ∧ d.exe = some cfg ∧ Safe (k (some cfg)) d
  | .outcome P k, d => J d ∧ (Total W → ∃ t, P t) ∧ ∀ t, P t → Safe (k t) d

variable {rd wr cfg J Q E W}

theorem Safe.inv {P : Proc} {d : Disk} (h : Safe rd wr cfg J Q E W P d) : J d := by
  cases P with
  | write p t k => have := h.2.1 [] t rfl; rwa [Disk.add_nil] at this
  | _ => exact h.1

theorem Safe.step {P P' : Proc} {d d' : Disk} (h : Safe rd wr cfg J Q E W P d) (hs : Step W (P, d) (P', d')) :
    Safe rd wr cfg J Q E W P' d' ∧ (∀ p, ¬ wr p → d'.files p = d.files p) ∧ (d'.exe = d.exe ∨ d'.exe = some cfg) := by
  cases hs with
  | build c k d => exact ⟨h.2.2.2, fun _ _ => rfl, Or.inr (by rw [← h.2.2.1])⟩
  | buildFails c k d hb => exact ⟨⟨h.1, h.2.1 hb⟩, fun _ _ => rfl, Or.inl rfl⟩
  | passes k d => exact ⟨h.2.2, fun _ _ => rfl, Or.inl rfl⟩
  | fails k d hb => exact ⟨⟨h.1, h.2.1 hb⟩, fun _ _ => rfl, Or.inl rfl⟩
  | truncate p k d => exact ⟨h.2.2, fun q hq => Disk.set_other _ _ fun e => hq (e ▸ h.2.1), Or.inl rfl⟩
  | openAppend p k d => exact ⟨h.2.2, fun q hq => Disk.set_other _ _ fun e => hq (e ▸ h.2.1), Or.inl rfl⟩
  | piece p a b k d hne =>
    refine ⟨⟨h.1, ?_, ?_⟩, fun q hq => Disk.add_other _ _ fun e => hq (e ▸ h.1), Or.inl rfl⟩
    · intro a' b' e
      rw [Disk.add_add]
      exact h.2.1 (a ++ a') b' (by rw [List.append_assoc, e])
    · rw [Disk.add_add]; exact h.2.2
  | written p k d => 
    have := h.2.2
    rw [Disk.add_nil] at this
    exact ⟨this, fun _ _ => rfl, Or.inl rfl⟩
  | readFile p k d => exact ⟨h.2.2, fun _ _ => rfl, Or.inl rfl⟩
  | remove p k d hn => exact ⟨h.2.2.2, fun q hq => Disk.set_other _ _ fun e => hq (e ▸ h.2.1), Or.inl rfl⟩
  | missing p k d hn => exact absurd hn h.2.2.1
  | loadExe k d => 
    have := h.2.2
    rw [← h.2.1] at this
    exact ⟨this, fun _ _ => rfl, Or.inl rfl⟩
  | outcome P k d t hp => exact ⟨h.2.2 t hp, fun _ _ => rfl, Or.inl rfl⟩

theorem Safe.moves (hT : Total W) {P : Proc} {d : Disk} (h : Safe rd wr cfg J Q E W P d) : P = .done ∨ P = .raised ∨ ∃ P' d', Step W (P, d) (P', d') := by
  cases P with
  | done => exact Or.inl rfl
  | raised => exact Or.inr (Or.inl rfl)
  | build c k => exact Or.inr (Or.inr ⟨_, _, .build _ _ _⟩)
  | mayFail k => exact Or.inr (Or.inr ⟨_, _, .passes _ _⟩)
  | truncate p k => exact Or.inr (Or.inr ⟨_, _, .truncate _ _ _⟩)
  | openAppend p k => exact Or.inr (Or.inr ⟨_, _, .openAppend _ _ _⟩)
  | write p t k =>
    right; right
    cases t with
    | nil => exact ⟨_, _, .written _ _ _⟩
    | cons ch t => 
      have := Step.piece (W := W) p (ch :: t) [] k d (by simp)
      rw [List.append_nil] at this
      exact ⟨_, _, this⟩
  | readFile p k => exact Or.inr (Or.inr ⟨_, _, .readFile _ _ _⟩)
  | remove p k => exact Or.inr (Or.inr ⟨_, _, .remove _ _ _ h.2.2.1⟩)
  | loadExe k => exact Or.inr (Or.inr ⟨_, _, .loadExe _ _⟩)
  | outcome P k =>
    obtain ⟨t, ht⟩ := h.2.1 hT
    exact Or.inr (Or.inr ⟨_, _, .outcome _ _ _ t ht⟩)

theorem Safe.steps {P P' : Proc} {d d' : Disk} (h : Safe rd wr cfg J Q E W P d) (hs : Steps W (P, d) (P', d')) :
    Safe rd wr cfg J Q E W P' d' ∧ ∀ p, ¬ wr p → d'.files p = d.files p := by
  have key : ∀ x y : Proc × Disk, Steps W x y → Safe rd wr cfg J Q E W x.1 x.2 → Safe rd wr cfg J Q E W y.1 y.2 ∧ ∀ p, ¬ wr p → y.2.files p = x.2.files p := by
    intro x y hxy hx
    induction hxy with
    | refl => exact ⟨hx, fun _ _ => rfl⟩
    | tail _ hstep ih =>
      obtain ⟨h1, h2, -⟩ := ih.1.step hstep
      exact ⟨h1, fun p hp => (h2 p hp).trans (ih.2 p hp)⟩
  exact key _ _ hs h

/-- two disks that agree on the files `rd`, on which the second may have got the program `cfg` -/
def Agree (rd : Text → Prop) (cfg : Nat × Bool) (d d' : Disk) : Prop := (∀ p, rd p → d'.files p = d.files p) ∧ (d'.exe = d.exe ∨ d'.exe = some cfg)

theorem Agree.set {d d' : Disk} (h : Agree rd cfg d d') (p : Text) (t : Option Text) : Agree rd cfg (d.set p t) (d'.set p t) := by
  refine ⟨fun q hq => ?_, h.2⟩
  by_cases e : q = p
  · subst e; simp
  · rw [Disk.set_other _ _ e, Disk.set_other _ _ e, h.1 q hq]

theorem Agree.add {d d' : Disk} (h : Agree rd cfg d d') {p : Text} (hp : rd p) (t : Text) : Agree rd cfg (d.add p t) (d'.add p t) := by
  unfold Disk.add
  rw [h.1 p hp]
  exact h.set p _

/-- other processes may change the other files -/
theorem Safe.congr (hw : ∀ p, wr p → rd p) (hJ : ∀ d d', Agree rd cfg d d' → J d → J d') (hQ : ∀ d d', Agree rd cfg d d' → Q d → Q d') {P : Proc} :
    ∀ {d d' : Disk}, Agree rd cfg d d' → Safe rd wr cfg J Q E W P d → Safe rd wr cfg J Q E W P d' := by
  induction P with
  | done => exact fun ha h => ⟨hJ _ _ ha h.1, hQ _ _ ha h.2⟩
  | raised => exact fun ha h => ⟨hJ _ _ ha h.1, h.2⟩
  | build c k ih =>
    intro d d' ha h
    have ha' : Agree rd cfg { d with exe := some c } { d' with exe := some c } := ⟨ha.1, Or.inl rfl⟩
    exact ⟨hJ _ _ ha h.1, h.2.1, h.2.2.1, ih ha' h.2.2.2⟩
  | mayFail k ih => exact fun ha h => ⟨hJ _ _ ha h.1, h.2.1, ih ha h.2.2⟩
  | truncate p k ih => exact fun ha h => ⟨hJ _ _ ha h.1, h.2.1, ih (ha.set _ _) h.2.2⟩
  | openAppend p k ih =>
    intro d d' ha h
    refine ⟨hJ _ _ ha h.1, h.2.1, ?_⟩
    rw [ha.1 p (hw p h.2.1)]
    exact ih (ha.set _ _) h.2.2
  | write p t k ih => exact fun ha h => ⟨h.1, fun a b e => hJ _ _ (ha.add (hw p h.1) a) (h.2.1 a b e), ih (ha.add (hw p h.1) _) h.2.2⟩
  | readFile p k ih =>
    intro d d' ha h
    refine ⟨hJ _ _ ha h.1, h.2.1, ?_⟩
    rw [ha.1 p h.2.1]
    exact ih _ ha h.2.2
  | remove p k ih =>
    intro d d' ha h
    exact ⟨hJ _ _ ha h.1, h.2.1, by rw [ha.1 p (hw p h.2.1)]; exact h.2.2.1, ih (ha.set _ _) h.2.2.2⟩
  | loadExe k ih =>
    intro d d' ha h
    refine ⟨hJ _ _ ha h.1, ?_, ih _ ha h.2.2⟩
    rcases ha.2 with e | e
    · rw [e, h.2.1]
    · exact e
  | outcome P k ih => exact fun ha h => ⟨hJ _ _ ha h.1, h.2.1, fun t ht => ih t ha (h.2.2 t ht)⟩

end

/-- several safe processes for the same program, each of which changes no file that another one uses -/
theorem Safe.system {W : World} {N : Nat} {rd wr : Fin N → Text → Prop} {cfg : Nat × Bool} {J Q : Fin N → Disk → Prop} {E : Fin N → Prop} (hw : ∀ j p, wr j p → rd j p)
    (hJ : ∀ j d d', Agree (rd j) cfg d d' → J j d → J j d') (hQ : ∀ j d d', Agree (rd j) cfg d d' → Q j d → Q j d') (hdis : ∀ j j', j ≠ j' → ∀ p, wr j p → ¬ rd j' p) {x y : (Fin N → Proc) × Disk} (hs : SysSteps W x y)
    (h : ∀ j, Safe (rd j) (wr j) cfg (J j) (Q j) (E j) W (x.1 j) x.2) :
    (∀ j, Safe (rd j) (wr j) cfg (J j) (Q j) (E j) W (y.1 j) y.2) ∧ ∀ p, (∀ j, ¬ wr j p) → y.2.files p = x.2.files p := by
  induction hs with
  | refl => exact ⟨h, fun _ _ => rfl⟩
  | tail _ hstep ih =>
    cases hstep with
    | step j s P d d' hst =>
      obtain ⟨h1, h2, h3⟩ := (ih.1 j).step hst
      refine ⟨fun j' => ?_, fun p hp => (h2 p (hp j)).trans (ih.2 p hp)⟩
      by_cases e : j' = j
      · subst e
        simp only [Function.update_self]
        exact h1
      · simp only [Function.update_of_ne e]
        refine (ih.1 j').congr (hw j') (hJ j') (hQ j') ⟨fun p hp => h2 p fun hwp => hdis j j' (Ne.symm e) p hwp hp, h3⟩

end Verif
