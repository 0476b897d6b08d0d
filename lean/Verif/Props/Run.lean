import Verif.Proofs.RunLoop

/-!
# C90, C91, C92: what runs of the driver leave on the disk, after crashes and at the same time
-/
namespace Verif
open Verif.Spec
set_option autoImplicit false

theorem splitOnP_clean {α : Type} (p : α → Bool) : ∀ (l t : List α), t ∈ l.splitOnP p → ∀ ch ∈ t, p ch = false := by
  intro l
  induction l with
  | nil => intro t ht ch hch; simp at ht; subst ht; cases hch
  | cons x l ih =>
    intro t ht ch hch
    rw [List.splitOnP_cons] at ht
    split at ht
    · rcases List.mem_cons.1 ht with rfl | ht
      · cases hch
      · exact ih t ht ch hch
    · rename_i hx
      cases hs : l.splitOnP p with
      | nil => rw [hs] at ht; simp at ht
      | cons u us =>
        rw [hs, List.modifyHead_cons] at ht
        rcases List.mem_cons.1 ht with rfl | ht
        · rcases List.mem_cons.1 hch with rfl | hch
          · simpa using hx
          · exact ih u (by rw [hs]; exact List.mem_cons_self) ch hch
        · exact ih t (by rw [hs]; exact List.mem_cons_of_mem _ ht) ch hch

/-- the instances of a run are numbered from 1 on and come once each -/
theorem instanceRange_ok {int : Text → Option Int} (hint : IntReader int) {range : Text} {l : List Int} (h : instanceRange int range = .ok l) : l.Nodup ∧ ∀ i ∈ l, 1 ≤ i := by
  have hs : ∀ a b : Int, (pyRange a b).Nodup := fun a b => (pyRange_sorted a b).imp fun h => ne_of_lt h
  unfold instanceRange at h
  split at h
  · split at h
    · rename_i a b rest hm
      cases h
      refine ⟨hs _ _, fun i hi => ?_⟩
      have h1 := (mem_pyRange.1 hi).1
      obtain ⟨t, ht⟩ : ∃ t r, range.splitOn '-' = t :: r := by
        cases hsp : range.splitOn '-' with
        | nil => rw [hsp] at hm; simp at hm
        | cons t r => exact ⟨t, r, rfl⟩
      obtain ⟨r, ht⟩ := ht
      rw [ht, List.map_cons] at hm
      have e : int t = some a := (List.cons.inj hm).1
      have : 0 ≤ a := hint t a (fun hmin => by
        have := splitOnP_clean (· == '-') range t (by show t ∈ range.splitOn '-'; rw [ht]; exact List.mem_cons_self) '-' hmin
        simp at this) e
      split at h1 <;> omega
    · cases h
  · split at h
    · cases h
      refine ⟨hs _ _, fun i hi => (mem_pyRange.1 hi).1⟩
    · cases h

/-- the size of the network: none in classic mode -/
def Spec.netSize (n : Nat) (hyb : Bool) : Res Nat := if hyb then modelSize n else .ok n

section
variable {W : World} {n m : Nat} {hyb : Bool} {l : List Int} {old : Disk}

theorem progress_start (d : Disk) (h : ∀ p, Reads n hyb l p → d.files p = old.files p) : Progress W n m hyb l old d := by
  refine ⟨h _ (Or.inl rfl), [], l, rfl, by simp, fun i hi => Or.inl (h _ (Or.inr (Or.inr ⟨i, List.mem_of_mem_head? hi, Or.inr rfl⟩))), fun i hi => ?_⟩
  have := List.mem_of_mem_tail hi
  exact ⟨h _ (Or.inr (Or.inr ⟨i, this, Or.inl rfl⟩)), h _ (Or.inr (Or.inr ⟨i, this, Or.inr rfl⟩))⟩

theorem safe_driver (hint : IntReader W.int) {range : Text} (hm : netSize n hyb = .ok m) (hl : instanceRange W.int range = .ok l) (d : Disk) : RunSafe W n m hyb l d (driverProc W range n hyb) d := by
  obtain ⟨hnd, hpos⟩ := instanceRange_ok hint hl
  unfold driverProc
  rw [netSize] at hm
  rw [hm]
  simp only [hl]
  refine ⟨progress_start _ fun _ _ => rfl, Or.inl, rfl, ?_⟩
  exact safe_loop hnd hpos l [] _ rfl ⟨rfl, by simp, fun i _ => ⟨rfl, rfl⟩, rfl, fun _ h => absurd rfl h⟩

theorem agree_solved {text : Option Text} {d d' : Disk} (h : ∀ p, Reads n hyb l p → d'.files p = d.files p) {i : Int} (hi : i ∈ l) (hs : Solved W n m hyb text d i) : Solved W n m hyb text d' i :=
  solved_congr hs (h _ (Or.inr (Or.inr ⟨i, hi, Or.inl rfl⟩))) (h _ (Or.inr (Or.inr ⟨i, hi, Or.inr rfl⟩)))

theorem agree_progress {cfg : Nat × Bool} (d d' : Disk) (h : Agree (Reads n hyb l) cfg d d') (hp : Progress W n m hyb l old d) : Progress W n m hyb l old d' := by
  obtain ⟨hs, a, b, hab, h1, h2, h3⟩ := hp
  refine ⟨(h.1 _ (Or.inl rfl)).trans hs, a, b, hab, fun i hi => agree_solved h.1 (by rw [hab]; simp [hi]) (h1 i hi), fun i hi => ?_, fun i hi => ?_⟩
  · have hil : i ∈ l := by rw [hab]; exact List.mem_append_right _ (List.mem_of_mem_head? hi)
    have e1 := h.1 _ (Or.inr (Or.inr ⟨i, hil, Or.inl rfl⟩))
    have e2 := h.1 _ (Or.inr (Or.inr ⟨i, hil, Or.inr rfl⟩))
    have := h2 i hi
    unfold InProgress at this ⊢
    rw [e1, e2]
    exact this
  · have hil : i ∈ l := by rw [hab]; exact List.mem_append_right _ (List.mem_of_mem_tail hi)
    exact ⟨(h.1 _ (Or.inr (Or.inr ⟨i, hil, Or.inl rfl⟩))).trans (h3 i hi).1, (h.1 _ (Or.inr (Or.inr ⟨i, hil, Or.inr rfl⟩))).trans (h3 i hi).2⟩

theorem agree_final {cfg : Nat × Bool} (d d' : Disk) (h : Agree (Reads n hyb l) cfg d d') (hp : Final W n m hyb l old d) : Final W n m hyb l old d' :=
  ⟨fun i hi => agree_solved h.1 hi (hp.1 i hi), fun h1 h2 => (h.1 _ (Or.inr (Or.inl ⟨h1, rfl⟩))).trans (hp.2 h1 h2)⟩

end

/-! ### C90 -/

/-- C90. Whatever was on the disk before, and whatever the solver and the network do: when the driver has ended, the matrix file and the result file of every instance of the range are about this instance, made by a
program built for this size and mode; the temporary file is gone; and no other file has changed. -/
theorem C90_results {W : World} (hint : IntReader W.int) {range : Text} {n : Nat} {hyb : Bool} {d d' : Disk} (h : Steps W (driverProc W range n hyb, d) (.done, d')) :
    ∃ m l, netSize n hyb = .ok m ∧ instanceRange W.int range = .ok l ∧ (∀ i ∈ l, Solved W n m hyb (d.files (instancesPath n)) d' i) ∧ (hyb = true → l ≠ [] → d'.files (tempPath n) = none) ∧
      ∀ p, ¬ Own n hyb l p → d'.files p = d.files p := by
  have stuck : ∀ e e' P, Steps W (.raised, e) (P, e') → P = .raised := by
    intro e e' P hs
    rcases Relation.ReflTransGen.cases_head hs with heq | ⟨y, hy, -⟩
    · exact (congrArg Prod.fst heq).symm
    · cases hy
  cases hm : netSize n hyb with
  | error f =>
    have e : driverProc W range n hyb = .raised := by
      unfold driverProc
      rw [netSize] at hm
      rw [hm]
    rw [e] at h
    cases stuck _ _ _ h
  | ok m =>
    cases hl : instanceRange W.int range with
    | error f =>
      have e : driverProc W range n hyb = .build (n, hyb) .raised := by
        unfold driverProc
        rw [netSize] at hm
        rw [hm]
        simp only [hl]
      rw [e] at h
      rcases Relation.ReflTransGen.cases_head h with heq | ⟨y, hy, hr⟩
      · cases congrArg Prod.fst heq
      · cases hy <;> cases stuck _ _ _ hr
    | ok l =>
      obtain ⟨h1, h2⟩ := (safe_driver hint hm hl d).steps h
      exact ⟨m, l, rfl, rfl, h1.2.1, h1.2.2, h2⟩

/-- C90: a run in one mode leaves the results of the other mode, of every size and instance. -/
theorem C90_other_mode {W : World} (hint : IntReader W.int) {range : Text} {n : Nat} {hyb : Bool} {d d' : Disk} (h : Steps W (driverProc W range n hyb, d) (.done, d')) (n' : Nat) (i : Int) :
    d'.files (resultPath n' (!hyb) i) = d.files (resultPath n' (!hyb) i) := by
  obtain ⟨m, l, -, -, -, -, hf⟩ := C90_results hint h
  refine hf _ ?_
  rintro (⟨-, e⟩ | ⟨j, -, e | e⟩)
  · exact result_ne_temp _ _ _ _ e
  · exact matrix_ne_result _ _ _ _ _ e.symm
  · cases hyb with
    | false => exact result_modes _ _ _ _ e.symm
    | true => exact result_modes _ _ _ _ e

/-- C90: an exception ends the driver only if there are not two cities in hybrid mode, or the range cannot be read, or the build or the network process fails, or an instance of the range does not exist or is not readable. -/
theorem C90_raises {W : World} (hint : IntReader W.int) {range : Text} {n : Nat} {hyb : Bool} {d d' : Disk} (h : Steps W (driverProc W range n hyb, d) (.raised, d')) :
    (hyb = true ∧ n ≤ 1) ∨ (∃ f, instanceRange W.int range = .error f) ∨ W.buildFails ∨ (hyb = true ∧ W.networkFails) ∨
      ∃ l, instanceRange W.int range = .ok l ∧ ∃ i ∈ l, ∀ line cities, ¬ IsInstance W (d.files (instancesPath n)) i line cities := by
  cases hm : netSize n hyb with
  | error f =>
    left
    cases hyb with
    | false => cases hm
    | true =>
      refine ⟨rfl, ?_⟩
      by_contra hn
      simp only [netSize, if_true, modelSize, if_neg hn] at hm
      split at hm
      · cases hm
      · split at hm <;> cases hm
  | ok m =>
    right
    cases hl : instanceRange W.int range with
    | error f => exact Or.inl ⟨f, rfl⟩
    | ok l =>
      right
      obtain ⟨h1, -⟩ := (safe_driver hint hm hl d).steps h
      rcases h1.2 with h | h | ⟨i, hi, h⟩
      · exact Or.inl h
      · exact Or.inr (Or.inl h)
      · exact Or.inr (Or.inr ⟨l, rfl, i, hi, h⟩)

/-- every process has only finitely many steps ahead -/
theorem step_acc (W : World) : ∀ (P : Proc) (d : Disk), Acc (fun y x => Step W x y) (P, d) := by
  intro P
  induction P with
  | done => exact fun d => ⟨_, fun y hy => by cases hy⟩
  | raised => exact fun d => ⟨_, fun y hy => by cases hy⟩
  | build c k ih => exact fun d => ⟨_, fun y hy => by
      cases hy with
      | build => exact ih _
      | buildFails => exact ⟨_, fun y hy => by cases hy⟩⟩
  | mayFail k ih => exact fun d => ⟨_, fun y hy => by
      cases hy with
      | passes => exact ih _
      | fails => exact ⟨_, fun y hy => by cases hy⟩⟩
  | truncate p k ih => exact fun d => ⟨_, fun y hy => by cases hy; exact ih _⟩
  | openAppend p k ih => exact fun d => ⟨_, fun y hy => by cases hy; exact ih _⟩
  | write p t k ih =>
    intro d
    have : ∀ (N : Nat) (t : Text) (d : Disk), t.length ≤ N → Acc (fun y x => Step W x y) (.write p t k, d) := by
      intro N
      induction N with
      | zero =>
        intro t d ht
        refine ⟨_, fun y hy => ?_⟩
        cases hy with
        | piece _ a b _ _ ha => 
          have : a = [] := List.length_eq_zero_iff.1 (by rw [List.length_append] at ht; omega)
          exact absurd this ha
        | written => exact ih _
      | succ N ihN =>
        intro t d ht
        refine ⟨_, fun y hy => ?_⟩
        cases hy with
        | piece _ a b _ _ ha =>
          have : 0 < a.length := List.length_pos_iff.2 ha
          exact ihN b _ (by rw [List.length_append] at ht; omega)
        | written => exact ih _
    exact this t.length t d le_rfl
  | readFile p k ih => exact fun d => ⟨_, fun y hy => by cases hy; exact ih _ _⟩
  | remove p k ih => exact fun d => ⟨_, fun y hy => by
      cases hy with
      | remove => exact ih _
      | missing => exact ⟨_, fun y hy => by cases hy⟩⟩
  | loadExe k ih => exact fun d => ⟨_, fun y hy => by cases hy; exact ih _ _⟩
  | outcome P k ih => exact fun d => ⟨_, fun y hy => by cases hy; exact ih _ _⟩

/-- C90: there is no endless run, of this or any other process. -/
theorem C90_ends (W : World) (f : Nat → Proc × Disk) : ∃ k, ¬ Step W (f k) (f (k + 1)) := by
  by_contra hno
  push Not at hno
  have key : ∀ x, Acc (fun y x => Step W x y) x → ∀ k, x ≠ f k := by
    intro x hx
    induction hx with
    | intro x _ ih =>
      intro k e
      exact ih (f (k + 1)) (by rw [e]; exact hno k) (k + 1) rfl
  exact key (f 0) (step_acc W _ _) 0 rfl

theorem Safe.ends {rd wr : Text → Prop} {cfg : Nat × Bool} {J Q : Disk → Prop} {E : Prop} {W : World} (hT : Total W) {P : Proc} {d : Disk} (h : Safe rd wr cfg J Q E W P d) :
    ∃ d', Steps W (P, d) (.done, d') ∨ (E ∧ Steps W (P, d) (.raised, d')) := by
  have key : ∀ x : Proc × Disk, Acc (fun y x => Step W x y) x → Safe rd wr cfg J Q E W x.1 x.2 → ∃ d', Steps W x (.done, d') ∨ (E ∧ Steps W x (.raised, d')) := by
    intro x hx
    induction hx with
    | intro x _ ih =>
      intro hs
      obtain ⟨P, d⟩ := x
      rcases hs.moves hT with e | e | ⟨P', d', hst⟩
      · simp only at e; subst e; exact ⟨d, Or.inl .refl⟩
      · simp only at e; subst e; exact ⟨d, Or.inr ⟨hs.2, .refl⟩⟩
      · obtain ⟨e, he⟩ := ih (P', d') hst (hs.step hst).1
        exact ⟨e, he.imp (fun h => .head hst h) (fun h => ⟨h.1, .head hst h.2⟩)⟩
  exact key _ (step_acc W P d) h

/-- C90: the driver never gets stuck: in a world where the build and the network do not fail and every process has a result, a run over instances that exist can always be continued to its normal end, from wherever it is. -/
theorem C90_completes {W : World} (hint : IntReader W.int) (hT : Total W) {range : Text} {n m : Nat} {hyb : Bool} {l : List Int} (hm : netSize n hyb = .ok m) (hl : instanceRange W.int range = .ok l)
    {d d' : Disk} (hb : ¬ W.buildFails) (hf : hyb = true → ¬ W.networkFails) (hex : ∀ i ∈ l, ∃ line cities, IsInstance W (d.files (instancesPath n)) i line cities) {P : Proc}
    (h : Steps W (driverProc W range n hyb, d) (P, d')) : ∃ e, Steps W (P, d') (.done, e) := by
  obtain ⟨e, he | ⟨hc, -⟩⟩ := ((safe_driver hint hm hl d).steps h).1.ends hT
  · exact ⟨e, he⟩
  · rcases hc with h | ⟨h, h'⟩ | ⟨i, hi, h⟩
    · exact absurd h hb
    · exact absurd h' (hf h)
    · obtain ⟨line, cities, h'⟩ := hex i hi
      exact absurd h' (h line cities)

/-! ### C91 -/

/-- C91. A run that is stopped at any moment: some first instances of the range are solved as in a run that ended, the result file of the next one is the old one or the beginning of the right new one, those
of the others are the old ones, and no other file but the matrix and temporary files has changed. -/
theorem C91_crash {W : World} (hint : IntReader W.int) {range : Text} {n m : Nat} {hyb : Bool} {l : List Int} (hm : netSize n hyb = .ok m) (hl : instanceRange W.int range = .ok l) {P : Proc} {d d' : Disk}
    (h : Steps W (driverProc W range n hyb, d) (P, d')) : Progress W n m hyb l d d' ∧ ∀ p, ¬ Own n hyb l p → d'.files p = d.files p := by
  obtain ⟨h1, h2⟩ := (safe_driver hint hm hl d).steps h
  exact ⟨h1.inv, h2⟩

/-- C91: a run repeated after one that was stopped, with any range and in any mode, leaves what a first run would leave. -/
theorem C91_rerun {W : World} (hint : IntReader W.int) {range range' : Text} {n : Nat} {hyb hyb' : Bool} {P : Proc} {d d1 d2 : Disk} {exe : Option (Nat × Bool)}
    (h1 : Steps W (driverProc W range' n hyb', d) (P, d1)) (h2 : Steps W (driverProc W range n hyb, { d1 with exe := exe }) (.done, d2)) :
    ∃ m l, netSize n hyb = .ok m ∧ instanceRange W.int range = .ok l ∧ (∀ i ∈ l, Solved W n m hyb (d.files (instancesPath n)) d2 i) ∧ (hyb = true → l ≠ [] → d2.files (tempPath n) = none) := by
  obtain ⟨m, l, e1, e2, e3, e4, -⟩ := C90_results hint h2
  refine ⟨m, l, e1, e2, ?_, e4⟩
  have stuck : ∀ e e' P, Steps W (.raised, e) (P, e') → e' = e := by
    intro e e' P hs
    rcases Relation.ReflTransGen.cases_head hs with heq | ⟨y, hy, -⟩
    · exact (congrArg Prod.snd heq).symm
    · cases hy
  have key : d1.files (instancesPath n) = d.files (instancesPath n) := by
    cases hm : netSize n hyb' with
    | error f =>
      have e : driverProc W range' n hyb' = .raised := by
        unfold driverProc
        rw [netSize] at hm
        rw [hm]
      rw [e] at h1
      rw [stuck _ _ _ h1]
    | ok m' =>
      cases hl : instanceRange W.int range' with
      | error f =>
        have e : driverProc W range' n hyb' = .build (n, hyb') .raised := by
          unfold driverProc
          rw [netSize] at hm
          rw [hm]
          simp only [hl]
        rw [e] at h1
        rcases Relation.ReflTransGen.cases_head h1 with heq | ⟨y, hy, hr⟩
        · cases heq; rfl
        · cases hy <;> rw [stuck _ _ _ hr]
      | ok l' => exact ((C91_crash hint hm hl h1).1).1
  intro i hi
  have := e3 i hi
  rwa [show ({ d1 with exe := exe } : Disk).files (instancesPath n) = d.files (instancesPath n) from key] at this

/-! ### C92 -/

/-- C92 (partial). Any number of drivers in classic mode for the same number of cities and for different instances can run at the same time: for every schedule, at every moment each of them has made the same
progress as alone, those that have ended have solved their instances, and no other file has changed. Missing: it fails in hybrid mode (`C92_fails_hybrid`) and for different numbers of cities (`C92_fails_size`). -/
theorem C92_parallel_partial {W : World} (hint : IntReader W.int) {N n : Nat} {range : Fin N → Text} {l : Fin N → List Int} (hl : ∀ j, instanceRange W.int (range j) = .ok (l j))
    (hdis : ∀ j j', j ≠ j' → ∀ i ∈ l j, i ∉ l j') {s : Fin N → Proc} {d d' : Disk} (h : SysSteps W (fun j => driverProc W (range j) n false, d) (s, d')) :
    (∀ j, Progress W n n false (l j) d d') ∧ (∀ j, s j = .done → ∀ i ∈ l j, Solved W n n false (d.files (instancesPath n)) d' i) ∧ ∀ p, (∀ j, ¬ Own n false (l j) p) → d'.files p = d.files p := by
  have key := Safe.system (W := W) (rd := fun j => Reads n false (l j)) (wr := fun j => Own n false (l j)) (cfg := (n, false)) (J := fun j => Progress W n n false (l j) d)
    (Q := fun j => Final W n n false (l j) d) (E := fun j => Cause W n false (l j) d) (fun j p hp => Or.inr hp) (fun j e e' ha => agree_progress e e' ha) (fun j e e' ha => agree_final e e' ha) ?_ h
    (fun j => safe_driver hint rfl (hl j) d)
  · obtain ⟨h1, h2⟩ := key
    refine ⟨fun j => (h1 j).inv, fun j hj i hi => ?_, h2⟩
    have := h1 j
    simp only [hj] at this
    exact this.2.1 i hi
  · intro j j' hjj p hp hr
    rcases hp with ⟨h, -⟩ | ⟨i, hi, hp⟩
    · cases h
    · rcases hr with rfl | ⟨h, -⟩ | ⟨i', hi', hr⟩
      · rcases hp with e | e
        · exact matrix_ne_instances _ _ _ e.symm
        · exact result_ne_instances _ _ _ _ e.symm
      · cases h
      · have : i = i' := by
          rcases hp with e | e <;> rcases hr with e' | e'
          · exact matrixPath_inj (e.symm.trans e')
          · exact absurd (e.symm.trans e') (matrix_ne_result _ _ _ _ _)
          · exact absurd (e'.symm.trans e) (matrix_ne_result _ _ _ _ _)
          · exact resultPath_inj (e.symm.trans e')
        exact hdis j j' hjj i hi (this ▸ hi')

end Verif
