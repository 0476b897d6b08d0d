import Verif.Props.Run
import Verif.Props.DriverExamples
import Mathlib.Data.Fin.VecNotation
import Mathlib.Tactic.FinCases

/-!
# C92: schedules of two drivers that mix their instances, and examples for C90-C92
-/
namespace Verif
open Verif.Spec
set_option autoImplicit false

section
variable {W : World}

theorem steps_write (p t : Text) (k : Proc) (d : Disk) : Steps W (.write p t k, d) (k, d.add p t) := by
  cases t with
  | nil => 
    rw [Disk.add_nil]
    exact .single (.written p k d)
  | cons ch t =>
    have := Step.piece (W := W) p (ch :: t) [] k d (by simp)
    rw [List.append_nil] at this
    exact .head this (.single (.written p k _))

theorem Disk.set_add (d : Disk) (p t : Text) : (d.set p (some [])).add p t = d.set p (some t) := by
  unfold Disk.add Disk.set
  congr 1
  funext q
  by_cases h : q = p
  · subst h; simp
  · simp [h]

theorem steps_writeFile (p t : Text) (k : Proc) (d : Disk) : Steps W (writeFile p t k, d) (k, d.set p (some t)) := by
  rw [← Disk.set_add]
  exact .head (.truncate p _ d) (steps_write p t k _)

theorem sys_first {P P' Q : Proc} {d d' : Disk} (h : Steps W (P, d) (P', d')) : SysSteps W (![P, Q], d) (![P', Q], d') := by
  have key : ∀ x y : Proc × Disk, Steps W x y → SysSteps W (![x.1, Q], x.2) (![y.1, Q], y.2) := by
    intro x y hxy
    induction hxy with
    | refl => exact .refl
    | tail _ hst ih =>
      rename_i b c _
      refine ih.tail ?_
      have := SysStep.step (W := W) (N := 2) 0 ![b.1, Q] c.1 b.2 c.2 hst
      have e : Function.update ![b.1, Q] 0 c.1 = ![c.1, Q] := by
        funext j
        fin_cases j <;> rfl
      rwa [e] at this
  exact key _ _ h

theorem sys_second {P Q Q' : Proc} {d d' : Disk} (h : Steps W (Q, d) (Q', d')) : SysSteps W (![P, Q], d) (![P, Q'], d') := by
  have key : ∀ x y : Proc × Disk, Steps W x y → SysSteps W (![P, x.1], x.2) (![P, y.1], y.2) := by
    intro x y hxy
    induction hxy with
    | refl => exact .refl
    | tail _ hst ih =>
      rename_i b c _
      refine ih.tail ?_
      have := SysStep.step (W := W) (N := 2) 1 ![P, b.1] c.1 b.2 c.2 hst
      have e : Function.update ![P, b.1] 1 c.1 = ![P, c.1] := by
        funext j
        fin_cases j <;> rfl
      rwa [e] at this
  exact key _ _ h

variable {n m : Nat} {i : Int}

/-- the network process works on what it finds in the temporary file -/
theorem network_runs (hT : Total W) {t : Text} (cities : List (ℚ × ℚ)) (k : Proc) {d : Disk} (ht : d.files (tempPath n) = some t) :
    ∃ csv d', Steps W (networkProc W n m i k, d) (k, d') ∧ MatrixOf W n m true t cities csv ∧ d'.files (matrixPath n i) = some csv ∧ d'.files (tempPath n) ≠ none ∧ d'.exe = d.exe := by
  have h0 : Steps W (networkProc W n m i k, d) (if n = m then .outcome (W.network n m t t) fun csv => writeFile (matrixPath n i) csv k
      else .outcome (W.resize n m t) fun t' => writeFile (tempPath n) t' <| .readFile (tempPath n) fun
        | none => .raised
        | some t2 => .outcome (W.network n m t t2) fun csv => writeFile (matrixPath n i) csv k, d) := by
    refine .head (.passes _ d) (.head (.readFile _ _ d) ?_)
    rw [ht]
    exact .refl
  by_cases hnm : n = m
  · rw [if_pos hnm] at h0
    obtain ⟨csv, hc⟩ := hT.network n m t t
    refine ⟨csv, _, h0.trans (.head (.outcome _ _ d csv hc) (steps_writeFile _ _ _ _)), ?_, Disk.set_same _ _ _, ?_, rfl⟩
    · rw [MatrixOf, if_pos rfl]; exact ⟨t, by rw [if_pos hnm], hc⟩
    · rw [Disk.set_other _ _ (matrix_ne_temp _ _ _).symm, ht]; simp
  · rw [if_neg hnm] at h0
    obtain ⟨t', ht'⟩ := hT.resize n m t
    obtain ⟨csv, hc⟩ := hT.network n m t t'
    refine ⟨csv, (d.set (tempPath n) (some t')).set (matrixPath n i) (some csv), h0.trans (.head (.outcome _ _ d t' ht') ((steps_writeFile _ _ _ _).trans (.head (.readFile _ _ _) ?_))), ?_, ?_, ?_, ?_⟩
    · rw [Disk.set_same]
      exact .head (.outcome _ _ _ csv hc) (steps_writeFile _ _ _ _)
    · rw [MatrixOf, if_pos rfl]; exact ⟨t', by rw [if_neg hnm]; exact ht', hc⟩
    · exact Disk.set_same _ _ _
    · rw [Disk.set_other _ _ (matrix_ne_temp _ _ _).symm, Disk.set_same]; simp
    · rfl

/-- the solver process runs the program that it finds on the matrix file that it finds -/
theorem solver_runs (hT : Total W) {hyb : Bool} (k : Proc) {d : Disk} {c : Nat × Bool} (hc : d.exe = some c) : ∃ out, W.solver c (d.files (matrixPath n i)) out ∧
    Steps W (solverProc W n hyb i k, d) (k, d.set (resultPath n hyb i) (some out)) := by
  obtain ⟨out, ho⟩ := hT.solver c (d.files (matrixPath n i))
  refine ⟨out, ho, .head (.loadExe _ d) ?_⟩
  rw [hc]
  refine .head (.truncate _ _ _) (.head (.readFile _ _ _) ?_)
  rw [Disk.set_other _ _ (matrix_ne_result _ _ _ _ _)]
  refine .head (.outcome _ _ _ out ho) ?_
  have := steps_write (W := W) (resultPath n hyb i) out k (d.set (resultPath n hyb i) (some []))
  rwa [Disk.set_add] at this

theorem finish_runs (hT : Total W) {hyb : Bool} (cities : List (ℚ × ℚ)) (k : Proc) {d : Disk} {out : Text} (ho : d.files (resultPath n hyb i) = some out) : ∃ wall, W.clock wall ∧
    Steps W (finishProc W n hyb i cities k, d) (k, d.set (resultPath n hyb i) (some (out ++ driverText (cities.map fun q => (W.fmt q.1, W.fmt q.2)) wall))) := by
  obtain ⟨wall, hw⟩ := hT.clock
  refine ⟨wall, hw, .head (.outcome _ _ _ wall hw) (.head (.openAppend _ _ _) ?_)⟩
  have := steps_write (W := W) (resultPath n hyb i) (driverText (cities.map fun q => (W.fmt q.1, W.fmt q.2)) wall) k (d.set (resultPath n hyb i) (some ((d.files (resultPath n hyb i)).getD [])))
  have e : (d.set (resultPath n hyb i) (some ((d.files (resultPath n hyb i)).getD []))).add (resultPath n hyb i) (driverText (cities.map fun q => (W.fmt q.1, W.fmt q.2)) wall) =
      d.set (resultPath n hyb i) (some (out ++ driverText (cities.map fun q => (W.fmt q.1, W.fmt q.2)) wall)) := by
    rw [ho]
    unfold Disk.add Disk.set
    congr 1
    funext q
    by_cases h : q = resultPath n hyb i
    · subst h; simp
    · simp [h]
  rwa [e] at this

theorem round_starts {hyb : Bool} (k : Proc) {d : Disk} {line : Text} {cities : List (ℚ × ℚ)} (hi : IsInstance W (d.files (instancesPath n)) i line cities) :
    Steps W (roundProc W n m hyb i k, d) (if hyb then writeFile (tempPath n) line <| networkProc W n m i <| solverProc W n hyb i <| .remove (tempPath n) <| finishProc W n hyb i cities k
        else writeFile (matrixPath n i) (classicText W.fmt cities (adjacencyMatrix W.dist cities)) <| solverProc W n hyb i <| finishProc W n hyb i cities k, d) := by
  obtain ⟨t, ht, -⟩ := hi.2
  rw [ht, ← getInstance_spec hi.1] at hi
  refine .head (.readFile _ _ d) ?_
  rw [ht]
  simp only [hi]
  exact .refl

end

/-- The property C92 fails in hybrid mode, for all instances: the temporary file has the same name for all instances of a size. There is a schedule of two drivers for the instances `i` and `j` after which the first one has
ended normally, and the matrix file of `i`, on which the solver was run, is a matrix of the cities of `j`; the cities of `i` are listed below the tour found for `j`. -/
theorem C92_fails_hybrid {W : World} (hT : Total W) {range range' : Text} {n m : Nat} {i j : Int} (hm : netSize n true = .ok m) (hr : instanceRange W.int range = .ok [i]) (hr' : instanceRange W.int range' = .ok [j])
    {d : Disk} {line line' : Text} {cities cities' : List (ℚ × ℚ)} (hi : IsInstance W (d.files (instancesPath n)) i line cities) (hj : IsInstance W (d.files (instancesPath n)) j line' cities') :
    ∃ Q d' csv out wall, SysSteps W (![driverProc W range n true, driverProc W range' n true], d) (![.done, Q], d') ∧ MatrixOf W n m true line' cities' csv ∧ d'.files (matrixPath n i) = some csv ∧
      W.solver (n, true) (some csv) out ∧ d'.files (resultPath n true i) = some (out ++ driverText (cities.map fun q => (W.fmt q.1, W.fmt q.2)) wall) := by
  have e1 : ∀ {r : Text} {k : Int}, instanceRange W.int r = .ok [k] → driverProc W r n true = .build (n, true) (roundProc W n m true k .done) := by
    intro r k h
    unfold driverProc
    rw [netSize] at hm
    rw [hm]
    simp only [h]
    rfl
  rw [e1 hr, e1 hr']
  -- both drivers write the temporary file, the second one last
  have a1 : ∀ {k : Int} {ln : Text} {cs : List (ℚ × ℚ)} {e : Disk}, IsInstance W (e.files (instancesPath n)) k ln cs → Steps W (.build (n, true) (roundProc W n m true k .done), e)
      (networkProc W n m k <| solverProc W n true k <| .remove (tempPath n) <| finishProc W n true k cs .done, { e with exe := some (n, true) }.set (tempPath n) (some ln)) := by
    intro k ln cs e h
    refine .head (.build _ _ _) ((round_starts (d := { e with exe := some (n, true) }) _ h).trans ?_)
    rw [if_pos rfl]
    exact steps_writeFile _ _ _ _
  have s1 := sys_first (Q := .build (n, true) (roundProc W n m true j .done)) (a1 hi)
  have hj' : IsInstance W (({ d with exe := some (n, true) } : Disk).set (tempPath n) (some line) |>.files (instancesPath n)) j line' cities' := by
    rw [Disk.set_other _ _ (temp_ne_instances _).symm]; exact hj
  have s2 := sys_second (P := networkProc W n m i <| solverProc W n true i <| .remove (tempPath n) <| finishProc W n true i cities .done) (a1 hj')
  -- then the first one goes on
  obtain ⟨csv, d3, s3, hcsv, h31, h32, h33⟩ := network_runs (n := n) (m := m) (i := i) hT cities' (solverProc W n true i <| .remove (tempPath n) <| finishProc W n true i cities .done) (t := line')
    (d := Disk.set { (({ d with exe := some (n, true) } : Disk).set (tempPath n) (some line)) with exe := some (n, true) } (tempPath n) (some line')) (Disk.set_same _ _ _)
  obtain ⟨out, hout, s4⟩ := solver_runs (n := n) (i := i) hT (hyb := true) (.remove (tempPath n) <| finishProc W n true i cities .done) (d := d3) (c := (n, true)) (by rw [h33]; rfl)
  rw [h31] at hout
  have h41 : (d3.set (resultPath n true i) (some out)).files (tempPath n) ≠ none := by rw [Disk.set_other _ _ (result_ne_temp _ _ _ _).symm]; exact h32
  have s5 : Steps W (.remove (tempPath n) <| finishProc W n true i cities .done, d3.set (resultPath n true i) (some out)) (finishProc W n true i cities .done, (d3.set (resultPath n true i) (some out)).set (tempPath n) none) :=
    .single (.remove _ _ _ h41)
  obtain ⟨wall, hwall, s6⟩ := finish_runs (n := n) (i := i) hT (hyb := true) cities .done (d := (d3.set (resultPath n true i) (some out)).set (tempPath n) none) (out := out)
    (by rw [Disk.set_other _ _ (result_ne_temp _ _ _ _), Disk.set_same])
  refine ⟨_, _, csv, out, wall, (s1.trans s2).trans (sys_first (((s3.trans s4).trans s5).trans s6)), hcsv, ?_, hout, Disk.set_same _ _ _⟩
  rw [Disk.set_other _ _ (matrix_ne_result _ _ _ _ _), Disk.set_other _ _ (matrix_ne_temp _ _ _), Disk.set_other _ _ (matrix_ne_result _ _ _ _ _), h31]

/-- The property C92 fails for drivers for different numbers of cities (or different modes), for all instances: they share the build directory. There is a schedule after which the first driver has ended normally, but its
instance has been solved by the program that was built for the other driver. -/
theorem C92_fails_size {W : World} (hT : Total W) {range range' : Text} {n n' m' : Nat} {hyb' : Bool} {i : Int} (hm' : netSize n' hyb' = .ok m') (hr : instanceRange W.int range = .ok [i])
    {d : Disk} {line : Text} {cities : List (ℚ × ℚ)} (hi : IsInstance W (d.files (instancesPath n)) i line cities) :
    ∃ Q d' out wall, SysSteps W (![driverProc W range n false, driverProc W range' n' hyb'], d) (![.done, Q], d') ∧
      W.solver (n', hyb') (some (classicText W.fmt cities (adjacencyMatrix W.dist cities))) out ∧
      d'.files (resultPath n false i) = some (out ++ driverText (cities.map fun q => (W.fmt q.1, W.fmt q.2)) wall) := by
  have e1 : driverProc W range n false = .build (n, false) (roundProc W n n false i .done) := by
    unfold driverProc
    simp only [Bool.false_eq_true, if_false, hr]
    rfl
  obtain ⟨Q, e2⟩ : ∃ Q, driverProc W range' n' hyb' = .build (n', hyb') Q := by
    unfold driverProc
    rw [netSize] at hm'
    rw [hm']
    exact ⟨_, rfl⟩
  rw [e1, e2]
  have s1 : SysSteps W (![.build (n, false) (roundProc W n n false i .done), .build (n', hyb') Q], d) (![roundProc W n n false i .done, .build (n', hyb') Q], { d with exe := some (n, false) }) :=
    sys_first (.single (.build _ _ _))
  have s2 : SysSteps W (![roundProc W n n false i .done, .build (n', hyb') Q], { d with exe := some (n, false) }) (![roundProc W n n false i .done, Q], { d with exe := some (n', hyb') }) :=
    sys_second (.single (.build _ _ _))
  have s3 := round_starts (m := n) (hyb := false) (d := { d with exe := some (n', hyb') }) .done hi
  rw [if_neg Bool.false_ne_true] at s3
  have s4 := steps_writeFile (W := W) (matrixPath n i) (classicText W.fmt cities (adjacencyMatrix W.dist cities)) (solverProc W n false i <| finishProc W n false i cities .done) { d with exe := some (n', hyb') }
  obtain ⟨out, hout, s5⟩ := solver_runs (n := n) (i := i) hT (hyb := false) (finishProc W n false i cities .done)
    (d := Disk.set { d with exe := some (n', hyb') } (matrixPath n i) (some (classicText W.fmt cities (adjacencyMatrix W.dist cities)))) (c := (n', hyb')) rfl
  rw [Disk.set_same] at hout
  obtain ⟨wall, hwall, s6⟩ := finish_runs (n := n) (i := i) hT (hyb := false) cities .done (Disk.set_same _ _ _)
  exact ⟨Q, _, out, wall, (s1.trans s2).trans (sys_first (((s3.trans s4).trans s5).trans s6)), hout, Disk.set_same _ _ _⟩

/-! ### Examples -/

namespace Ex

/-- a world: the network copies what it reads, the solver writes its size and copies what it reads -/
def world : World where
  buildFails := False
  networkFails := False
  resize _ _ t t' := t' = t
  network _ _ _ t csv := csv = t
  solver c csv out := out = natText c.1 ++ csv.getD []
  clock wall := wall = "1.5".toList
  int := Ex.int
  float := Ex.float
  fmt x := natText x.num.toNat
  dist a b := |a.1 - b.1| + |a.2 - b.2|

/-- two instances of four cities -/
def lines : Text := "0 0 3 4 3 0 0 4 output 1 3 2 4 1\n1 1 2 1 2 2 1 2\n".toList

/-- a disk with two instances of four cities -/
def disk : Disk where
  files p := if p = instancesPath 4 then some lines else none
  exe := none

theorem world_int : IntReader world.int := by
  intro s v hs h
  simp only [world, Ex.int] at h
  split at h
  · split at h
    · cases h; exact Int.natCast_nonneg _
    · cases h
  · split at h
    · cases h; exact Int.natCast_nonneg _
    · cases h
  · cases h

theorem world_total : Total world := ⟨fun _ _ t => ⟨t, rfl⟩, fun _ _ _ t => ⟨t, rfl⟩, fun _ _ => ⟨_, rfl⟩, ⟨_, rfl⟩⟩

theorem disk_lines : disk.files (instancesPath 4) = some lines := by
  show (if instancesPath 4 = instancesPath 4 then some lines else none) = some lines
  rw [if_pos rfl]

def inst1 : List (ℚ × ℚ) := [(0, 0), (3, 4), (3, 0), (0, 4)]
def inst2 : List (ℚ × ℚ) := [(1, 1), (2, 1), (2, 2), (1, 2)]

theorem disk_1 : IsInstance world (disk.files (instancesPath 4)) 1 "0 0 3 4 3 0 0 4 output 1 3 2 4 1\n".toList inst1 :=
  ⟨le_rfl, lines, disk_lines, by decide +kernel, by decide +kernel⟩
theorem disk_2 : IsInstance world (disk.files (instancesPath 4)) 2 "1 1 2 1 2 2 1 2\n".toList inst2 :=
  ⟨by norm_num, lines, disk_lines, by decide +kernel, by decide +kernel⟩

end Ex

/-- C90 and C91, hypotheses: in both modes a run over two instances reaches its end. -/
example (hyb : Bool) : ∃ d', Steps Ex.world (driverProc Ex.world "1-2".toList 4 hyb, Ex.disk) (.done, d') := by
  have hr : instanceRange Ex.world.int "1-2".toList = .ok [1, 2] := by decide +kernel
  have hex : ∀ i ∈ [(1 : Int), 2], ∃ line cities, IsInstance Ex.world (Ex.disk.files (instancesPath 4)) i line cities := by
    intro i hi
    simp at hi
    rcases hi with rfl | rfl
    · exact ⟨_, _, Ex.disk_1⟩
    · exact ⟨_, _, Ex.disk_2⟩
  cases hyb with
  | false => exact C90_completes Ex.world_int Ex.world_total (m := 4) rfl hr (fun h => h) (fun _ h => h) hex .refl
  | true => exact C90_completes Ex.world_int Ex.world_total (m := 20) rfl hr (fun h => h) (fun _ h => h) hex .refl

/-- C92: the schedules exist for two concrete instances, and the files of the first one are then wrong: in hybrid mode its matrix is not one of its cities, and in classic mode its result does not come from the program for four cities. -/
example : (∃ Q d', SysSteps Ex.world (![driverProc Ex.world "1".toList 4 true, driverProc Ex.world "2-2".toList 4 true], Ex.disk) (![.done, Q], d') ∧ ¬ Solved Ex.world 4 20 true (Ex.disk.files (instancesPath 4)) d' 1) ∧
    ∃ Q d', SysSteps Ex.world (![driverProc Ex.world "1".toList 4 false, driverProc Ex.world "1".toList 5 false], Ex.disk) (![.done, Q], d') ∧ ¬ Solved Ex.world 4 4 false (Ex.disk.files (instancesPath 4)) d' 1 := by
  have hr1 : instanceRange Ex.world.int "1".toList = .ok [1] := by decide +kernel
  have hr2 : instanceRange Ex.world.int "2-2".toList = .ok [2] := by decide +kernel
  have huniq : ∀ {line cities}, IsInstance Ex.world (Ex.disk.files (instancesPath 4)) 1 line cities → line = "0 0 3 4 3 0 0 4 output 1 3 2 4 1\n".toList := by
    rintro line cities ⟨-, t, ht, hl, -⟩
    obtain ⟨-, t', ht', hl', -⟩ := Ex.disk_1
    rw [ht] at ht'
    cases ht'
    rw [hl] at hl'
    exact Option.some.inj hl'
  constructor
  · obtain ⟨Q, d', csv, out, wall, h1, h2, h3, h4, h5⟩ := C92_fails_hybrid (m := 20) Ex.world_total rfl hr1 hr2 Ex.disk_1 Ex.disk_2
    refine ⟨Q, d', h1, ?_⟩
    rintro ⟨line, cities, csv', out', wall', hi, hm, hs, hc, hf, hg⟩
    have e := huniq hi
    rw [h3] at hf
    cases hf
    rw [MatrixOf, if_pos rfl] at hm h2
    obtain ⟨t, ht, hn⟩ := hm
    obtain ⟨t2, ht2, hn2⟩ := h2
    rw [if_neg (by decide)] at ht ht2
    simp only [Ex.world] at ht ht2 hn hn2
    rw [hn, ht, e, ht2] at hn2
    revert hn2
    decide
  · obtain ⟨Q, d', out, wall, h1, h2, h3⟩ := C92_fails_size (range' := "1".toList) (n' := 5) (m' := 5) (hyb' := false) Ex.world_total rfl hr1 Ex.disk_1
    refine ⟨Q, d', h1, ?_⟩
    rintro ⟨line, cities, csv', out', wall', hi, hm, hs, hc, hf, hg⟩
    rw [h3] at hg
    simp only [Ex.world] at h2 hs
    rw [h2, hs] at hg
    have := congrArg (fun o : Option Text => (o.getD []).head?) hg
    revert this
    simp [natText, digitsFrom]
    decide

end Verif
