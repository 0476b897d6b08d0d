import Verif.Props.Pipeline
import Verif.Props.RunFails
import Verif.Props.MainExamples

/-!
# C92 and C93 meet a non-trivial case
-/
namespace Verif
open Verif.Spec
set_option autoImplicit false

/-- C92, hypotheses: two drivers for different instances, of which one is waiting in the middle of its first round and the other one has ended -/
example : ∃ (range : Fin 2 → Text) (l : Fin 2 → List Int) (s : Fin 2 → Proc) (d' : Disk), (∀ j, instanceRange Ex.world.int (range j) = .ok (l j)) ∧ (∀ j j', j ≠ j' → ∀ i ∈ l j, i ∉ l j') ∧
    SysSteps Ex.world (fun j => driverProc Ex.world (range j) 4 false, Ex.disk) (s, d') ∧ s 0 = .done ∧ s 1 ≠ driverProc Ex.world (range 1) 4 false ∧ s 1 ≠ .done := by
  have hr1 : instanceRange Ex.world.int "1".toList = .ok [1] := by decide +kernel
  have hr2 : instanceRange Ex.world.int "2-2".toList = .ok [2] := by decide +kernel
  obtain ⟨d', hd⟩ := C90_completes (hyb := false) Ex.world_int Ex.world_total (m := 4) rfl hr1 (d := Ex.disk) (fun h => h) (fun _ h => h) (by
    intro i hi
    obtain rfl := List.mem_singleton.1 hi
    exact ⟨_, _, Ex.disk_1⟩) .refl
  have e2 : driverProc Ex.world "2-2".toList 4 false = .build (4, false) (roundProc Ex.world 4 4 false 2 .done) := by
    unfold driverProc
    simp only [Bool.false_eq_true, if_false, hr2]
    rfl
  refine ⟨![("1".toList : Text), "2-2".toList], ![[1], [2]], ![.done, roundProc Ex.world 4 4 false 2 .done], { d' with exe := some (4, false) }, ?_, ?_, ?_, rfl, ?_, ?_⟩
  · intro j; fin_cases j
    · exact hr1
    · exact hr2
  · intro j j' hj i hi hi'
    fin_cases j <;> fin_cases j' <;> simp_all
  · have := sys_first (Q := driverProc Ex.world "2-2".toList 4 false) hd
    have e : (fun j => driverProc Ex.world ((![("1".toList : Text), "2-2".toList] : Fin 2 → Text) j) 4 false) = ![driverProc Ex.world "1".toList 4 false, driverProc Ex.world "2-2".toList 4 false] := by
      funext j; fin_cases j <;> rfl
    rw [e]
    refine this.trans ?_
    rw [e2]
    exact sys_second (.single (.build _ _ _))
  · show roundProc _ _ _ _ _ _ ≠ driverProc Ex.world "2-2".toList 4 false
    rw [e2]
    intro h; cases h
  · show roundProc _ _ _ _ _ _ ≠ _
    intro h; cases h

namespace Ex

/-- a world with the solver of the model -/
def solverWorld : World where
  buildFails := False
  networkFails := False
  resize _ _ t t' := t' = t
  network _ _ _ t csv := csv = t
  solver _ csv out := (∃ t, csv = some t ∧ Prints c4 num t out) ∨ ((¬ ∃ t out', csv = some t ∧ Prints c4 num t out') ∧ out = [])
  clock wall := wall = "1.5".toList
  int := Ex.int
  float := Ex.float
  fmt := Ex.fmt
  dist := Ex.rectDist

theorem solverWorld_total : Total solverWorld := by
  refine ⟨fun _ _ t => ⟨t, rfl⟩, fun _ _ _ t => ⟨t, rfl⟩, fun c csv => ?_, ⟨_, rfl⟩⟩
  by_cases h : ∃ t out', csv = some t ∧ Prints c4 num t out'
  · obtain ⟨t, out, h1, h2⟩ := h
    exact ⟨out, Or.inl ⟨t, h1, h2⟩⟩
  · exact ⟨[], Or.inr ⟨h, rfl⟩⟩

theorem rect_prints : ∃ out, Prints c4 num (classicText fmt rect (adjacencyMatrix rectDist rect)) out := by
  have h : Ex.okAnd (mainRun Ex.c4 Ex.num Ex.env 10 (Ex.probN Ex.mem) (classicText Ex.fmt Ex.rect (adjacencyMatrix Ex.rectDist Ex.rect))) (fun r =>
      decide (r.2 = [(0, 2), (2, 1), (1, 3), (3, 0)]) && (decide (r.1.best.value = 14) && !r.1.interrupted)) = true := by decide +kernel
  obtain ⟨⟨p', out⟩, e, -⟩ := Ex.okAnd_elim h
  exact ⟨_, Ex.env, 10, _, p', out, 0, 2, 1, [(14, 1)], by decide, (by intro k hk; revert hk; simp [Ex.env]), e, by norm_num, by norm_num, (by intro u hu; obtain rfl := List.mem_singleton.1 hu; norm_num), rfl⟩

theorem rect_good : GoodCities solverWorld num 4 rect := by
  obtain ⟨h1, h2, h3⟩ := Ex.rect_classic
  obtain ⟨r0, r3, r4, r5⟩ := Ex.reads
  refine ⟨rfl, by norm_num, by norm_num, by decide +kernel, h2, (by
    show ∀ q ∈ rect, (∀ ch ∈ Ex.fmt q.1, ch ∈ "0123456789.e+-".toList) ∧ (∀ ch ∈ Ex.fmt q.2, ch ∈ "0123456789.e+-".toList)
    decide +kernel), r0, ?_, by decide +kernel, ?_⟩
  · have h : ∀ a ∈ rect, ∀ b ∈ rect, rectDist a b = 0 ∨ rectDist a b = 3 ∨ rectDist a b = 4 ∨ rectDist a b = 5 := by decide +kernel
    intro a ha b hb
    show ReadsAs num (fmt (rectDist a b)) (rectDist a b)
    rcases h a ha b hb with e | e | e | e <;> rw [e] <;> assumption
  · intro a b
    show Ex.rectDist a b = Ex.rectDist b a
    unfold Ex.rectDist
    simp only [eq_comm (a := a.1), eq_comm (a := a.2)]

end Ex

/-- C93, hypotheses: a run over the first instance of the file, in a world with the solver of the model, has ended; the solver prints a report about it. -/
example : ∃ d', instanceRange Ex.solverWorld.int "1".toList = .ok [1] ∧ Steps Ex.solverWorld (driverProc Ex.solverWorld "1".toList 4 false, Ex.disk) (.done, d') ∧
    IsInstance Ex.solverWorld (Ex.disk.files (instancesPath 4)) 1 "0 0 3 4 3 0 0 4 output 1 3 2 4 1\n".toList Ex.rect ∧ GoodCities Ex.solverWorld Ex.num 4 Ex.rect ∧ IntReader Ex.solverWorld.int ∧
    (∀ w, Ex.solverWorld.clock w → ∃ x, Decimal w x) ∧
    (∀ out, Ex.solverWorld.solver (4, false) (some (classicText Ex.solverWorld.fmt Ex.rect (adjacencyMatrix Ex.solverWorld.dist Ex.rect))) out →
      Prints Ex.c4 Ex.num (classicText Ex.solverWorld.fmt Ex.rect (adjacencyMatrix Ex.solverWorld.dist Ex.rect)) out) := by
  have hr : instanceRange Ex.solverWorld.int "1".toList = .ok [1] := by decide +kernel
  have hi : IsInstance Ex.solverWorld (Ex.disk.files (instancesPath 4)) 1 "0 0 3 4 3 0 0 4 output 1 3 2 4 1\n".toList Ex.rect := ⟨le_rfl, Ex.lines, Ex.disk_lines, by decide +kernel, by decide +kernel⟩
  obtain ⟨d', hd⟩ := C90_completes (W := Ex.solverWorld) (hyb := false) Ex.world_int Ex.solverWorld_total (m := 4) rfl hr (d := Ex.disk) (fun h => h) (fun _ h => h) (by
    intro i h
    obtain rfl := List.mem_singleton.1 h
    exact ⟨_, _, hi⟩) .refl
  refine ⟨d', hr, hd, hi, Ex.rect_good, Ex.world_int, ?_, ?_⟩
  · rintro w rfl
    exact ⟨3 / 2, "1".toList, "5".toList, by decide, by decide, by decide, by decide +kernel, by decide +kernel⟩
  · intro out h
    rcases h with ⟨t, h1, h2⟩ | ⟨h1, -⟩
    · cases h1; exact h2
    · obtain ⟨out', h'⟩ := Ex.rect_prints
      exact absurd ⟨_, out', rfl, h'⟩ h1

end Verif
