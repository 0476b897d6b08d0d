import Verif.Props.MachineExamples

/-!
# C93 on the machine and C96 meet a non-trivial case
-/
namespace Verif
open Verif.Spec
set_option autoImplicit false

attribute [local instance 2000] nearest

namespace Ex

theorem ringWorld_total (csv : Text) : Total (ringWorld csv) := by
  refine ⟨fun _ _ t => ⟨t, rfl⟩, fun _ _ _ t => ⟨_, rfl⟩, fun k csv => ?_, ⟨_, rfl⟩⟩
  by_cases h : ∃ t out', csv = some t ∧ Prints (ringCfg k.1 k.2) num8 t out'
  · obtain ⟨t, out, h1, h2⟩ := h
    exact ⟨out, Or.inl ⟨t, h1, h2⟩⟩
  · exact ⟨[], Or.inr ⟨h, rfl⟩⟩

def ringLine : Nat → Text
  | 10 => "0 0 0 1 0 2 0 3 1 0 1 1 1 2 1 3 2 0 2 1 output 1\n".toList
  | _ => "0 0 0 1 0 2 0 3 1 0 1 1 1 2 1 3 2 0 2 1 2 2 2 3 3 0 3 1 output 1\n".toList

def ringDisk : Disk where
  files p := if p = instancesPath 10 then some (ringLine 10) else if p = instancesPath 14 then some (ringLine 14) else none
  exe := none

theorem ring_instance (csv : Text) {n : Nat} (hn : n = 10 ∨ n = 14) : IsInstance (ringWorld csv) (ringDisk.files (instancesPath n)) 1 (ringLine n) (ringCities n) := by
  have h : instancesPath 14 ≠ instancesPath 10 := by decide +kernel
  rcases hn with rfl | rfl
  · refine ⟨le_rfl, ringLine 10, ?_, by decide +kernel, show lineCities float8 (ringLine 10) = .ok (ringCities 10) by decide +kernel⟩
    show (if instancesPath 10 = instancesPath 10 then some (ringLine 10) else (if instancesPath 10 = instancesPath 14 then some (ringLine 14) else none)) = some (ringLine 10)
    rw [if_pos rfl]
  · refine ⟨le_rfl, ringLine 14, ?_, by decide +kernel, show lineCities float8 (ringLine 14) = .ok (ringCities 14) by decide +kernel⟩
    show (if instancesPath 14 = instancesPath 10 then some (ringLine 10) else if instancesPath 14 = instancesPath 14 then some (ringLine 14) else none) = some (ringLine 14)
    rw [if_neg h, if_pos rfl]

theorem ring_runs (csv : Text) {n : Nat} (hn : n = 10 ∨ n = 14) (hyb : Bool) : ∃ d', Steps (ringWorld csv) (driverProc (ringWorld csv) "1".toList n hyb, ringDisk) (.done, d') := by
  have hr : instanceRange (ringWorld csv).int "1".toList = .ok [1] := show instanceRange Ex.int "1".toList = .ok [1] by decide +kernel
  have hm : ∃ m, netSize n hyb = .ok m := by rcases hn with rfl | rfl <;> cases hyb <;> exact ⟨_, rfl⟩
  obtain ⟨m, hm⟩ := hm
  exact C90_completes (W := ringWorld csv) Ex.world_int (Ex.ringWorld_total csv) hm hr (d := Ex.ringDisk) (fun h => h) (fun _ h => h) (by
    intro i h
    obtain rfl := List.mem_singleton.1 h
    exact ⟨_, _, ring_instance csv hn⟩) .refl

theorem ring_solver {csv0 csv out : Text} {n : Nat} {hyb : Bool} (h : ∃ out, Prints (ringCfg n hyb) num8 csv out) (k : (ringWorld csv0).solver (n, hyb) (some csv) out) : Prints (ringCfg n hyb) num8 csv out := by
  rcases k with ⟨t, h1, h2⟩ | ⟨h1, -⟩
  · cases h1; exact h2
  · obtain ⟨out', h'⟩ := h
    exact absurd ⟨_, out', rfl, h'⟩ h1

/-- distances around a table of ten -/
def ring (i j : Nat) : ℚ := if i = j then 0 else if (i + 1) % 10 = j ∨ (j + 1) % 10 = i then 1 else 9 / 8

/-- what the network gives for the ten cities and dummy copies of them: the distances, and the probability 5/8 for the neighbours around the table -/
def ringNet (i j : Nat) : List Char × List Char := (fmt8 (ring i j), if (i + 1) % 10 = j ∨ (j + 1) % 10 = i then ['5'] else ['0'])

/-- the entries after folding -/
def ringEntries : List (List Char × List Char) := match foldDummies (fun a b => decide (b < a)) 10 20 (fun k => ringNet (k / 20) (k % 20)) with
  | .ok l => l
  | .error _ => []

def ringCsv : Text := adjacencyText 10 ((ringCities 10).map fun q => (fmt8 q.1, fmt8 q.2)) ringEntries

theorem ring_prints : ∃ out, Prints (ringCfg 10 true) num8 ringCsv out := by
  have h : Ex.okAnd (mainRun (ringCfg 10 true) num8 Ex.env 10 (Ex.probN Ex.mem) ringCsv) (fun r => decide (r.1.best.value = 10) && !r.1.interrupted) = true := by decide +kernel
  obtain ⟨⟨p', out⟩, e, -⟩ := Ex.okAnd_elim h
  exact prints_of (by decide) e

theorem ring_file : NetworkFile num8 fmt8 20 (ringCities 10) ringCsv ring := by
  have hr : ∀ i j, ring i j ∈ [(0 : ℚ), 1 / 8, 2 / 8, 3 / 8, 5 / 8, 1, 9 / 8] := by
    intro i j
    unfold ring
    split
    · simp
    · split <;> simp
  refine ⟨by decide, ⟨fun a b => decide (b < a), ringNet, fun i j => if (i + 1) % 10 = j ∨ (j + 1) % 10 = i then 5 / 8 else 0, ringEntries, by decide +kernel, rfl, ?_, ?_⟩, by decide +kernel, by decide +kernel⟩
  · intro i hi j hj
    refine ⟨reads8 (hr i j), ?_⟩
    have h : ∀ i < 10, ∀ j < 10, foldedProb (fun a b => decide (b < a)) 10 20 ringNet i j = if (i + 1) % 10 = j ∨ (j + 1) % 10 = i then ['5'] else ['0'] := by decide +kernel
    show ReadsAs num8 (foldedProb (fun a b => decide (b < a)) 10 20 ringNet i j) (if (i + 1) % 10 = j ∨ (j + 1) % 10 = i then 5 / 8 else 0)
    rw [h i hi j hj]
    split
    · exact eighth (ch := '5') rfl (by decide) (by decide +kernel) (by decide) (by decide)
    · exact eighth (ch := '0') rfl (by decide) (by decide +kernel) (by decide) (by decide)
  · intro i j _ _
    show (0 : ℚ) ≤ if (i + 1) % 10 = j ∨ (j + 1) % 10 = i then 5 / 8 else 0
    split <;> norm_num

end Ex

/-- C93 on the machine, hypotheses: fourteen cities, rounding to the nearest -/
example : ∃ d', instanceRange (Ex.ringWorld []).int "1".toList = .ok [1] ∧ Steps (Ex.ringWorld []) (driverProc (Ex.ringWorld []) "1".toList 14 false, Ex.ringDisk) (.done, d') ∧
    IsInstance (Ex.ringWorld []) (Ex.ringDisk.files (instancesPath 14)) 1 (Ex.ringLine 14) (Ex.ringCities 14) ∧ GoodCities (Ex.ringWorld []) Ex.num8 14 (Ex.ringCities 14) ∧ IntReader (Ex.ringWorld []).int ∧
    ReadsAs Ex.num8 ['0'] 0 ∧ (∀ w, (Ex.ringWorld []).clock w → ∃ x, Decimal w x) ∧
    (∀ out, (Ex.ringWorld []).solver (14, false) (some (classicText (Ex.ringWorld []).fmt (Ex.ringCities 14) (adjacencyMatrix (Ex.ringWorld []).dist (Ex.ringCities 14)))) out →
      Prints (Ex.ringCfg 14 false) Ex.num8 (classicText (Ex.ringWorld []).fmt (Ex.ringCities 14) (adjacencyMatrix (Ex.ringWorld []).dist (Ex.ringCities 14))) out) ∧
    Precise (1 / 2 ^ 53) ∧ (Ex.ringCfg 14 false).eps ≤ 1 ∧ UnitSquare 14 (cityDistance (Ex.ringWorld []).dist (Ex.ringCities 14)) := by
  obtain ⟨d', hd⟩ := Ex.ring_runs [] (Or.inr rfl) false
  obtain ⟨p', out, e, -⟩ := Ex.ring_run
  refine ⟨d', by decide +kernel, hd, Ex.ring_instance [] (Or.inr rfl), Ex.ring_good [], Ex.world_int, Ex.eighth (ch := '0') rfl (by decide) (by decide +kernel) (by decide) (by decide), ?_,
    fun out h => Ex.ring_solver (Ex.prints_of (by decide) e) h, precise_machine.1, by norm_num [Ex.ringCfg], Ex.ring_square⟩
  rintro w rfl
  exact ⟨3 / 2, "1".toList, "5".toList, by decide, by decide, by decide, by decide +kernel, by decide +kernel⟩

/-- C96, hypotheses: ten cities, a network for twenty, rounding to the nearest; the network's distances are those of the cities. -/
example : ∃ d', instanceRange (Ex.ringWorld Ex.ringCsv).int "1".toList = .ok [1] ∧ Steps (Ex.ringWorld Ex.ringCsv) (driverProc (Ex.ringWorld Ex.ringCsv) "1".toList 10 true, Ex.ringDisk) (.done, d') ∧
    IsInstance (Ex.ringWorld Ex.ringCsv) (Ex.ringDisk.files (instancesPath 10)) 1 (Ex.ringLine 10) (Ex.ringCities 10) ∧
    (∀ q ∈ Ex.ringCities 10, FloatChars ((Ex.ringWorld Ex.ringCsv).fmt q.1) ∧ FloatChars ((Ex.ringWorld Ex.ringCsv).fmt q.2)) ∧
    (∀ q ∈ Ex.ringCities 10, ReadsAs Ex.num8 ((Ex.ringWorld Ex.ringCsv).fmt q.1) q.1 ∧ ReadsAs Ex.num8 ((Ex.ringWorld Ex.ringCsv).fmt q.2) q.2) ∧
    (∀ ms csv, netSize 10 true = .ok ms → MatrixOf (Ex.ringWorld Ex.ringCsv) 10 ms true (Ex.ringLine 10) (Ex.ringCities 10) csv →
      (∃ w, NetworkFile Ex.num8 (Ex.ringWorld Ex.ringCsv).fmt ms (Ex.ringCities 10) csv w ∧ ∀ i < 10, ∀ j < 10, i ≠ j → |w i j - cityDistance (Ex.ringDist 10) (Ex.ringCities 10) i j| ≤ 0) ∧
      ∀ out, (Ex.ringWorld Ex.ringCsv).solver (10, true) (some csv) out → Prints (Ex.ringCfg 10 true) Ex.num8 csv out) := by
  obtain ⟨d', hd⟩ := Ex.ring_runs Ex.ringCsv (Or.inl rfl) true
  refine ⟨d', by decide +kernel, hd, Ex.ring_instance _ (Or.inl rfl), ?_, ?_, ?_⟩
  · show ∀ q ∈ Ex.ringCities 10, (∀ ch ∈ Ex.fmt8 q.1, ch ∈ "0123456789.e+-".toList) ∧ (∀ ch ∈ Ex.fmt8 q.2, ch ∈ "0123456789.e+-".toList)
    decide +kernel
  · have h : ∀ q ∈ Ex.ringCities 10, q.1 ∈ [(0 : ℚ), 1 / 8, 2 / 8, 3 / 8, 5 / 8, 1, 9 / 8] ∧ q.2 ∈ [(0 : ℚ), 1 / 8, 2 / 8, 3 / 8, 5 / 8, 1, 9 / 8] := by decide +kernel
    exact fun q hq => ⟨Ex.reads8 (h q hq).1, Ex.reads8 (h q hq).2⟩
  · intro ms csv hm hcsv
    have hm : (Except.ok 20 : Res Nat) = .ok ms := hm
    cases hm
    obtain ⟨t, -, h⟩ := hcsv
    have h : csv = Ex.ringCsv := h
    subst h
    refine ⟨⟨Ex.ring, Ex.ring_file, ?_⟩, fun out h => Ex.ring_solver Ex.ring_prints h⟩
    decide +kernel

end Verif
