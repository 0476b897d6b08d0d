import Verif.Props.Pipeline2
import Verif.Props.RunFails
import Verif.Props.PipelineExamples

/-!
# C95 meets a non-trivial case
-/
namespace Verif
open Verif.Spec
set_option autoImplicit false

attribute [local instance 2000] nearest

namespace Ex

/-- a number parser: one digit, in eighths -/
def num8 (s : List Char) : Option (ℚ × List Char) := match s with
  | ch :: r => if ch.isDigit then some (((ch.toNat - 48 : Nat) : ℚ) / 8, r) else none
  | [] => none

theorem eighth {t : List Char} {x : ℚ} {ch : Char} (h : t = [ch]) (hd : ch.isDigit = true) (hx : ((ch.toNat - 48 : Nat) : ℚ) / 8 = x) (hs : isSpace ch = false)
    (hc : ch ≠ ';' ∧ ch ≠ '\n' ∧ ch ≠ '\x00') : ReadsAs num8 t x := by
  subst h
  refine ⟨fun r => ?_, fun r => ?_, ?_, ⟨ch, [], rfl, hs⟩⟩
  · show (if ch.isDigit then some (((ch.toNat - 48 : Nat) : ℚ) / 8, _) else none) = _
    rw [if_pos hd, hx]; rfl
  · show (if ch.isDigit then some (((ch.toNat - 48 : Nat) : ℚ) / 8, _) else none) = _
    rw [if_pos hd, hx]; rfl
  · intro ch' h'
    obtain rfl := List.mem_singleton.1 h'
    exact hc

/-- the solver built for `n` cities, in both modes -/
def ringCfg (n : Nat) (hyb : Bool) : Cfg := ⟨n, hyb, 1 / 1000, 0, 0, 0⟩

/-- `n` cities (at most 32) with coordinates in eighths -/
def ringCities (n : Nat) : List (ℚ × ℚ) := (List.range n).map fun i => (((i / 4 : Nat) : ℚ) / 8, ((i % 4 : Nat) : ℚ) / 8)

/-- the distances around a table, as a function of the coordinates: neighbours at distance 1, others at distance 9/8 -/
def ringDist (n : Nat) (p q : ℚ × ℚ) : ℚ :=
  if p = q then 0 else if 32 * p.1 + 8 * p.2 - (32 * q.1 + 8 * q.2) ∈ [1, -1, (n : ℚ) - 1, 1 - (n : ℚ)] then 1 else 9 / 8

/-- Python's `float` and the text of a number, for one digit in eighths -/
def float8 (s : List Char) : Option ℚ := match s with
  | [a] => if a.isDigit then some (((a.toNat - 48 : Nat) : ℚ) / 8) else none
  | _ => none
def fmt8 (x : ℚ) : List Char := [Char.ofNat ((8 * x).floor.toNat + 48)]

theorem reads8 {x : ℚ} (h : x ∈ [0, 1 / 8, 2 / 8, 3 / 8, 5 / 8, 1, 9 / 8]) : ReadsAs num8 (fmt8 x) x := by
  simp only [List.mem_cons, List.not_mem_nil, or_false] at h
  rcases h with rfl | rfl | rfl | rfl | rfl | rfl | rfl
  · exact eighth (ch := '0') (by decide +kernel) (by decide) (by decide +kernel) (by decide) (by decide)
  · exact eighth (ch := '1') (by decide +kernel) (by decide) (by decide +kernel) (by decide) (by decide)
  · exact eighth (ch := '2') (by decide +kernel) (by decide) (by decide +kernel) (by decide) (by decide)
  · exact eighth (ch := '3') (by decide +kernel) (by decide) (by decide +kernel) (by decide) (by decide)
  · exact eighth (ch := '5') (by decide +kernel) (by decide) (by decide +kernel) (by decide) (by decide)
  · exact eighth (ch := '8') (by decide +kernel) (by decide) (by decide +kernel) (by decide) (by decide)
  · exact eighth (ch := '9') (by decide +kernel) (by decide) (by decide +kernel) (by decide) (by decide)

/-- a world with the solver of the model; what the network makes of the instance is `csv` -/
def ringWorld (csv : Text) : World where
  buildFails := False
  networkFails := False
  resize _ _ t t' := t' = t
  network _ _ _ _ t := t = csv
  solver k csv out := (∃ t, csv = some t ∧ Prints (ringCfg k.1 k.2) num8 t out) ∨ ((¬ ∃ t out', csv = some t ∧ Prints (ringCfg k.1 k.2) num8 t out') ∧ out = [])
  clock wall := wall = "1.5".toList
  int := Ex.int
  float := float8
  fmt := fmt8
  dist := ringDist 14

theorem ring_good (csv : Text) : GoodCities (ringWorld csv) num8 14 (ringCities 14) := by
  refine ⟨rfl, by norm_num, by norm_num, by decide +kernel, ?_, ?_, reads8 (by simp), ?_, ?_, ?_⟩
  · have h : ∀ q ∈ ringCities 14, q.1 ∈ [(0 : ℚ), 1 / 8, 2 / 8, 3 / 8, 5 / 8, 1, 9 / 8] ∧ q.2 ∈ [(0 : ℚ), 1 / 8, 2 / 8, 3 / 8, 5 / 8, 1, 9 / 8] := by decide +kernel
    exact fun q hq => ⟨reads8 (h q hq).1, reads8 (h q hq).2⟩
  · show ∀ q ∈ ringCities 14, (∀ ch ∈ fmt8 q.1, ch ∈ "0123456789.e+-".toList) ∧ (∀ ch ∈ fmt8 q.2, ch ∈ "0123456789.e+-".toList)
    decide +kernel
  · have h : ∀ a ∈ ringCities 14, ∀ b ∈ ringCities 14, ringDist 14 a b ∈ [(0 : ℚ), 1 / 8, 2 / 8, 3 / 8, 5 / 8, 1, 9 / 8] := by decide +kernel
    exact fun a ha b hb => reads8 (h a ha b hb)
  · show ∀ a ∈ ringCities 14, ∀ b ∈ ringCities 14, a ≠ b → 0 < ringDist 14 a b ∧ ringDist 14 a b < FLT_MAX
    decide +kernel
  · intro a b
    show Ex.ringDist 14 a b = Ex.ringDist 14 b a
    have e : ∀ x y : ℚ, x - y ∈ [(1 : ℚ), -1, ((14 : Nat) : ℚ) - 1, 1 - ((14 : Nat) : ℚ)] → y - x ∈ [(1 : ℚ), -1, ((14 : Nat) : ℚ) - 1, 1 - ((14 : Nat) : ℚ)] := by
      intro x y
      simp only [List.mem_cons, List.not_mem_nil, or_false]
      rintro (h | h | h | h)
      · exact Or.inr (Or.inl (by linarith))
      · exact Or.inl (by linarith)
      · exact Or.inr (Or.inr (Or.inr (by linarith)))
      · exact Or.inr (Or.inr (Or.inl (by linarith)))
    have e' : ∀ x y : ℚ, x - y ∈ [(1 : ℚ), -1, ((14 : Nat) : ℚ) - 1, 1 - ((14 : Nat) : ℚ)] ↔ y - x ∈ [(1 : ℚ), -1, ((14 : Nat) : ℚ) - 1, 1 - ((14 : Nat) : ℚ)] := fun x y => ⟨e x y, e y x⟩
    unfold ringDist
    simp only [eq_comm (a := a), e' (32 * a.1 + 8 * a.2)]

theorem ring_run : ∃ p' out, mainRun (ringCfg 14 false) num8 Ex.env 10 (Ex.probN Ex.mem) (classicText fmt8 (ringCities 14) (adjacencyMatrix (ringDist 14) (ringCities 14))) = .ok (p', out) ∧
    p'.interrupted = false ∧ p'.best.value = 14 := by
  have h : Ex.okAnd (mainRun (ringCfg 14 false) num8 Ex.env 10 (Ex.probN Ex.mem) (classicText fmt8 (ringCities 14) (adjacencyMatrix (ringDist 14) (ringCities 14)))) (fun r =>
      decide (r.1.best.value = 14) && !r.1.interrupted) = true := by decide +kernel
  obtain ⟨⟨p', out⟩, e, h⟩ := Ex.okAnd_elim h
  simp only [Bool.and_eq_true, decide_eq_true_eq, Bool.not_eq_true'] at h
  exact ⟨p', out, e, h.2, h.1⟩

theorem ring_square : UnitSquare 14 (cityDistance (ringDist 14) (ringCities 14)) := by
  unfold UnitSquare
  decide +kernel

theorem prints_of {c : Cfg} {csv : Text} {p' : Problem} {out : List (Nat × Nat)} (h0 : 0 < c.maxV) (e : mainRun c num8 Ex.env 10 (Ex.probN Ex.mem) csv = .ok (p', out)) : ∃ out, Prints c num8 csv out :=
  ⟨_, Ex.env, 10, _, p', out, 0, 2, 1, [(14, 1)], h0, (by intro k hk; revert hk; simp [Ex.env]), e, by norm_num, by norm_num, (by intro u hu; obtain rfl := List.mem_singleton.1 hu; norm_num), rfl⟩

end Ex

/-- C95: fourteen cities around a table; with rounding to the nearest, the program finds a tour of length 14, the one around it, and is not interrupted. -/
example : ∃ (text : List Char) (xs : List (ℚ × ℚ)) (w pr : Nat → Nat → ℚ) (p0 p' : Problem) (out : List (Nat × Nat)), CsvFile Ex.num8 text xs w pr ∧ SolverInput (Ex.ringCfg 14 false) xs.length w pr ∧
    p0.cand < (Ex.ringCfg 14 false).maxV ∧ 14 ≤ xs.length ∧ (Ex.ringCfg 14 false).eps ≤ 1 ∧ (∀ i < xs.length, ∀ j < xs.length, i ≠ j → w i j ≤ 3 / 2 ∧ fl (w i j) = w i j) ∧
    (∀ k, Ex.env.clk k = true → Ex.env.clk (k + 1) = true) ∧ mainRun (Ex.ringCfg 14 false) Ex.num8 Ex.env 10 p0 text = .ok (p', out) ∧ p'.interrupted = false ∧ p'.best.value = 14 := by
  obtain ⟨p', out, e, h1, h2⟩ := Ex.ring_run
  have r0 : ReadsAs Ex.num8 ['0'] 0 := Ex.eighth (ch := '0') rfl (by decide) (by decide +kernel) (by decide) (by decide)
  have g := Ex.ring_good []
  refine ⟨_, _, _, _, Ex.probN Ex.mem, p', out, g.file r0, g.input (c := Ex.ringCfg 14 false) rfl rfl (by norm_num [Ex.ringCfg]), by decide, by decide, by norm_num [Ex.ringCfg], ?_, ?_, e, h1, h2⟩
  · intro i hi j hj hij
    rw [g.adj hij]
    exact Ex.ring_square i hi j hj hij
  · intro k hk; revert hk; simp [Ex.env]

end Verif
