import Verif.Model.Reader
import Verif.Props.Graph

/-!
# Properties C50, C56: TSPLIB files
-/
namespace Verif
open Verif.Spec
set_option autoImplicit false

section Arith
variable [Rounding]

/-- a line contains a text (`strstr` finds it) -/
def Spec.Contains (line t : List Char) : Prop := t <:+: line.takeWhile (· ≠ '\x00')

/-- the lines of the header: those before the first that contains `NODE_COORD_SECTION` -/
inductive Spec.HeaderOf : List (List Char) → List (List Char) → List (List Char) → Prop where
  | eof : HeaderOf [] [] []
  | stop {l : List Char} {ls : List (List Char)} (h : Contains l "NODE_COORD_SECTION".toList) : HeaderOf (l :: ls) [] ls
  | line {l : List Char} {ls hs rest : List (List Char)} (h : ¬ Contains l "NODE_COORD_SECTION".toList) (hr : HeaderOf ls hs rest) : HeaderOf (l :: ls) (l :: hs) rest

omit [Rounding] in
theorem strstr_iff {l t : List Char} : strstr l t = true ↔ Contains l t := by
  unfold strstr Contains cstr
  rw [List.any_eq_true]
  constructor
  · rintro ⟨s, h1, h2⟩
    exact (List.isPrefixOf_iff_prefix.1 h2).isInfix.trans ((List.mem_tails _ _).1 h1).isInfix
  · intro h
    obtain ⟨a, b, e⟩ := h
    exact ⟨t ++ b, (List.mem_tails _ _).2 ⟨a, by rw [← e, List.append_assoc]⟩, List.isPrefixOf_iff_prefix.2 (List.prefix_append _ _)⟩

omit [Rounding] in
theorem libHeader_ok {ls hs rest : List (List Char)} (h : HeaderOf ls hs rest) : ∀ b, ((libHeader ls b).1 = true ↔ b = true ∨ ∃ l ∈ hs, ¬ Contains l "EDGE_WEIGHT_TYPE : EUC_2D".toList) ∧
    (libHeader ls b).2 = rest := by
  induction h with
  | eof => intro b; simp [libHeader]
  | stop h => intro b; rw [libHeader, if_pos (strstr_iff.2 h)]; simp
  | line h hr ih =>
    intro b
    rw [libHeader, if_neg (fun h' => h (strstr_iff.1 h'))]
    refine ⟨?_, (ih _).2⟩
    rw [(ih _).1]
    split
    · next h' =>
      rw [strstr_iff] at h'
      simp only [List.mem_cons, exists_eq_or_imp, not_true_eq_false, h', false_or]
    · next h' =>
      rw [strstr_iff] at h'
      simp only [List.mem_cons, exists_eq_or_imp, true_or, h', not_false_eq_true, or_true]

/-- What the header check of `read_tsp_lib_file` does, for every file: it goes on iff some line of the header does **not** contain `EDGE_WEIGHT_TYPE : EUC_2D`. -/
theorem C50_exact {c : Cfg} {scan : List Char → Option (ℚ × ℚ)} {dist : ListNode → ListNode → ℚ} {g : Graph} {text : List Char} {hs rest : List (List Char)}
    (h : HeaderOf (fileLines text) hs rest) :
    (¬ (∃ l ∈ hs, ¬ Contains l "EDGE_WEIGHT_TYPE : EUC_2D".toList) → readLib c scan dist g text = .error .exit) ∧
    ((∃ l ∈ hs, ¬ Contains l "EDGE_WEIGHT_TYPE : EUC_2D".toList) → readLib c scan dist g text = (libCities c scan rest 0 >>= createEuclideanGraph c dist g)) := by
  obtain ⟨h1, h2⟩ := libHeader_ok h false
  constructor
  · intro hn
    unfold readLib
    simp only
    rw [if_neg]
    rw [h1]; simpa using hn
  · intro hy
    unfold readLib
    simp only
    rw [if_pos (h1.2 (Or.inr hy)), h2]

/-- C50 (partial): a header that declares `EUC_2D` and has at least one other line is accepted. Missing, and false (`C50_fails`): other headers are not rejected. -/
theorem C50_accepts_partial {c : Cfg} {scan : List Char → Option (ℚ × ℚ)} {dist : ListNode → ListNode → ℚ} {g : Graph} {text : List Char} {hs rest : List (List Char)}
    (h : HeaderOf (fileLines text) hs rest) {l l' : List Char} (_hl : l ∈ hs) (_hd : Contains l "EDGE_WEIGHT_TYPE : EUC_2D".toList) (hl' : l' ∈ hs)
    (hd' : ¬ Contains l' "EDGE_WEIGHT_TYPE : EUC_2D".toList) : readLib c scan dist g text = (libCities c scan rest 0 >>= createEuclideanGraph c dist g) :=
  (C50_exact h).2 ⟨l', hl', hd'⟩

/-- The property C50 fails both ways: a file with geographical coordinates is accepted, and a file whose header is just the declaration of `EUC_2D` is rejected. -/
theorem C50_fails (c : Cfg) (scan : List Char → Option (ℚ × ℚ)) (dist : ListNode → ListNode → ℚ) (g : Graph) :
    (∃ text hs rest, HeaderOf (fileLines text) hs rest ∧ (¬ ∃ l ∈ hs, Contains l "EDGE_WEIGHT_TYPE : EUC_2D".toList) ∧
      readLib c scan dist g text = (libCities c scan rest 0 >>= createEuclideanGraph c dist g)) ∧
    (∃ text hs rest, HeaderOf (fileLines text) hs rest ∧ (∃ l ∈ hs, Contains l "EDGE_WEIGHT_TYPE : EUC_2D".toList) ∧ readLib c scan dist g text = .error .exit) := by
  have n1 : ¬ Contains "EDGE_WEIGHT_TYPE : GEO\n".toList "NODE_COORD_SECTION".toList := by rw [← strstr_iff]; decide +kernel
  have n2 : ¬ Contains "EDGE_WEIGHT_TYPE : GEO\n".toList "EDGE_WEIGHT_TYPE : EUC_2D".toList := by rw [← strstr_iff]; decide +kernel
  have n3 : ¬ Contains "EDGE_WEIGHT_TYPE : EUC_2D\n".toList "NODE_COORD_SECTION".toList := by rw [← strstr_iff]; decide +kernel
  have n4 : Contains "EDGE_WEIGHT_TYPE : EUC_2D\n".toList "EDGE_WEIGHT_TYPE : EUC_2D".toList := by rw [← strstr_iff]; decide +kernel
  have n5 : Contains "NODE_COORD_SECTION\n".toList "NODE_COORD_SECTION".toList := by rw [← strstr_iff]; decide +kernel
  have e1 : fileLines "EDGE_WEIGHT_TYPE : GEO\nNODE_COORD_SECTION\n1 41.5 2.25\n2 48.5 2.25\n3 52.5 13.5\nEOF\n".toList =
      ["EDGE_WEIGHT_TYPE : GEO\n".toList, "NODE_COORD_SECTION\n".toList, "1 41.5 2.25\n".toList, "2 48.5 2.25\n".toList, "3 52.5 13.5\n".toList, "EOF\n".toList] := by decide +kernel
  have e2 : fileLines "EDGE_WEIGHT_TYPE : EUC_2D\nNODE_COORD_SECTION\n1 41.5 2.25\n".toList =
      ["EDGE_WEIGHT_TYPE : EUC_2D\n".toList, "NODE_COORD_SECTION\n".toList, "1 41.5 2.25\n".toList] := by decide +kernel
  refine ⟨⟨"EDGE_WEIGHT_TYPE : GEO\nNODE_COORD_SECTION\n1 41.5 2.25\n2 48.5 2.25\n3 52.5 13.5\nEOF\n".toList, ["EDGE_WEIGHT_TYPE : GEO\n".toList],
    ["1 41.5 2.25\n".toList, "2 48.5 2.25\n".toList, "3 52.5 13.5\n".toList, "EOF\n".toList], ?_, ?_, ?_⟩,
    ⟨"EDGE_WEIGHT_TYPE : EUC_2D\nNODE_COORD_SECTION\n1 41.5 2.25\n".toList, ["EDGE_WEIGHT_TYPE : EUC_2D\n".toList], ["1 41.5 2.25\n".toList], ?_, ⟨_, List.mem_singleton.2 rfl, n4⟩, ?_⟩⟩
  · rw [e1]; exact .line n1 (.stop n5)
  · rintro ⟨l, hl, h⟩
    rw [List.mem_singleton] at hl; subst hl; exact n2 h
  · refine (C50_exact (by rw [e1]; exact .line n1 (.stop n5))).2 ⟨_, List.mem_singleton.2 rfl, n2⟩
  · rw [e2]; exact .line n3 (.stop n5)
  · refine (C50_exact (by rw [e2]; exact .line n3 (.stop n5))).1 ?_
    rintro ⟨l, hl, h⟩
    rw [List.mem_singleton] at hl; subst hl; exact h n4

/-- the coordinate section: the cities `xs` in order, up to the end of the file or a line with `EOF` -/
structure Spec.CoordSection (scan : List Char → Option (ℚ × ℚ)) (ls : List (List Char)) (xs : List (ℚ × ℚ)) : Prop where
  parts : ∃ A B, ls = A ++ B ∧ A.map (fun l => scan (l.takeWhile (· ≠ '\x00'))) = xs.map some ∧ (∀ l ∈ A, ¬ Contains l "EOF".toList) ∧
    (B = [] ∨ ∃ l B', B = l :: B' ∧ Contains l "EOF".toList)

omit [Rounding] in
theorem libCities_ok {c : Cfg} {scan : List Char → Option (ℚ × ℚ)} {B : List (List Char)} (hB : B = [] ∨ ∃ l B', B = l :: B' ∧ Contains l "EOF".toList) (h16 : c.maxV ≤ 65535) :
    ∀ (A : List (List Char)) (xs : List (ℚ × ℚ)) (i : Nat), A.map (fun l => scan (l.takeWhile (· ≠ '\x00'))) = xs.map some → (∀ l ∈ A, ¬ Contains l "EOF".toList) → i + xs.length ≤ c.maxV →
    libCities c scan (A ++ B) i = .ok (xs.mapIdx fun k p => { pos := i + k, x := p.1, y := p.2 }) := by
  intro A
  induction A with
  | nil =>
    intro xs i h _ _
    obtain rfl : xs = [] := by simpa using h.symm
    rcases hB with rfl | ⟨l, B', rfl, h'⟩
    · rfl
    · rw [List.nil_append, libCities, if_pos (strstr_iff.2 h')]; rfl
  | cons l A ih =>
    intro xs i h hA hi
    cases xs with
    | nil => simp at h
    | cons p xs =>
      rw [List.map_cons, List.map_cons] at h
      obtain ⟨h1, h2⟩ := List.cons.inj h
      rw [List.cons_append, libCities, if_neg (fun h' => hA l (by simp) (strstr_iff.1 h'))]
      have : scan (cstr l) = some p := h1
      rw [this]
      rw [List.length_cons] at hi
      simp only
      have hinc : inc16 i = i + 1 := Nat.mod_eq_of_lt (by omega)
      rw [if_neg (by omega), hinc, ih xs (i + 1) h2 (fun x hx => hA x (by simp [hx])) (by omega)]
      simp only [ok_bind, pure_eq_ok, List.mapIdx_cons, Nat.add_zero, Except.ok.injEq, List.cons.injEq, true_and]
      congr 1
      funext k p
      congr 1
      omega

/-- C56. When the header is accepted, `read_tsp_lib_file` numbers the cities in the order of the file, ignores their ids and everything from the line with `EOF` on, and builds the complete graph on them. -/
theorem C56_tsplib {c : Cfg} {scan : List Char → Option (ℚ × ℚ)} {dist : ListNode → ListNode → ℚ} {mem : Graph} {text : List Char} {hs rest : List (List Char)} {xs : List (ℚ × ℚ)}
    (h : HeaderOf (fileLines text) hs rest) (hacc : ∃ l ∈ hs, ¬ Contains l "EDGE_WEIGHT_TYPE : EUC_2D".toList) (hc : CoordSection scan rest xs) (hn : xs.length ≤ c.maxV) (h16 : c.maxV ≤ 65535) :
    ∃ g, readLib c scan dist mem text = .ok g ∧ Stored g ∧ Positions g ∧ g.numNodes = xs.length ∧ 2 * g.numEdges = xs.length * (xs.length - 1) ∧
      (∀ u < xs.length, ∀ v < xs.length, u ≠ v → Adj g u v) ∧
      (∀ i (hi : i < xs.length), (g.nodes i).pos = i ∧ (g.nodes i).x = xs[i].1 ∧ (g.nodes i).y = xs[i].2) ∧
      (∀ i (hi : i < xs.length) j (hj : j < xs.length), i < j → (g.mat i j).weight = dist ⟨i, xs[i].1, xs[i].2⟩ ⟨j, xs[j].1, xs[j].2⟩) := by
  obtain ⟨A, B, rfl, h1, h2, h3⟩ := hc.parts
  rw [(C50_exact h).2 hacc, libCities_ok h3 h16 A xs 0 h1 h2 (by omega)]
  simp only [ok_bind]
  have hlen : (xs.mapIdx fun k p => ({ pos := 0 + k, x := p.1, y := p.2 } : ListNode)).length = xs.length := by simp
  obtain ⟨g, e, st, ps, -, hn', hm, hadj, hw, -, hnode⟩ := C52_complete (c := c) (mem := mem) (dist := dist) (l := xs.mapIdx fun k p => ({ pos := 0 + k, x := p.1, y := p.2 } : ListNode))
    (by intro i hi; simp) (by rw [hlen]; exact hn)
  rw [hlen] at hn' hm hadj
  refine ⟨g, e, st, ps, hn', hm, hadj, ?_, ?_⟩
  · intro i hi
    have := hnode i (by rw [hlen]; exact hi)
    simpa using this
  · intro i hi j hj hij
    have := hw i (by rw [hlen]; exact hi) j (by rw [hlen]; exact hj) hij
    simpa using this

end Arith

/-- C56: a file with three cities and text after `EOF` -/
example : ∃ (text : List Char) (hs rest : List (List Char)) (scan : List Char → Option (ℚ × ℚ)) (xs : List (ℚ × ℚ)), HeaderOf (fileLines text) hs rest ∧
    (∃ l ∈ hs, ¬ Contains l "EDGE_WEIGHT_TYPE : EUC_2D".toList) ∧ CoordSection scan rest xs ∧ xs.length = 3 := by
  have n1 : ¬ Contains "NAME : x\n".toList "NODE_COORD_SECTION".toList := by rw [← strstr_iff]; decide +kernel
  have n2 : ¬ Contains "NAME : x\n".toList "EDGE_WEIGHT_TYPE : EUC_2D".toList := by rw [← strstr_iff]; decide +kernel
  have n3 : ¬ Contains "EDGE_WEIGHT_TYPE : EUC_2D\n".toList "NODE_COORD_SECTION".toList := by rw [← strstr_iff]; decide +kernel
  have n5 : Contains "NODE_COORD_SECTION\n".toList "NODE_COORD_SECTION".toList := by rw [← strstr_iff]; decide +kernel
  have e1 : fileLines "NAME : x\nEDGE_WEIGHT_TYPE : EUC_2D\nNODE_COORD_SECTION\n1 0 0\n2 3 0\n3 0 4\nEOF\nmore".toList =
      ["NAME : x\n".toList, "EDGE_WEIGHT_TYPE : EUC_2D\n".toList, "NODE_COORD_SECTION\n".toList, "1 0 0\n".toList, "2 3 0\n".toList, "3 0 4\n".toList, "EOF\n".toList, "more".toList] := by decide +kernel
  refine ⟨_, ["NAME : x\n".toList, "EDGE_WEIGHT_TYPE : EUC_2D\n".toList], ["1 0 0\n".toList, "2 3 0\n".toList, "3 0 4\n".toList, "EOF\n".toList, "more".toList],
    fun l => if l = "1 0 0\n".toList then some (0, 0) else if l = "2 3 0\n".toList then some (3, 0) else if l = "3 0 4\n".toList then some (0, 4) else none, [(0, 0), (3, 0), (0, 4)],
    by rw [e1]; exact .line n1 (.line n3 (.stop n5)), ⟨_, by simp, n2⟩, ⟨["1 0 0\n".toList, "2 3 0\n".toList, "3 0 4\n".toList], ["EOF\n".toList, "more".toList], rfl, ?_, ?_, Or.inr ⟨_, _, rfl, ?_⟩⟩, rfl⟩
  · decide +kernel
  · intro l hl
    rw [← strstr_iff]
    simp only [List.mem_cons, List.not_mem_nil, or_false] at hl
    rcases hl with rfl | rfl | rfl <;> decide +kernel
  · rw [← strstr_iff]; decide +kernel

end Verif
