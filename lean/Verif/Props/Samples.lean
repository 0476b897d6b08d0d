import Verif.Proofs.Samples
import Verif.Props.TourUtils
import Verif.Props.Driver3
import Mathlib.Data.Nat.Digits.Lemmas

/-!
# C71, C72, C73: the data sets of the network
-/
namespace Verif
open Verif.Spec
set_option autoImplicit false

/-- the texts of the coordinates of the cities `xs` -/
def Spec.CityTexts (float : List Char → Option ℚ) (ct : List (List Char × List Char)) (xs : List (ℚ × ℚ)) : Prop :=
  List.Forall₂ (fun p x => FloatText float p.1 x.1 ∧ FloatText float p.2 x.2) ct xs

/-- the texts of the natural numbers: no space in them, and Python's `int` reads them back -/
def Spec.IntTexts (int : List Char → Option Nat) (digits : Nat → List Char) : Prop := ∀ k, int (digits k) = some k ∧ ' ' ∉ digits k

/-- the distance matrix of the cities -/
def Spec.distances (dist : ℚ × ℚ → ℚ × ℚ → ℚ) (xs : List (ℚ × ℚ)) (i j : Nat) : ℚ := if i = j then 0 else dist (xs.getD i (0, 0)) (xs.getD j (0, 0))

variable {float : List Char → Option ℚ} {int : List Char → Option Nat} {dist : ℚ × ℚ → ℚ × ℚ → ℚ} {knn : Option ((Nat → Nat → ℚ) → Nat → List Nat)} {digits : Nat → List Char}
  {ct : List (List Char × List Char)} {xs : List (ℚ × ℚ)}

theorem CityTexts.length (h : CityTexts float ct xs) : ct.length = xs.length := List.Forall₂.length_eq h

theorem Spec.FloatText.noSpace {t : List Char} {x : ℚ} (h : FloatText float t x) : ' ' ∉ t := fun hm => by
  have := (h.clean _ hm).1
  simp [isSpace] at this

theorem Spec.FloatText.noO {t : List Char} {x : ℚ} (h : FloatText float t x) : 'o' ∉ t := fun hm => (h.clean _ hm).2 rfl

theorem CityTexts.fields (h : CityTexts float ct xs) {l : List Char} (hl : l ∈ cityFields ct) : ' ' ∉ l ∧ 'o' ∉ l ∧ l ≠ [] := by
  obtain ⟨p, hp, hl⟩ := List.mem_flatMap.1 hl
  obtain ⟨i, hi, rfl⟩ := List.getElem_of_mem hp
  have := List.Forall₂.get h hi (by rw [← CityTexts.length h]; exact hi)
  rcases List.mem_cons.1 hl with rfl | hl
  · exact ⟨this.1.noSpace, this.1.noO, this.1.ne⟩
  · rw [List.mem_singleton] at hl; subst hl
    exact ⟨this.2.noSpace, this.2.noO, this.2.ne⟩

theorem CityTexts.city (h : CityTexts float ct xs) {p : List Char × List Char} (hp : p ∈ ct) : ' ' ∉ p.1 ∧ ' ' ∉ p.2 :=
  ⟨(CityTexts.fields h (List.mem_flatMap.2 ⟨p, hp, by simp⟩)).1, (CityTexts.fields h (List.mem_flatMap.2 ⟨p, hp, by simp⟩)).1⟩

theorem CityTexts.noOutput (h : CityTexts float ct xs) : "output".toList ∉ cityFields ct := fun hm => (CityTexts.fields h hm).2.1 (by decide)

theorem CityTexts.reads (h : CityTexts float ct xs) : List.Forall₂ (fun p x => float p.1 = some x.1 ∧ float p.2 = some x.2) ct xs :=
  List.Forall₂.imp (fun _ _ hp => ⟨hp.1.reads, hp.2.reads⟩) h

/-- the sample of a line whose fields are the cities, the word, and numbers of which all but the last two fields make up the tour `t` -/
theorem processLine_core (hx : CityTexts float ct xs) {text : List Char} {tail : List (List Char)} (hs : text.splitOn ' ' = cityFields ct ++ "output".toList :: tail) (hne : tail ≠ [])
    {t : List Nat} {last : Nat} (ht : readNodes int tail.dropLast = .ok (t ++ [last])) (h2 : 2 ≤ t.length) (hlt : ∀ i ∈ t, i < xs.length) (hnd : t.Nodup) :
    ∃ s, processLine float int dist knn xs.length text = .ok s ∧ s.coord = xs ∧ s.tour = t ∧ (∀ a b, s.target a b = if s(a, b) ∈ tourEdges t then 1 else 0) ∧
      (∀ (k : Nat) (hk : k < t.length), s.order t[k] = k) ∧ s.len = legCost (distances dist xs) t ∧
      (∀ a b, s.edges a b = if a = b then 2 else match knn with | none => 1 | some f => if b ∈ f (distances dist xs) a then 1 else 0) := by
  obtain ⟨s, e1, e2, e3, ⟨x, e4, e5⟩, e6, -⟩ := sample_loops (wv := distances dist xs) h2 hlt hnd
  refine ⟨{ coord := xs, edges := fun i j => if i = j then 2 else match knn with | none => 1 | some f => if j ∈ f (distances dist xs) i then 1 else 0, target := fun a b => if (a, b) ∈ legs t ∨ (b, a) ∈ legs t then 1 else 0, order := upd s.1 (t[t.length - 1]) ((t.length - 1 : Nat) : ℚ), tour := t, len := _ }, ?_, rfl, rfl, ?_, fun k hk => e6 k hk, e5, fun a b => rfl⟩
  · unfold processLine
    rw [hs]
    dsimp only
    rw [readCoords_ok _ (CityTexts.reads hx), ok_bind, readTour_eq (CityTexts.noOutput hx) hne, ht]
    simp only [ok_bind, pure_eq_ok, List.dropLast_concat]
    have hd : (fun i j => if i = j then 0 else dist (xs.getD i (0, 0)) (xs.getD j (0, 0))) = distances dist xs := rfl
    rw [hd, e1]
    simp only [ok_bind]
    rw [e2]
    simp only [ok_bind]
    rw [e3]
    simp only [ok_bind]
    rw [e4]
    rfl
  · intro a b
    simp only [mem_tourEdges_legs]

/-- **C71** (round trip). A line that the generator wrote for the cities `xs` and the tour `t` is read as exactly that sample: the cities, the tour, the adjacency matrix of its edges, the position of each city
in it, its length, and the given graph with `2` on the diagonal. -/
theorem C71_round_trip (hx : CityTexts float ct xs) (hi : IntTexts int digits) (hn : 2 ≤ xs.length) {t : List Nat} (ht : IsTour xs.length t) :
    ∃ s, processLine float int dist knn xs.length (genLine digits ct t) = .ok s ∧ s.coord = xs ∧ s.tour = t ∧ (∀ a b, s.target a b = if s(a, b) ∈ tourEdges t then 1 else 0) ∧
      (∀ (k : Nat) (hk : k < t.length), s.order t[k] = k) ∧ s.len = legCost (distances dist xs) t ∧
      (∀ a b, s.edges a b = if a = b then 2 else match knn with | none => 1 | some f => if b ∈ f (distances dist xs) a then 1 else 0) := by
  have hlen := ht.length
  have htne : t ≠ [] := by intro e; rw [e] at hlen; simp at hlen; omega
  have hcne : ct ≠ [] := by intro e; have := CityTexts.length hx; rw [e] at this; simp at this; omega
  have hs := genLine_split (digits := digits) hcne htne (fun p hp => CityTexts.city hx hp) (fun k => (hi k).2)
  rw [List.cons_append, List.cons_append] at hs
  refine processLine_core (last := t.headD 0) hx hs (by simp) ?_ (by omega) (fun i h => ht.mem.1 h) ht.nodup
  rw [List.dropLast_concat]
  have := readNodes_ok (fun k => (hi k).1) (t ++ [t.headD 0])
  rwa [List.map_append, List.map_singleton] at this

theorem driverLine_split (hx : CityTexts float ct xs) (hi : IntTexts int digits) (hne : ct ≠ []) :
    (driverLine digits ct).splitOn ' ' = cityFields ct ++ "output".toList :: (((List.range ct.length).map fun i => digits (i + 1)) ++ [digits 1]) := by
  have h1 : ((List.range ct.length).map fun i => digits (i + 1)) ≠ [] := by
    simp [List.length_eq_zero_iff, hne]
  have hf : ∀ l : List Nat, l ≠ [] → (l.flatMap fun i => digits (i + 1) ++ [' ']) = [' '].intercalate (l.map fun i => digits (i + 1)) ++ [' '] := by
    intro l
    induction l with
    | nil => intro h; exact absurd rfl h
    | cons a l ih =>
      intro _
      cases l with
      | nil => simp [List.intercalate]
      | cons b l =>
        rw [List.flatMap_cons, ih (by simp), List.map_cons, List.map_cons, List.map_cons, inter_cons2]
        simp
  have : driverLine digits ct = [' '].intercalate (cityFields ct ++ ["output".toList] ++ (((List.range ct.length).map fun i => digits (i + 1)) ++ [digits 1])) := by
    rw [List.append_assoc, inter_append (cityFields_ne hne) (by simp), inter_append (by simp) (by simp), inter_append h1 (by simp), driverLine, inter_cities, hf _ (by simpa using hne)]
    have : " output ".toList = ' ' :: ("output".toList ++ [' ']) := by decide
    rw [this]
    simp [List.intercalate]
  rw [this, List.splitOn_intercalate]
  · simp
  · intro l hl
    simp only [List.mem_append, List.mem_cons, List.mem_map, List.not_mem_nil, or_false] at hl
    rcases hl with (hl | rfl) | (⟨i, _, rfl⟩ | rfl)
    · exact (CityTexts.fields hx hl).1
    · decide
    · exact (hi _).2
    · exact (hi _).2
  · simp

/-- **C71** fails for the lines that the driver writes itself: the cities are read correctly, but the tour `1 … n` of the line loses its last city, which is then in no edge of the target. -/
theorem C71_fails_driver (hx : CityTexts float ct xs) (hi : IntTexts int digits) (hn : 3 ≤ xs.length) :
    ∃ s, processLine float int dist knn xs.length (driverLine digits ct) = .ok s ∧ s.coord = xs ∧ s.tour = List.range (xs.length - 1) ∧ ∀ a, s.target (xs.length - 1) a = 0 := by
  have hlen := CityTexts.length hx
  have hcne : ct ≠ [] := by intro e; rw [e] at hlen; simp at hlen; omega
  have hr : List.range ct.length = List.range (xs.length - 1) ++ [xs.length - 1] := by
    rw [← List.range_succ]; congr 1; omega
  obtain ⟨s, e1, e2, e3, e4, -⟩ := processLine_core (dist := dist) (knn := knn) (int := int) (t := List.range (xs.length - 1)) (last := xs.length - 1) hx (driverLine_split hx hi hcne) (by simp)
    (by rw [List.dropLast_concat, readNodes_ok (fun k => (hi k).1), hr]) (by simp; omega) (fun i h => by have := List.mem_range.1 h; omega) List.nodup_range
  refine ⟨s, e1, e2, e3, fun a => ?_⟩
  rw [e4, if_neg]
  rw [mem_tourEdges_legs]
  have hl := legs_mem_lt (t := List.range (xs.length - 1)) (n := xs.length - 1) fun i h => List.mem_range.1 h
  rintro (h | h)
  · have := (hl _ h).1; simp at this
  · have := (hl _ h).2; simp at this

/-! ### C72: mini-batches -/

/-- **C72** (mini-batches). The mini-batches all have the given size, there are as many as fit, and together they are the lines from the first one on, in order: what is left out is fewer lines than a mini-batch. -/
theorem C72_batches {L : Type} {size : Nat} (hs : 0 < size) (lines : List L) :
    ∃ bs, batches size lines = .ok bs ∧ bs.length = lines.length / size ∧ (∀ b ∈ bs, b.length = size) ∧ ∃ rest, bs.flatten ++ rest = lines ∧ rest.length < size := by
  have hd := Nat.div_mul_le_self lines.length size
  refine ⟨_, by rw [batches, if_neg (by omega)], by simp, ?_, lines.drop (lines.length / size * size), ?_, ?_⟩
  · intro b hb
    obtain ⟨k, hk, rfl⟩ := List.mem_map.1 hb
    have hk' : k < lines.length / size := List.mem_range.1 hk
    have : (k + 1) * size ≤ lines.length := le_trans (Nat.mul_le_mul_right _ hk') hd
    rw [List.length_take, List.length_drop, Nat.succ_mul] at *
    omega
  · have : ∀ m, m * size ≤ lines.length → ((List.range m).map fun b => (lines.drop (b * size)).take ((b + 1) * size - b * size)).flatten = lines.take (m * size) := by
      intro m
      induction m with
      | zero => intro _; simp
      | succ m ih =>
        intro h
        have hle : m * size ≤ lines.length := le_trans (Nat.mul_le_mul_right _ (by omega)) h
        rw [List.range_succ, List.map_append, List.flatten_append, ih hle, List.map_singleton, List.flatten_singleton, ← List.take_add]
        congr 1
        rw [Nat.succ_mul]; omega
    rw [this _ hd, List.take_append_drop]
  · rw [List.length_drop]
    have := Nat.mod_lt lines.length hs
    rw [Nat.mod_eq_sub_div_mul] at this
    exact this

/-- mini-batches of one line -/
theorem batches_one {L : Type} (lines : List L) : batches 1 lines = .ok (lines.map fun l => [l]) := by
  rw [batches, if_neg (by omega)]
  congr 1
  apply List.ext_getElem
  · simp
  · intro m h1 h2
    have hm : m < lines.length := by simpa using h2
    simp only [List.getElem_map, List.getElem_range, Nat.mul_one, Nat.add_sub_cancel_left]
    rw [List.take_one_drop_eq_of_lt_length hm]
    rfl

theorem findSample_hit {process : List Char → Res TspSample} {inst : List ℚ} : ∀ {ls : List (List Char)}, (∀ l ∈ ls, ∃ s, process l = .ok s) →
    (∃ l ∈ ls, ∃ s, process l = .ok s ∧ (s.coord.flatMap fun p => [p.1, p.2]) = inst) →
    ∃ l ∈ ls, ∃ s, process l = .ok s ∧ (s.coord.flatMap fun p => [p.1, p.2]) = inst ∧ findSample process inst (ls.map fun l => [l]) = .ok s
  | [], _, h => by obtain ⟨l, hl, _⟩ := h; simp at hl
  | l :: ls, hall, h => by
    obtain ⟨s, hs⟩ := hall l (by simp)
    by_cases hc : (s.coord.flatMap fun p => [p.1, p.2]) = inst
    · refine ⟨l, by simp, s, hs, hc, ?_⟩
      rw [List.map_cons, findSample]
      simp only [ok_bind, hs, if_pos hc, pure_eq_ok]
    · obtain ⟨l', hl', s', e⟩ := findSample_hit (ls := ls) (fun l' h' => hall l' (by simp [h'])) (by
        obtain ⟨l', hl', s', e, e'⟩ := h
        rcases List.mem_cons.1 hl' with rfl | hl'
        · rw [hs] at e; cases e; exact absurd e' hc
        · exact ⟨l', hl', s', e, e'⟩)
      refine ⟨l', by simp [hl'], s', e.1, e.2.1, ?_⟩
      rw [List.map_cons, findSample]
      simp only [ok_bind, hs, if_neg hc]
      exact e.2.2

theorem flat_inj : ∀ {xs ys : List (ℚ × ℚ)}, (xs.flatMap fun p => [p.1, p.2]) = (ys.flatMap fun p => [p.1, p.2]) → xs = ys
  | [], [], _ => rfl
  | [], _ :: _, h => by simp at h
  | _ :: _, [], h => by simp at h
  | x :: xs, y :: ys, h => by
    simp only [List.flatMap_cons, List.cons_append, List.nil_append, List.cons.injEq] at h
    rw [Prod.ext h.1 h.2.1, flat_inj h.2.2]

/-- the coordinates of the instance that `compute_prob` looks for -/
theorem wanted_ok (hx : CityTexts float ct xs) (hne : ct ≠ []) (rest : List Char) :
    floats float ((before " output".toList ([' '].intercalate (cityFields ct) ++ " output".toList ++ rest)).splitOn ' ') = .ok (xs.flatMap fun p => [p.1, p.2]) := by
  rw [before_output, List.splitOn_intercalate]
  · clear hne
    induction hx with
    | nil => rfl
    | @cons p x ct xs h _ ih =>
      have e : cityFields (p :: ct) = p.1 :: p.2 :: cityFields ct := rfl
      rw [e, floats, h.1.reads]
      simp only
      rw [floats, h.2.reads]
      simp only
      rw [ih]
      rfl
  · intro l hl; exact (CityTexts.fields hx hl).1
  · exact cityFields_ne hne
  · intro hm
    have : ∀ L : List (List Char), 'o' ∈ [' '].intercalate L → ∃ l ∈ L, 'o' ∈ l := by
      intro L
      induction L with
      | nil => intro h; simp [List.intercalate] at h
      | cons a L ih =>
        cases L with
        | nil => intro h; exact ⟨a, by simp, by simpa [List.intercalate] using h⟩
        | cons b L =>
          intro h
          rw [inter_cons2, List.mem_append, List.mem_cons] at h
          rcases h with h | h | h
          · exact ⟨a, by simp, h⟩
          · exact absurd h (by decide)
          · obtain ⟨l, hl, h⟩ := ih h
            exact ⟨l, by simp [hl], h⟩
    obtain ⟨l, hl, h⟩ := this _ hm
    exact (CityTexts.fields hx hl).2.1 h

/-- **C72** (the right instance). Whatever order the reader shuffles the lines into, `compute_prob` runs the network on the cities of the first line of the file, and on a sample that the reader made of a line of the file;
if all the lines can be read it does not run out of lines. -/
theorem C72_instance (hx : CityTexts float ct xs) (hne : ct ≠ []) {process : List Char → Res TspSample} {rest : List Char} {lines shuffled : List (List Char)} {others : List (List Char)}
    (hl : lines = ([' '].intercalate (coordTexts ct) ++ " output".toList ++ rest) :: others) (hp : shuffled.Perm lines) (hall : ∀ l ∈ lines, ∃ s, process l = .ok s)
    (hfirst : ∀ s, process (lines.headD []) = .ok s → s.coord = xs) :
    ∃ s, computeSample float process lines shuffled = .ok s ∧ s.coord = xs ∧ ∃ l ∈ lines, process l = .ok s := by
  have hw := wanted_ok hx hne rest
  obtain ⟨l, hls, s, e1, e2, e3⟩ := findSample_hit (ls := shuffled) (inst := xs.flatMap fun p => [p.1, p.2]) (fun l h => hall l (hp.mem_iff.1 h)) (by
    obtain ⟨s, hs⟩ := hall (lines.headD []) (by rw [hl]; simp)
    exact ⟨lines.headD [], hp.mem_iff.2 (by rw [hl]; simp), s, hs, by rw [hfirst s hs]⟩)
  refine ⟨s, ?_, flat_inj e2, l, hp.mem_iff.1 hls, e1⟩
  unfold computeSample
  rw [batches_one, ok_bind, hl]
  simp only
  have hc : coordTexts ct = cityFields ct := rfl
  rw [hc, hw]
  exact e3

/-- **C72** (the file of the driver). On the one-line file that the driver writes for the network, the network is run on the cities of that line. -/
theorem C72_driver (hx : CityTexts float ct xs) (hi : IntTexts int digits) (hn : 3 ≤ xs.length) :
    ∃ s, computeSample float (processLine float int dist knn xs.length) [driverLine digits ct] [driverLine digits ct] = .ok s ∧ s.coord = xs := by
  obtain ⟨s, e1, e2, -⟩ := C71_fails_driver (dist := dist) (knn := knn) hx hi hn
  have hlen := CityTexts.length hx
  have hcne : ct ≠ [] := by intro e; rw [e] at hlen; simp at hlen; omega
  have hform : ∃ rest, driverLine digits ct = [' '].intercalate (coordTexts ct) ++ " output".toList ++ rest := by
    have : " output ".toList = " output".toList ++ [' '] := by decide
    refine ⟨' ' :: (((List.range ct.length).flatMap fun i => digits (i + 1) ++ [' ']) ++ digits 1), ?_⟩
    rw [driverLine, inter_cities, this]
    simp only [List.append_assoc, List.cons_append, List.nil_append]
    rfl
  obtain ⟨rest, hrest⟩ := hform
  obtain ⟨s', h1, h2, -⟩ := C72_instance (process := processLine float int dist knn xs.length) (lines := [driverLine digits ct]) (others := []) hx hcne (by rw [hrest]) (List.Perm.refl _)
    (by intro l h; rw [List.mem_singleton] at h; subst h; exact ⟨s, e1⟩) (by
      intro s' h
      have h : processLine float int dist knn xs.length (driverLine digits ct) = .ok s' := h
      rw [e1] at h; cases h; exact e2)
  exact ⟨s', h1, h2⟩

/-! ### C73: the split into two files -/

/-- **C73** (split). For every value of `val_size`, also a negative one or one larger than the file, each line goes to exactly one of the two files: the validation lines followed by the training lines are the lines of the data set. -/
theorem C73_split {L : Type} (lines : List L) (val : Int) : (splitTrainVal lines val).1 ++ (splitTrainVal lines val).2 = lines := List.take_append_drop _ _

/-- **C73** (sizes). The validation file has `val_size` lines if the data set has that many, otherwise all of them. -/
theorem C73_sizes {L : Type} (lines : List L) (val : Nat) : (splitTrainVal lines val).1.length = min val lines.length ∧ (splitTrainVal lines val).2.length = lines.length - val := by
  simp [splitTrainVal, sliceBound]
  omega

/-! ### The hypotheses are met -/

namespace Ex

/-- decimal texts -/
def dec (k : Nat) : List Char := if k = 0 then ['0'] else (Nat.digits 10 k).reverse.map Nat.digitChar

/-- the number with a decimal text -/
def undec (s : List Char) : Option Nat := some (Nat.ofDigits 10 (s.reverse.map fun c => c.toNat - 48))

theorem digitChar_val : ∀ d < 10, (Nat.digitChar d).toNat - 48 = d ∧ Nat.digitChar d ≠ ' ' := by decide

theorem dec_texts : IntTexts undec dec := by
  intro k
  have hd : ∀ d ∈ Nat.digits 10 k, d < 10 := fun d h => Nat.digits_lt_base (by norm_num) h
  unfold dec undec
  by_cases hk : k = 0
  · subst hk; refine ⟨by decide, by decide⟩
  rw [if_neg hk]
  constructor
  · rw [← List.map_reverse, List.reverse_reverse, List.map_map]
    have : (Nat.digits 10 k).map ((fun c : Char => c.toNat - 48) ∘ Nat.digitChar) = Nat.digits 10 k := by
      conv_rhs => rw [← List.map_id (Nat.digits 10 k)]
      exact List.map_congr_left fun d h => (digitChar_val d (hd d h)).1
    rw [this, Nat.ofDigits_digits]
  · intro h
    obtain ⟨d, h1, h2⟩ := List.mem_map.1 h
    exact (digitChar_val d (hd d (List.mem_reverse.1 h1))).2 h2

/-- one-digit coordinates -/
def float1 (s : List Char) : Option ℚ := match s with
  | [a] => if a.isDigit then some ((a.toNat - 48 : Nat) : ℚ) else none
  | _ => none

/-- four cities: (0,0), (3,4), (6,0), (3,9) -/
def cities4 : List (List Char × List Char) := [(['0'], ['0']), (['3'], ['4']), (['6'], ['0']), (['3'], ['9'])]

theorem cities4_ok : CityTexts float1 cities4 [(0, 0), (3, 4), (6, 0), (3, 9)] := by
  have h : ∀ (a : Char) (x : ℚ), float1 [a] = some x → isSpace a = false ∧ a ≠ 'o' → FloatText float1 [a] x := fun a x h1 h2 =>
    ⟨h1, by simp, by intro ch hc; rw [List.mem_singleton] at hc; subst hc; exact h2⟩
  refine .cons ⟨h _ _ (by decide +kernel) (by decide), h _ _ (by decide +kernel) (by decide)⟩ (.cons ⟨h _ _ (by decide +kernel) (by decide), h _ _ (by decide +kernel) (by decide)⟩
    (.cons ⟨h _ _ (by decide +kernel) (by decide), h _ _ (by decide +kernel) (by decide)⟩ (.cons ⟨h _ _ (by decide +kernel) (by decide), h _ _ (by decide +kernel) (by decide)⟩ .nil)))

/-- the line of the generator for the tour 0, 2, 3, 1 -/
example : genLine dec cities4 [0, 2, 3, 1] = "0 0 3 4 6 0 3 9 output 1 3 4 2 1 \n".toList := by decide +kernel

/-- the line of the driver -/
example : driverLine dec cities4 = "0 0 3 4 6 0 3 9 output 1 2 3 4 1".toList := by decide +kernel

/-- C71 for the line of the generator -/
example : ∃ s, processLine float1 undec (fun p q => |p.1 - q.1| + |p.2 - q.2|) none 4 "0 0 3 4 6 0 3 9 output 1 3 4 2 1 \n".toList = .ok s ∧ s.tour = [0, 2, 3, 1] := by
  obtain ⟨s, h1, -, h2, -⟩ := C71_round_trip (dist := fun p q => |p.1 - q.1| + |p.2 - q.2|) (knn := none) cities4_ok dec_texts (by decide) (t := [0, 2, 3, 1]) (by unfold IsTour; decide)
  refine ⟨s, ?_, h2⟩
  rw [← h1]
  congr 1

/-- C72: eleven lines in mini-batches of three -/
example : batches 3 [1, 2, 3, 4, 5, 6, 7, 8, 9, 10, 11] = .ok [[1, 2, 3], [4, 5, 6], [7, 8, 9]] := by decide

/-- C73: also with a negative number -/
example : splitTrainVal [1, 2, 3, 4, 5] 2 = ([1, 2], [3, 4, 5]) ∧ splitTrainVal [1, 2, 3, 4, 5] (-2) = ([1, 2, 3], [4, 5]) ∧ splitTrainVal [1, 2, 3, 4, 5] (-9) = ([], [1, 2, 3, 4, 5]) := by decide

end Ex
end Verif
