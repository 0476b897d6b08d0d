import Verif.Model.NetMain
import Verif.Props.Samples
import Verif.Props.Padding

/-!
# C105: what the network program runs the network on
-/
namespace Verif
open Verif.Spec
set_option autoImplicit false

/-! ### The settings -/

/-- the object has the value `v` for the key `k` (if the key is there twice, the last value counts) -/
def Spec.Field (o : PyDict) (k : List Char) (v : JVal) : Prop := ∃ a b, o = a ++ (k, v) :: b ∧ ∀ q ∈ b, q.1 ≠ k

/-- the setting `k` is `v`: the network's own file says so, or it does not have the setting and the defaults say so -/
def Spec.Setting (dflt file : PyDict) (k : List Char) (v : JVal) : Prop := Field file k v ∨ ((∀ q ∈ file, q.1 ≠ k) ∧ Field dflt k v)

/-- the keys of a dict are different -/
def OneEach (d : PyDict) : Prop := (d.map Prod.fst).Nodup

theorem lookup_if (p : List Char × JVal) (d : PyDict) (k : List Char) : (p :: d).lookup k = if k = p.1 then some p.2 else d.lookup k := by
  rw [List.lookup_cons]
  by_cases h : k = p.1
  · rw [if_pos h, beq_iff_eq.2 h]
  · rw [if_neg h, beq_false_of_ne h]

theorem lookup_map_set (d : PyDict) (p : List Char × JVal) (k : List Char) :
    (d.map fun q => if q.1 = p.1 then p else q).lookup k = if k = p.1 then (if d.any (fun q => q.1 == p.1) then some p.2 else none) else d.lookup k := by
  induction d with
  | nil => simp
  | cons q d ih =>
    rw [List.map_cons, lookup_if, lookup_if, ih]
    by_cases h : q.1 = p.1
    · by_cases hk : k = p.1 <;> simp [hk, h]
    · by_cases hk : k = p.1
      · have h' : ¬ p.1 = q.1 := Ne.symm h
        have hb : (q.1 == p.1) = false := beq_false_of_ne h
        rw [if_neg h, if_pos hk, if_pos hk, List.any_cons, hb, Bool.false_or, if_neg (by rw [hk]; exact h')]
      · simp [hk, h]

theorem lookup_setItem (d : PyDict) (p : List Char × JVal) (k : List Char) : (setItem d p).lookup k = if k = p.1 then some p.2 else d.lookup k := by
  unfold setItem
  by_cases h : d.any (fun q => q.1 == p.1) = true
  · rw [if_pos h, lookup_map_set, if_pos h]
  · rw [if_neg h, List.lookup_append, lookup_if]
    by_cases hk : k = p.1
    · rw [if_pos hk, if_pos hk]
      have : d.lookup k = none := by
        rw [List.lookup_eq_none_iff]
        intro q hq
        rw [Bool.not_eq_true, List.any_eq_false] at h
        have := h q hq
        rw [hk]
        exact bne_iff_ne.2 fun e => this (beq_iff_eq.2 e.symm)
      rw [this]; rfl
    · rw [if_neg hk, if_neg hk]
      cases d.lookup k <;> rfl

theorem setItem_oneEach {d : PyDict} (h : OneEach d) (p : List Char × JVal) : OneEach (setItem d p) := by
  unfold setItem
  by_cases ha : d.any (fun q => q.1 == p.1) = true
  · rw [if_pos ha]
    unfold OneEach
    have : (d.map fun q => if q.1 = p.1 then p else q).map Prod.fst = d.map Prod.fst := by
      rw [List.map_map]
      refine List.map_congr_left fun q _ => ?_
      simp only [Function.comp]
      split
      · next h => exact h.symm
      · rfl
    rw [this]; exact h
  · rw [if_neg ha]
    unfold OneEach
    rw [List.map_append, List.nodup_append]
    refine ⟨h, by simp, ?_⟩
    intro a h1 b h2 e
    rw [Bool.not_eq_true, List.any_eq_false] at ha
    obtain ⟨q, hq, rfl⟩ := List.mem_map.1 h1
    simp only [List.map_cons, List.map_nil, List.mem_singleton] at h2
    exact ha q hq (by simp [e, h2])

theorem foldl_lookup : ∀ (o d : PyDict) (k : List Char), (o.foldl setItem d).lookup k = (o.reverse.lookup k).or (d.lookup k) := by
  intro o
  induction o with
  | nil => intro d k; simp
  | cons p o ih =>
    intro d k
    rw [List.foldl_cons, ih, lookup_setItem, List.reverse_cons, List.lookup_append, lookup_if]
    by_cases h : k = p.1
    · rw [if_pos h, if_pos h]; cases o.reverse.lookup k <;> rfl
    · rw [if_neg h, if_neg h]; cases o.reverse.lookup k <;> rfl

theorem foldl_oneEach : ∀ (o d : PyDict), OneEach d → OneEach (o.foldl setItem d) := by
  intro o
  induction o with
  | nil => intro d h; exact h
  | cons p o ih => intro d h; exact ih _ (setItem_oneEach h p)

theorem field_iff {o : PyDict} {k : List Char} {v : JVal} : Field o k v ↔ o.reverse.lookup k = some v := by
  rw [List.lookup_eq_some_iff]
  constructor
  · rintro ⟨a, b, rfl, h⟩
    refine ⟨b.reverse, a.reverse, by simp, ?_⟩
    intro q hq
    exact beq_false_of_ne (Ne.symm (h q (List.mem_reverse.1 hq))) |> fun h => by simpa using h
  · rintro ⟨b, a, e, h⟩
    refine ⟨a.reverse, b.reverse, ?_, ?_⟩
    · rw [← List.reverse_reverse o, e]; simp
    · intro q hq he
      have := h q (List.mem_reverse.1 hq)
      simp [he] at this

theorem oneEach_reverse {d : PyDict} (h : OneEach d) (k : List Char) : d.reverse.lookup k = d.lookup k := by
  have key : ∀ l : PyDict, OneEach l → ∀ v, l.lookup k = some v ↔ (k, v) ∈ l := by
    intro l
    induction l with
    | nil => intro _ v; simp
    | cons p l ih =>
      intro h v
      unfold OneEach at h
      rw [List.map_cons, List.nodup_cons] at h
      rw [List.lookup_cons]
      by_cases hk : k = p.1
      · have : (k == p.1) = true := by simp [hk]
        rw [this]
        simp only [Option.some.injEq, List.mem_cons]
        constructor
        · intro e; left; rw [hk, ← e]
        · rintro (e | e)
          · rw [← e]
          · exact absurd (hk ▸ List.mem_map_of_mem (f := Prod.fst) e) h.1
      · have : (k == p.1) = false := beq_false_of_ne hk
        rw [this]
        simp only [List.mem_cons]
        rw [ih h.2]
        constructor
        · exact Or.inr
        · rintro (e | e)
          · exact absurd (by rw [← e]) hk
          · exact e
  ext v
  have hr : OneEach d.reverse := by unfold OneEach; rw [List.map_reverse, List.nodup_reverse]; exact h
  rw [key _ hr, key _ h, List.mem_reverse]

theorem getConfig_lookup (dflt file : PyDict) (k : List Char) : (getConfig dflt file).lookup k = (file.reverse.lookup k).or (dflt.reverse.lookup k) := by
  have hs : ∀ o : PyDict, (settingsOf o).lookup k = o.reverse.lookup k := fun o => by
    unfold settingsOf
    rw [foldl_lookup]; simp
  unfold getConfig
  have ho : OneEach (settingsOf file) := foldl_oneEach _ _ (by simp [OneEach])
  rw [foldl_lookup, oneEach_reverse ho, hs, hs]

theorem setting_iff {dflt file : PyDict} {k : List Char} {v : JVal} : Setting dflt file k v ↔ (getConfig dflt file).lookup k = some v := by
  unfold Setting
  rw [getConfig_lookup, field_iff, field_iff]
  have hn : (∀ q ∈ file, q.1 ≠ k) ↔ file.reverse.lookup k = none := by
    rw [List.lookup_eq_none_iff]
    constructor
    · intro h q hq; simpa using Ne.symm (h q (List.mem_reverse.1 hq))
    · intro h q hq e
      have := h q (List.mem_reverse.2 hq)
      simp [e] at this
  rw [hn]
  cases file.reverse.lookup k <;> simp

/-- **C105** (settings). A setting has the value that the network's own file gives it, and the default only if that file does not have it; if neither has it, an exception is raised. (The names of methods of `dict` cannot be
used as settings.) -/
theorem C105_settings (dflt file : PyDict) {k : List Char} (hk : k ∉ dictNames) :
    (∀ v, getAttr (getConfig dflt file) k = .ok v ↔ Setting dflt file k v) ∧ ((∀ v, ¬ Setting dflt file k v) → getAttr (getConfig dflt file) k = .error .oob) := by
  unfold getAttr
  rw [if_neg hk]
  constructor
  · intro v
    rw [setting_iff]
    cases (getConfig dflt file).lookup k <;> simp
  · intro h
    cases e : (getConfig dflt file).lookup k with
    | none => rfl
    | some v => exact absurd (setting_iff.2 e) (h v)

/-! ### What the network is run on -/

/-- what the program has at the beginning, for instances of `n` cities and a network for `m` cities: the settings `dflt` and `file`, in which `num_nodes` is `m`, the number of neighbours `nb`, the checkpoint `w` of the
experiment that the settings name; the reader may change the order of the lines; natural numbers are read back -/
structure Spec.Ready {W : Type} (P : NetWorld W) (m : Nat) (dflt file : PyDict) (nb : Int) (w : W) : Prop where
  hasDflt : P.json (chars! "./configs/default.json") = some dflt
  hasFile : P.json (logPath m) = some file
  nodes : Setting dflt file (chars! "num_nodes") (.num m)
  neighbors : Setting dflt file (chars! "num_neighbors") (.num nb)
  weights : ∃ name, Setting dflt file (chars! "expt_name") (.str name) ∧ P.checkpoint (chars! "./logs/" ++ name ++ chars! "/best_val_checkpoint.tar") = some w
  shuffle : ∀ ls, (P.shuffle ls).Perm ls
  int : IntTexts P.int natText

/-- the settings with which the network is run: those of the files, except for the five that the program sets -/
def Spec.RunSettings (n : Nat) (dflt file config : PyDict) : Prop :=
  getAttr config (chars! "gpu_id") = .ok (.str (chars! "0")) ∧ getAttr config (chars! "accumulation_steps") = .ok (.num 1) ∧ getAttr config (chars! "batch_size") = .ok (.num 1) ∧
  getAttr config (chars! "val_filepath") = .ok (.str (netTemp n)) ∧ getAttr config (chars! "test_filepath") = .ok (.str (netTemp n)) ∧
  ∀ k, k ∉ [chars! "gpu_id", chars! "accumulation_steps", chars! "batch_size", chars! "val_filepath", chars! "test_filepath"] → k ∉ dictNames → ∀ v, getAttr config k = .ok v ↔ Setting dflt file k v

/-- the network is run on the cities `cities`, with the neighbours, weights and settings that belong to it -/
structure Spec.RunsOn {W : Type} (P : NetWorld W) (n : Nat) (dflt file : PyDict) (nb : Int) (w : W) (cities : List (ℚ × ℚ)) (r : NetRun W) : Prop where
  coord : r.sample.coord = cities
  edges : ∀ i j, r.sample.edges i j = if i = j then 2 else if nb = -1 then 1 else if j ∈ P.knn nb (distances P.dist cities) i then 1 else 0
  weights : r.weights = w
  settings : RunSettings n dflt file r.config

theorem setAttr_lookup (d : PyDict) (k k' : List Char) (v : JVal) : (setAttr d k v).lookup k' = if k' = k then some v else d.lookup k' := lookup_setItem d (k, v) k'

theorem attr_ok {d : PyDict} {k : List Char} {v : JVal} (h : k ∉ dictNames) : getAttr d k = .ok v ↔ d.lookup k = some v := by
  unfold getAttr
  rw [if_neg h]
  cases d.lookup k <;> simp

theorem attr_of {d : PyDict} {k : List Char} {v : JVal} (h : k ∉ dictNames) (e : d.lookup k = some v) : getAttr d k = .ok v := (attr_ok h).2 e

theorem processLine_coord {float : List Char → Option ℚ} {int : List Char → Option Nat} {dist : ℚ × ℚ → ℚ × ℚ → ℚ} {knn : Option ((Nat → Nat → ℚ) → Nat → List Nat)} {k : Nat} {l : List Char} {s : TspSample}
    (h : processLine float int dist knn k l = .ok s) : s.coord.length = k ∧
      ∀ i j, s.edges i j = if i = j then 2 else match knn with | none => 1 | some f => if j ∈ f (distances dist s.coord) i then 1 else 0 := by
  unfold processLine at h
  obtain ⟨xs, e1, h⟩ := bind_eq_ok.1 h
  obtain ⟨t, -, h⟩ := bind_eq_ok.1 h
  obtain ⟨u, -, h⟩ := bind_eq_ok.1 h
  obtain ⟨j, -, h⟩ := bind_eq_ok.1 h
  obtain ⟨tgt, -, h⟩ := bind_eq_ok.1 h
  obtain ⟨x, -, h⟩ := bind_eq_ok.1 h
  rw [pure_eq_ok] at h
  cases h
  refine ⟨?_, fun i j => by cases knn <;> rfl⟩
  have key : ∀ (k : Nat) (L : List (List Char)) (xs : List (ℚ × ℚ)), readCoords float L k = .ok xs → xs.length = k := by
    intro k
    induction k with
    | zero => intro L xs h; cases L <;> (unfold readCoords at h; cases h; rfl)
    | succ k ih =>
      intro L xs h
      rcases L with _ | ⟨a, _ | ⟨b, L⟩⟩
      · unfold readCoords at h; cases h
      · unfold readCoords at h; cases h
      · unfold readCoords at h
        cases ha : float a with
        | none => rw [ha] at h; cases h
        | some x => 
          cases hb : float b with
          | none => rw [ha, hb] at h; cases h
          | some y =>
            rw [ha, hb] at h
            obtain ⟨t, e, h⟩ := bind_eq_ok.1 h
            rw [pure_eq_ok] at h
            cases h
            rw [List.length_cons, ih _ _ e]
  exact key _ _ _ e1

theorem findSample_found {process : List Char → Res TspSample} {inst : List ℚ} {s : TspSample} : ∀ {bs : List (List (List Char))}, findSample process inst bs = .ok s →
    (s.coord.flatMap fun p => [p.1, p.2]) = inst ∧ ∃ l, process l = .ok s := by
  intro bs
  induction bs with
  | nil => intro h; cases h
  | cons b bs ih =>
    intro h
    unfold findSample at h
    obtain ⟨l, -, h⟩ := bind_eq_ok.1 h
    obtain ⟨s', e, h⟩ := bind_eq_ok.1 h
    split at h
    · next hc =>
      rw [pure_eq_ok] at h
      cases h
      exact ⟨hc, l, e⟩
    · exact ih h

theorem computeSample_found {float : List Char → Option ℚ} {process : List Char → Res TspSample} {l : List Char} {sh : List (List Char)} {s : TspSample} (h : computeSample float process [l] sh = .ok s) :
    floats float ((before " output".toList l).splitOn ' ') = .ok (s.coord.flatMap fun p => [p.1, p.2]) ∧ ∃ l, process l = .ok s := by
  unfold computeSample at h
  obtain ⟨bs, -, h⟩ := bind_eq_ok.1 h
  obtain ⟨f, e, h⟩ := bind_eq_ok.1 h
  obtain ⟨h1, h2⟩ := findSample_found h
  exact ⟨by rw [h1]; exact e, h2⟩

section
variable [Rounding] {W : Type} {P : NetWorld W} {n m : Nat} {dflt file : PyDict} {nb : Int} {w : W}

/-- everything except the file -/
theorem netMain_core (h : Ready P m dflt file nb w) {f : Option (List (List Char))} {draws : List Draw} {lines : List (List Char)} (hf : netFile P n m f draws = .ok (some lines)) :
    ∃ c, RunSettings n dflt file c ∧ netMain P n m f draws =
      (do let s ← computeSample P.float (processLine P.float P.int P.dist (if nb = -1 then none else some (P.knn nb)) m) lines (P.shuffle lines); pure (some { config := c, weights := w, sample := s })) := by
  obtain ⟨name, hname, hw⟩ := h.weights
  have hn := setting_iff.1 h.nodes
  have hnb := setting_iff.1 h.neighbors
  rw [setting_iff] at hname
  have hc : netConfig P n m = .ok (setAttr (setAttr (setAttr (setAttr (getConfig dflt file) (chars! "gpu_id") (.str (chars! "0"))) (chars! "accumulation_steps") (.num 1)) (chars! "val_filepath") (.str (netTemp n)))
      (chars! "test_filepath") (.str (netTemp n))) := by
    unfold netConfig readJson
    rw [h.hasDflt, h.hasFile]
    rfl
  generalize hg : getConfig dflt file = g at *
  refine ⟨setAttr (setAttr (setAttr (setAttr (setAttr g (chars! "gpu_id") (.str (chars! "0"))) (chars! "accumulation_steps") (.num 1)) (chars! "val_filepath") (.str (netTemp n)))
      (chars! "test_filepath") (.str (netTemp n))) (chars! "batch_size") (.num 1), ?_, ?_⟩
  · refine ⟨?_, ?_, ?_, ?_, ?_, ?_⟩
    · rw [attr_ok (by decide)]; simp only [setAttr_lookup]; rfl
    · rw [attr_ok (by decide)]; simp only [setAttr_lookup]; rfl
    · rw [attr_ok (by decide)]; simp only [setAttr_lookup]; rfl
    · rw [attr_ok (by decide)]; simp only [setAttr_lookup]; rfl
    · rw [attr_ok (by decide)]; simp only [setAttr_lookup]; rfl
    · intro k hk hd v
      simp only [List.mem_cons, List.not_mem_nil, or_false, not_or] at hk
      obtain ⟨k1, k2, k3, k4, k5⟩ := hk
      rw [attr_ok hd, setting_iff, hg]
      simp only [setAttr_lookup]
      rw [if_neg k3, if_neg k5, if_neg k4, if_neg k2, if_neg k1]
  · unfold netMain
    rw [hf, ok_bind]
    dsimp only
    rw [hc, ok_bind]
    have a1 : textAttr (setAttr (setAttr (setAttr (setAttr g (chars! "gpu_id") (.str (chars! "0"))) (chars! "accumulation_steps") (.num 1)) (chars! "val_filepath") (.str (netTemp n)))
      (chars! "test_filepath") (.str (netTemp n))) (chars! "expt_name") = .ok name := by
      unfold textAttr
      rw [attr_of (k := chars! "expt_name") (v := .str name) (by decide) (by simp only [setAttr_lookup]; exact hname)]
      rfl
    rw [a1, ok_bind, hw]
    dsimp only
    generalize hb : setAttr (setAttr (setAttr (setAttr (setAttr g (chars! "gpu_id") (.str (chars! "0"))) (chars! "accumulation_steps") (.num 1)) (chars! "val_filepath") (.str (netTemp n)))
      (chars! "test_filepath") (.str (netTemp n))) (chars! "batch_size") (.num 1) = c
    have a2 : intAttr c (chars! "num_nodes") = .ok (m : Int) := by
      unfold intAttr
      rw [attr_of (k := chars! "num_nodes") (v := .num (m : Int)) (by decide) (by rw [← hb]; simp only [setAttr_lookup]; exact hn)]
      rfl
    have a3 : intAttr c (chars! "num_neighbors") = .ok nb := by
      unfold intAttr
      rw [attr_of (k := chars! "num_neighbors") (v := .num nb) (by decide) (by rw [← hb]; simp only [setAttr_lookup]; exact hnb)]
      rfl
    have a4 : textAttr c (chars! "test_filepath") = .ok (netTemp n) := by
      unfold textAttr
      rw [attr_of (k := chars! "test_filepath") (v := .str (netTemp n)) (by decide) (by rw [← hb]; simp only [setAttr_lookup]; rfl)]
      rfl
    rw [a2, ok_bind, a3, ok_bind, a4, ok_bind, if_pos rfl]
    rfl

/-- a file whose first line has the cities `xs`, and whose lines the reader can read -/
theorem netMain_lines (h : Ready P m dflt file nb w) {f : Option (List (List Char))} {draws : List Draw} {l rest : List Char} {others : List (List Char)} {ct : List (List Char × List Char)} {xs : List (ℚ × ℚ)}
    (hx : CityTexts P.float ct xs) (hne : ct ≠ []) (hf : netFile P n m f draws = .ok (some (l :: others))) (hl : l = [' '].intercalate (coordTexts ct) ++ " output".toList ++ rest)
    (hp : ∃ s, processLine P.float P.int P.dist (if nb = -1 then none else some (P.knn nb)) m l = .ok s ∧ s.coord = xs)
    (ho : ∀ k ∈ others, ∃ s, processLine P.float P.int P.dist (if nb = -1 then none else some (P.knn nb)) m k = .ok s) :
    ∃ r, netMain P n m f draws = .ok (some r) ∧ RunsOn P n dflt file nb w xs r := by
  obtain ⟨c, hc, e⟩ := netMain_core h hf
  obtain ⟨s0, e0, hs0⟩ := hp
  obtain ⟨s, e1, e2, l', hl', e3⟩ := C72_instance (process := processLine P.float P.int P.dist (if nb = -1 then none else some (P.knn nb)) m) (lines := l :: others) (shuffled := P.shuffle (l :: others)) (others := others) hx hne (by rw [hl])
    (h.shuffle _) (by
      intro k hk
      rcases List.mem_cons.1 hk with e | hk
      · subst e; exact ⟨s0, e0⟩
      · exact ho k hk) (by
      intro s' h'
      have h' : processLine P.float P.int P.dist (if nb = -1 then none else some (P.knn nb)) m l = .ok s' := h'
      rw [e0] at h'; cases h'; exact hs0)
  refine ⟨_, by rw [e, e1]; rfl, e2, ?_, rfl, hc⟩
  intro i j
  by_cases hnb : nb = -1
  · rw [if_pos hnb] at e3
    rw [(processLine_coord e3).2, if_pos hnb]
  · rw [if_neg hnb] at e3
    rw [(processLine_coord e3).2, e2, if_neg hnb]

/-- a file of one line with the cities `xs` that the reader can read -/
theorem netMain_line (h : Ready P m dflt file nb w) {f : Option (List (List Char))} {draws : List Draw} {l rest : List Char} {ct : List (List Char × List Char)} {xs : List (ℚ × ℚ)} (hx : CityTexts P.float ct xs)
    (hne : ct ≠ []) (hf : netFile P n m f draws = .ok (some [l])) (hl : l = [' '].intercalate (coordTexts ct) ++ " output".toList ++ rest)
    (hp : ∃ s, processLine P.float P.int P.dist (if nb = -1 then none else some (P.knn nb)) m l = .ok s ∧ s.coord = xs) :
    ∃ r, netMain P n m f draws = .ok (some r) ∧ RunsOn P n dflt file nb w xs r :=
  netMain_lines h hx hne hf hl hp (by simp)

theorem genLine_form (digits : Nat → List Char) (ct : List (List Char × List Char)) (t : List Nat) : ∃ rest, genLine digits ct t = [' '].intercalate (coordTexts ct) ++ " output".toList ++ rest := by
  have : " output ".toList = " output".toList ++ [' '] := by decide
  refine ⟨' ' :: ([' '].intercalate (t.map fun i => digits (i + 1)) ++ ([' '] ++ digits (t.headD 0 + 1) ++ [' '] ++ ['\n'])), ?_⟩
  rw [genLine, inter_cities, this]
  simp only [List.append_assoc, List.cons_append, List.nil_append]
  rfl

theorem driverLine_form (digits : Nat → List Char) (ct : List (List Char × List Char)) : ∃ rest, driverLine digits ct = [' '].intercalate (coordTexts ct) ++ " output".toList ++ rest := by
  have : " output ".toList = " output".toList ++ [' '] := by decide
  refine ⟨' ' :: (((List.range ct.length).flatMap fun i => digits (i + 1) ++ [' ']) ++ digits 1), ?_⟩
  rw [driverLine, inter_cities, this]
  simp only [List.append_assoc, List.cons_append, List.nil_append]
  rfl

variable {ct : List (List Char × List Char)} {xs : List (ℚ × ℚ)} {t : List Nat}

/-- **C105** (instances of the size of the network). The network is run on the cities of the instance, with the weights and settings of the network for so many cities. -/
theorem C105_same (h : Ready P xs.length dflt file nb w) (hx : CityTexts P.float ct xs) (hn : 2 ≤ xs.length) (ht : IsTour xs.length t) (draws : List Draw) :
    ∃ r, netMain P xs.length xs.length (some [genLine natText ct t]) draws = .ok (some r) ∧ RunsOn P xs.length dflt file nb w xs r := by
  have hcne : ct ≠ [] := by intro e; have := CityTexts.length hx; rw [e] at this; simp at this; omega
  obtain ⟨rest, hr⟩ := genLine_form natText ct t
  obtain ⟨s, e1, e2, -⟩ := C71_round_trip (dist := P.dist) (knn := if nb = -1 then none else some (P.knn nb)) hx h.int hn ht
  exact netMain_line h hx hcne (by unfold netFile; rw [if_neg (lt_irrefl _), if_neg (lt_irrefl _)]; rfl) hr ⟨s, e1, e2⟩

/-- **C105** (files with more instances of the size of the network). Whatever order the reader shuffles the lines into, the network is run on the cities of the first line of the file. -/
theorem C105_same_first (h : Ready P xs.length dflt file nb w) (hx : CityTexts P.float ct xs) (hn : 2 ≤ xs.length) (ht : IsTour xs.length t) {others : List (List Char)}
    (ho : ∀ l ∈ others, ∃ ct' ys t', l = genLine natText ct' t' ∧ CityTexts P.float ct' ys ∧ ys.length = xs.length ∧ IsTour xs.length t') (draws : List Draw) :
    ∃ r, netMain P xs.length xs.length (some (genLine natText ct t :: others)) draws = .ok (some r) ∧ RunsOn P xs.length dflt file nb w xs r := by
  have hcne : ct ≠ [] := by intro e; have := CityTexts.length hx; rw [e] at this; simp at this; omega
  obtain ⟨rest, hr⟩ := genLine_form natText ct t
  obtain ⟨s, e1, e2, -⟩ := C71_round_trip (dist := P.dist) (knn := if nb = -1 then none else some (P.knn nb)) hx h.int hn ht
  refine netMain_lines h hx hcne (by unfold netFile; rw [if_neg (lt_irrefl _), if_neg (lt_irrefl _)]; rfl) hr ⟨s, e1, e2⟩ ?_
  intro l hl
  obtain ⟨ct', ys, t', rfl, hy, hlen, ht'⟩ := ho l hl
  rw [← hlen] at ht' ⊢
  obtain ⟨s', e1', -⟩ := C71_round_trip (dist := P.dist) (knn := if nb = -1 then none else some (P.knn nb)) hy h.int (by omega) ht'
  exact ⟨s', e1'⟩

/-- **C105** (smaller instances; partial, as C99: cities near the origin). If the padding ends, the network for `m` cities is run on the cities of the instance and after them the dummies, `m` cities in all. -/
theorem C105_smaller_partial (h : Ready P m dflt file nb w) (hx : CityTexts P.float ct xs) (hn : 3 ≤ xs.length) (hm : xs.length < m) (hs : ∀ x, FloatText P.float (P.str (fl x)) (fl x)) (hb : ∀ p ∈ xs, |p.1| ≤ 3 ∧ |p.2| ≤ 3)
    {draws : List Draw} (hd : ∀ d ∈ draws, PossibleDraw d) :
    ∃ o, netMain P xs.length m (some [genLine natText ct t]) draws = .ok o ∧ ∀ r, o = some r → ∃ ds, Dummies xs (m - xs.length) ds ∧ RunsOn P xs.length dflt file nb w (xs ++ ds) r := by
  obtain ⟨rest, hr⟩ := genLine_form natText ct t
  obtain ⟨o, e1, e2⟩ := C99_padded_partial (digits := natText) hx h.int hn hs hb (le_of_lt hm) rest hd P.dist (if nb = -1 then none else some (P.knn nb))
  rw [← hr] at e1
  have hf : netFile P xs.length m (some [genLine natText ct t]) draws = .ok (o.map fun l => [l]) := by
    unfold netFile
    rw [if_pos hm]
    dsimp only
    rw [e1, ok_bind]
    cases o <;> rfl
  cases o with
  | none =>
    refine ⟨none, ?_, fun r h => by cases h⟩
    unfold netMain
    rw [hf, ok_bind]
    rfl
  | some out =>
    obtain ⟨dt, ds, d1, d2, d3, -, smp, d4, d5⟩ := e2 out rfl
    obtain ⟨rest', hr'⟩ := driverLine_form natText (ct ++ dt)
    have hne : ct ++ dt ≠ [] := by
      intro e
      have := CityTexts.length d2
      rw [e] at this
      simp at this
      omega
    obtain ⟨-, l, e3⟩ := computeSample_found d4
    have hp : ∃ s, processLine P.float P.int P.dist (if nb = -1 then none else some (P.knn nb)) m out = .ok s ∧ s.coord = xs ++ ds := by
      have hm' : m = (xs ++ ds).length := by rw [← d5, (processLine_coord e3).1]
      obtain ⟨s, k1, k2, -⟩ := C71_fails_driver (dist := P.dist) (knn := if nb = -1 then none else some (P.knn nb)) d2 h.int (by rw [List.length_append]; omega)
      exact ⟨s, by rw [d3, hm']; exact k1, k2⟩
    obtain ⟨r, k1, k2⟩ := netMain_line h d2 hne hf (d3.trans hr') hp
    refine ⟨some r, k1, ?_⟩
    rintro r' ⟨⟩
    exact ⟨ds, d1, k2⟩

/-- the texts of the medoids -/
def medTexts (str : ℚ → List Char) (ms : List (ℚ × ℚ)) : List (List Char × List Char) := ms.map fun q => (str q.1, str q.2)

theorem fixInstanceSize_line {ms : List (ℚ × ℚ)} (str : ℚ → List Char) :
    medoidsText str ms ++ (chars! " output " ++ (((List.range ms.length).flatMap fun i => natText (i + 1) ++ [' ']) ++ natText 1)) = driverLine natText (medTexts str ms) := by
  unfold medoidsText driverLine medTexts
  rw [List.map_map, List.length_map]
  rfl

theorem netFile_larger (hx : CityTexts P.float ct xs) (hcne : ct ≠ []) (hm : m < xs.length) (draws : List Draw) :
    netFile P xs.length m (some [genLine natText ct t]) draws = (do let t ← fixInstanceSize P xs 100; pure (some [t])) := by
  obtain ⟨rest, hr⟩ := genLine_form natText ct t
  have hc := (C61_line (CityTexts.length hx) hcne (fun i h1 h2 => List.Forall₂.get hx h1 h2) rest).1
  unfold netFile
  rw [if_neg (by omega), if_pos hm]
  unfold netInstance
  dsimp only
  rw [hr, hc, ok_bind]

/-- **C105** (larger instances). The network for 100 cities is run on the 100 medoids of the instance. -/
theorem C105_larger (h : Ready P 100 dflt file nb w) (hx : CityTexts P.float ct xs) (hm : 100 < xs.length) {ms : List (ℚ × ℚ)} (hk : P.cluster xs 100 = .ok ms) (hl : ms.length = 100)
    (hs : ∀ q ∈ ms, FloatText P.float (P.str q.1) q.1 ∧ FloatText P.float (P.str q.2) q.2) (draws : List Draw) :
    ∃ r, netMain P xs.length 100 (some [genLine natText ct t]) draws = .ok (some r) ∧ RunsOn P xs.length dflt file nb w ms r := by
  have hcne : ct ≠ [] := by intro e; have := CityTexts.length hx; rw [e] at this; simp at this; omega
  have hmt : CityTexts P.float (medTexts P.str ms) ms := by
    unfold CityTexts medTexts
    rw [List.forall₂_map_left_iff]
    exact List.forall₂_same.2 hs
  have hmne : medTexts P.str ms ≠ [] := by
    intro e
    have := CityTexts.length hmt
    rw [e] at this
    simp at this
    omega
  obtain ⟨rest, hr⟩ := driverLine_form natText (medTexts P.str ms)
  obtain ⟨s, k1, k2, -⟩ := C71_fails_driver (dist := P.dist) (knn := if nb = -1 then none else some (P.knn nb)) hmt h.int (by omega)
  refine netMain_line h hmt hmne ?_ hr ⟨s, by rw [← k1, hl], k2⟩
  rw [netFile_larger hx hcne hm, fixInstanceSize, hk]
  rw [ok_bind, pure_eq_ok, ok_bind, ← hl, fixInstanceSize_line]
  rfl

/-- **C105** fails for larger instances and networks for another number of cities: `fix_instance_size` always makes 100 cities, and the program ends with an exception. -/
theorem C105_fails (h : Ready P m dflt file nb w) (hx : CityTexts P.float ct xs) (hm : m < xs.length) (h100 : m ≠ 100) (hk : ∀ ms, P.cluster xs 100 = .ok ms → ms.length = 100 ∧
    ∀ q ∈ ms, FloatText P.float (P.str q.1) q.1 ∧ FloatText P.float (P.str q.2) q.2) (draws : List Draw) : ∃ e, netMain P xs.length m (some [genLine natText ct t]) draws = .error e := by
  have hcne : ct ≠ [] := by intro e; have := CityTexts.length hx; rw [e] at this; simp at this; omega
  have hf := netFile_larger (P := P) (t := t) hx hcne hm draws
  unfold fixInstanceSize at hf
  cases hc : P.cluster xs 100 with
  | error e =>
    refine ⟨e, ?_⟩
    unfold netMain
    rw [hf, hc]
    rfl
  | ok ms =>
    obtain ⟨hl, hs⟩ := hk ms hc
    rw [hc, ok_bind, pure_eq_ok, ok_bind, ← hl, fixInstanceSize_line] at hf
    obtain ⟨c, -, e⟩ := netMain_core h hf
    rw [e]
    have hmt : CityTexts P.float (medTexts P.str ms) ms := by
      unfold CityTexts medTexts
      rw [List.forall₂_map_left_iff]
      exact List.forall₂_same.2 hs
    have hmne : medTexts P.str ms ≠ [] := by
      intro e
      have := CityTexts.length hmt
      rw [e] at this
      simp at this
      omega
    cases hcs : computeSample P.float (processLine P.float P.int P.dist (if nb = -1 then none else some (P.knn nb)) m) [driverLine natText (medTexts P.str ms)] (P.shuffle [driverLine natText (medTexts P.str ms)]) with
    | error e => exact ⟨e, rfl⟩
    | ok s =>
      exfalso
      obtain ⟨h1, l, h2⟩ := computeSample_found hcs
      obtain ⟨rest, hr⟩ := driverLine_form natText (medTexts P.str ms)
      have h3 := wanted_ok hmt hmne rest
      have hct : coordTexts (medTexts P.str ms) = cityFields (medTexts P.str ms) := rfl
      rw [hr, hct, h3] at h1
      have := flat_inj (Except.ok.inj h1)
      have h4 := (processLine_coord h2).1
      rw [← this, hl] at h4
      exact h100 h4.symm

/-- the driver does not run into this: it takes a network for 100 cities for every instance that is larger than the network -/
theorem C105_driver {n m : Nat} (h : modelSize n = .ok m) : n ≤ m ∨ m = 100 := by
  unfold modelSize at h
  split at h
  · cases h
  · split at h
    · cases h; left; assumption
    · split at h
      · cases h; left; assumption
      · cases h; right; rfl

end

end Verif
