import Verif.Props.Run
import Verif.Props.ResultFile
import Verif.Props.Main

/-!
# C93: from the file of instances to the numbers that the analyzer reads
-/
namespace Verif
open Verif.Spec
set_option autoImplicit false

/-- the output `out` of a run of the program on the matrix file `csv` that ended normally: whatever the memory and the clock (which does not run backwards), `main` returned the problem `p'`, and `out` is the
log lines and the report about `p'` -/
def Spec.Prints [Rounding] (c : Cfg) (num : List Char → Option (ℚ × List Char)) (csv out : Text) : Prop :=
  ∃ (env : Env) (fuel : Nat) (p0 p' : Problem) (printed : List (Nat × Nat)) (ghosh elapsed reach : ℚ) (updates : List (ℚ × ℚ)), p0.cand < c.maxV ∧ (∀ k, env.clk k = true → env.clk (k + 1) = true) ∧
    mainRun c num env fuel p0 csv = .ok (p', printed) ∧ 0 ≤ elapsed ∧ 0 ≤ reach ∧ (∀ u ∈ updates, 0 ≤ u.1 ∧ 0 ≤ u.2) ∧
    out = updates.flatMap updateLine ++ problemText c ghosh elapsed (lfText reach) p'

/-- the distance of the cities number `i` and `j` -/
def Spec.cityDistance (dist : ℚ × ℚ → ℚ × ℚ → ℚ) (xs : List (ℚ × ℚ)) (i j : Nat) : ℚ := dist (xs.getD i (0, 0)) (xs.getD j (0, 0))

/-- an instance for the classic mode: from 3 to 362 different cities, with coordinates and distances whose texts are read back, and positive symmetric distances -/
structure Spec.GoodCities (W : World) (num : List Char → Option (ℚ × List Char)) (n : Nat) (xs : List (ℚ × ℚ)) : Prop where
  size : xs.length = n
  three : 3 ≤ n
  small : n ≤ 362
  nodup : xs.Nodup
  coords : ∀ q ∈ xs, ReadsAs num (W.fmt q.1) q.1 ∧ ReadsAs num (W.fmt q.2) q.2
  chars : ∀ q ∈ xs, FloatChars (W.fmt q.1) ∧ FloatChars (W.fmt q.2)
  zero : ReadsAs num (W.fmt 0) 0
  dists : ∀ a ∈ xs, ∀ b ∈ xs, ReadsAs num (W.fmt (W.dist a b)) (W.dist a b)
  pos : ∀ a ∈ xs, ∀ b ∈ xs, a ≠ b → 0 < W.dist a b ∧ W.dist a b < FLT_MAX
  symm : ∀ a b, W.dist a b = W.dist b a

section
variable {W : World} {num : List Char → Option (ℚ × List Char)} {n : Nat} {xs : List (ℚ × ℚ)}

theorem getD_mem' {i : Nat} (h : i < xs.length) : xs.getD i (0, 0) ∈ xs := by
  have : xs.getD i (0, 0) = xs[i] := by simp [List.getD, h]
  rw [this]; exact List.getElem_mem _

theorem Spec.GoodCities.adj (g : GoodCities W num n xs) {i j : Nat} (hij : i ≠ j) : adjacencyMatrix W.dist xs i j = cityDistance W.dist xs i j := by
  unfold adjacencyMatrix cityDistance
  rcases Nat.lt_or_gt_of_ne hij with h | h
  · rw [if_pos h]
  · rw [if_neg (by omega), if_pos h, g.symm]

theorem Spec.GoodCities.file (g : GoodCities W num n xs) (hz : ReadsAs num ['0'] 0) :
    CsvFile num (classicText W.fmt xs (adjacencyMatrix W.dist xs)) xs (adjacencyMatrix W.dist xs) (fun _ _ => 0) := by
  unfold classicText
  have := csvText_file (num := num) (xs := xs) (ct := xs.map fun q => (W.fmt q.1, W.fmt q.2)) (rt := fun i j => (W.fmt (adjacencyMatrix W.dist xs i j), ['0']))
    (w := adjacencyMatrix W.dist xs) (pr := fun _ _ => 0) (by simp) (by
      intro i hi
      simp only [List.getElem_map]
      exact g.coords _ (List.getElem_mem _)) (by
      intro i hi j hj
      refine ⟨?_, hz⟩
      by_cases hij : i = j
      · subst hij
        have : adjacencyMatrix W.dist xs i i = 0 := by unfold adjacencyMatrix; rw [if_neg (by omega), if_neg (by omega)]
        rw [this]; exact g.zero
      · rw [g.adj hij]; exact g.dists _ (getD_mem' hi) _ (getD_mem' hj))
  rw [List.map_map] at this
  exact this

theorem Spec.GoodCities.input (g : GoodCities W num n xs) {c : Cfg} (hc : c.hybrid = false) (hn : c.maxV = n) (he : 0 ≤ c.eps) : SolverInput c xs.length (adjacencyMatrix W.dist xs) (fun _ _ => 0) := by
  have h1 := g.size
  refine ⟨by omega, by have := g.three; omega, by have := g.small; omega, fun i _ j _ => adjacencyMatrix_symm W.dist xs i j, ?_, fun h => by rw [hc] at h; (cases h), he⟩
  intro i hi j hj hij
  rw [g.adj hij]
  refine g.pos _ (getD_mem' hi) _ (getD_mem' hj) fun h => hij ?_
  have hget : ∀ k (hk : k < xs.length), xs.getD k (0, 0) = xs[k] := fun k hk => by simp [List.getD, hk]
  rw [hget i hi, hget j hj] at h
  exact (List.Nodup.getElem_inj_iff g.nodup).1 h

theorem Spec.GoodCities.walk_map (g : GoodCities W num n xs) {t : List Nat} (ht : IsTour n t) :
    (legs t).map (fun q => adjacencyMatrix W.dist xs q.1 q.2) = (legs t).map fun q => cityDistance W.dist xs q.1 q.2 := by
  have h3 := g.three
  have h1 := Verif.walk_map (w := adjacencyMatrix W.dist xs) (W := fun e => adjacencyMatrix W.dist xs e.inf e.sup) (n := n) (by
    intro i _ j _ _
    show adjacencyMatrix W.dist xs s(i, j).inf s(i, j).sup = _
    rcases Nat.le_total i j with h | h
    · simp only [Sym2.inf_mk, Sym2.sup_mk, inf_eq_left.2 h, sup_eq_right.2 h]
    · simp only [Sym2.inf_mk, Sym2.sup_mk, inf_eq_right.2 h, sup_eq_left.2 h]; exact adjacencyMatrix_symm _ _ _ _) h3 ht
  rw [← h1]
  refine Verif.walk_map ?_ h3 ht
  intro i hi j hj hij
  rw [← g.adj hij]
  show adjacencyMatrix W.dist xs s(i, j).inf s(i, j).sup = _
  rcases Nat.le_total i j with h | h
  · simp only [Sym2.inf_mk, Sym2.sup_mk, inf_eq_left.2 h, sup_eq_right.2 h]
  · simp only [Sym2.inf_mk, Sym2.sup_mk, inf_eq_right.2 h, sup_eq_left.2 h]; exact adjacencyMatrix_symm _ _ _ _

theorem Spec.GoodCities.walk (g : GoodCities W num n xs) {t : List Nat} (ht : IsTour n t) : walkLength (adjacencyMatrix W.dist xs) t = walkLength (cityDistance W.dist xs) t := by
  unfold walkLength
  rw [g.walk_map ht]

theorem legs_nonneg {w : Nat → Nat → ℚ} {t : List Nat} (ht : IsTour n t) (hw : ∀ i < n, ∀ j < n, i ≠ j → 0 ≤ w i j) (hs : ∀ i < n, 0 ≤ w i i) : ∀ q ∈ legs t, 0 ≤ w q.1 q.2 := by
  intro q hq
  have hm : q.1 ∈ t ∧ q.2 ∈ t := by
    unfold legs at hq
    refine ⟨(List.of_mem_zip hq).1, ?_⟩
    have := (List.of_mem_zip hq).2
    exact List.mem_rotate.1 this
  have hlt : ∀ v ∈ t, v < n := fun v hv => List.mem_range.1 (ht.mem_iff.1 hv)
  by_cases e : q.1 = q.2
  · rw [e]; exact hs _ (hlt _ hm.2)
  · exact hw _ (hlt _ hm.1) _ (hlt _ hm.2) e

end

/-- C93 (classic mode). A run of the driver that has ended, for every instance of the range, of good cities, on which the solver does not crash: the result file is a report of a run, the legs printed in it are those of a tour
of the cities of this instance, and the analyzer reads from it the number of the instance, the length of this tour (as the machine adds it up) to six decimals, and whether the run was interrupted; and in exact arithmetic, if it was not, and there are at least
14 cities at distances of at most 3/2, no tour is shorter than this one by more than `EPSILON`. -/
theorem C93_pipeline [Rounding] {W : World} {num : List Char → Option (ℚ × List Char)} (hint : IntReader W.int) {c : Cfg} {n : Nat} (hc : c.hybrid = false) (hn : c.maxV = n) (he : 0 ≤ c.eps)
    (hz : ReadsAs num ['0'] 0) (hwall : ∀ w, W.clock w → ∃ x, Decimal w x) {range : Text} {l : List Int}
    (hl : instanceRange W.int range = .ok l) {d d' : Disk} (hrun : Steps W (driverProc W range n false, d) (.done, d')) {i : Int} (hi : i ∈ l) {line : Text} {xs : List (ℚ × ℚ)}
    (hinst : IsInstance W (d.files (instancesPath n)) i line xs) (hg : GoodCities W num n xs)
    (hprint : ∀ out, W.solver (n, false) (some (classicText W.fmt xs (adjacencyMatrix W.dist xs))) out → Prints c num (classicText W.fmt xs (adjacencyMatrix W.dist xs)) out) :
    ∃ (r : Report) (t : List Nat) (x : ResultFile × Option FileRow), d'.files (resultPath n false i) = some (r.text c) ∧ r.cities = xs.map (fun q => (W.fmt q.1, W.fmt q.2)) ∧
      IsTour n t ∧ printCycle r.problem.best = legs t ∧ MachineLength (cityDistance W.dist xs) t r.problem.best.value ∧
      readText i.toNat (r.text c) = .ok x ∧ x.1.inst = i.toNat ∧ SixDecimals r.problem.best.value x.1.cost ∧ x.1.interrupted = r.problem.interrupted ∧
      (Exact → 14 ≤ n → (∀ a ∈ xs, ∀ b ∈ xs, W.dist a b ≤ 3 / 2) → x.1.interrupted = false → ∀ t', IsTour n t' → walkLength (cityDistance W.dist xs) t - c.eps ≤ walkLength (cityDistance W.dist xs) t') := by
  obtain ⟨m, l', hm, hl', hs, -, -⟩ := C90_results hint hrun
  rw [hl] at hl'
  cases hl'
  obtain ⟨line', cities, csv, out, wall, h1, h2, h3, h4, h5, h6⟩ := hs i hi
  have hsame : cities = xs := by
    obtain ⟨-, t, ht, hln, hlc⟩ := hinst
    obtain ⟨-, t', ht', hln', hlc'⟩ := h1
    rw [ht] at ht'
    cases ht'
    rw [hln] at hln'
    cases hln'
    rw [hlc] at hlc'
    cases hlc'
    rfl
  subst hsame
  rw [MatrixOf, if_neg Bool.false_ne_true] at h2
  subst h2
  obtain ⟨env, fuel, p0, p', printed, ghosh, elapsed, reach, updates, g1, g2, g3, g4, g5, g6, rfl⟩ := hprint _ h3
  obtain ⟨wv, hwv⟩ := hwall wall h4
  have hf := hg.file hz
  have hin := hg.input hc hn he
  obtain ⟨t, ht, hout, hval0⟩ := C57_tour hf hin g1 g3
  have hprinted : printed = printCycle p'.best := by
    unfold mainRun at g3
    obtain ⟨g, -, g3⟩ := bind_eq_ok.1 g3
    obtain ⟨r, -, g3⟩ := bind_eq_ok.1 g3
    cases g3
    rfl
  rw [hg.size] at ht
  have hval : MachineLength (cityDistance W.dist cities) t p'.best.value := by
    obtain ⟨⟨l, hl, hs⟩, hx⟩ := hval0
    exact ⟨⟨l, by rw [← hg.walk_map ht]; exact hl, hs⟩, fun h => by rw [hx h, hg.walk ht]⟩
  have hnn : 0 ≤ p'.best.value := by
    refine hval0.nonneg (legs_nonneg ht ?_ ?_)
    · intro a ha b hb hab
      exact (hin.pos a (by rw [hg.size]; exact ha) b (by rw [hg.size]; exact hb) hab).1.le
    · intro a ha
      unfold adjacencyMatrix
      rw [if_neg (by omega), if_neg (by omega)]
  let r : Report := { inst := i.toNat, problem := p', ghosh := ghosh, elapsed := elapsed, reach := reach, updates := updates, cities := cities.map fun q => (W.fmt q.1, W.fmt q.2), wallText := wall, wall := wv }
  have hplain : r.Plain := by
    refine ⟨hnn, g4, g5, g6, ?_, hwv⟩
    intro q hq
    obtain ⟨a, ha, rfl⟩ := List.mem_map.1 hq
    exact hg.chars a ha
  obtain ⟨x, hx, hread⟩ := C82_read_back (c := c) hplain
  refine ⟨r, t, x, ?_, rfl, ht, ?_, hval, hx, hread.inst, ?_, hread.interrupted, ?_⟩
  · rw [h6]
    rfl
  · rw [← hprinted, hout]
  · exact hread.cost
  · intro hx h14 hd hni t' ht'
    rw [hread.interrupted] at hni
    have hsz := hg.size
    have key := C57_optimal_partial hx hf hin g1 (by omega) (by
      intro a ha b hb hab
      rw [hg.adj hab]
      exact hd _ (getD_mem' ha) _ (getD_mem' hb)) g2 g3 hni t' (by rw [hsz]; exact ht')
    rw [hval.exact hx] at key
    rw [← hg.walk ht']
    exact key

end Verif
