import Verif.Props.Pipeline
import Verif.Props.Machine
import Verif.Props.Driver2

/-!
# C93 and C96: from the file of instances to the numbers that the analyzer reads, with the arithmetic of the machine
-/
namespace Verif
open Verif.Spec
set_option autoImplicit false

/-- the bound of C95 for the rounding errors: `n` cities, relative error `u` -/
def Spec.roundingLoss (n : Nat) (u : ℚ) : ℚ := (6 * (n : ℚ) + 6) * (u * (5 * ((n : ℚ) * n) * rootSteps n))

/-- a matrix of distances that are `double`s of at most 3/2, as between cities of the unit square -/
def Spec.UnitSquare [Rounding] (n : Nat) (w : Nat → Nat → ℚ) : Prop := ∀ i < n, ∀ j < n, i ≠ j → w i j ≤ 3 / 2 ∧ fl (w i j) = w i j

/-- Both modes: what the analyzer reads about an instance of a run that has ended, when the matrix file is a file of the cities in their order. `Q` is anything that is known about the matrix. -/
theorem pipeline_any [Rounding] {W : World} {num : List Char → Option (ℚ × List Char)} (hint : IntReader W.int) {c : Cfg} {n : Nat} {hyb : Bool} (hwall : ∀ w, W.clock w → ∃ x, Decimal w x)
    {range : Text} {l : List Int} (hl : instanceRange W.int range = .ok l) {d d' : Disk} (hrun : Steps W (driverProc W range n hyb, d) (.done, d')) {i : Int} (hi : i ∈ l) {line : Text} {xs : List (ℚ × ℚ)}
    (hinst : IsInstance W (d.files (instancesPath n)) i line xs) (hsz : xs.length = n) (hchars : ∀ q ∈ xs, FloatChars (W.fmt q.1) ∧ FloatChars (W.fmt q.2)) {Q : (Nat → Nat → ℚ) → Prop}
    (hcsv : ∀ m csv, netSize n hyb = .ok m → MatrixOf W n m hyb line xs csv → (∃ w pr, CsvFile num csv xs w pr ∧ SolverInput c xs.length w pr ∧ Q w) ∧ ∀ out, W.solver (n, hyb) (some csv) out → Prints c num csv out) :
    ∃ (r : Report) (t : List Nat) (x : ResultFile × Option FileRow) (w : Nat → Nat → ℚ), Q w ∧ d'.files (resultPath n hyb i) = some (r.text c) ∧ r.cities = xs.map (fun q => (W.fmt q.1, W.fmt q.2)) ∧
      IsTour n t ∧ printCycle r.problem.best = legs t ∧ MachineLength w t r.problem.best.value ∧
      readText i.toNat (r.text c) = .ok x ∧ x.1.inst = i.toNat ∧ SixDecimals r.problem.best.value x.1.cost ∧ x.1.interrupted = r.problem.interrupted ∧
      ∀ u, Precise u → u ≤ 1 / 2 ^ 52 → 14 ≤ n → c.eps ≤ 1 → UnitSquare n w → x.1.interrupted = false → ∀ t', IsTour n t' → walkLength w t ≤ walkLength w t' + c.eps + roundingLoss n u := by
  obtain ⟨m, l', hm, hl', hs, -, -⟩ := C90_results hint hrun
  rw [hl] at hl'
  cases hl'
  obtain ⟨line', cities, csv, out, wall, h1, h2, h3, h4, h5, h6⟩ := hs i hi
  have hsame : line' = line ∧ cities = xs := by
    obtain ⟨-, t, ht, hln, hlc⟩ := hinst
    obtain ⟨-, t', ht', hln', hlc'⟩ := h1
    rw [ht] at ht'
    cases ht'
    rw [hln] at hln'
    cases hln'
    rw [hlc] at hlc'
    cases hlc'
    exact ⟨rfl, rfl⟩
  obtain ⟨rfl, rfl⟩ := hsame
  obtain ⟨⟨w, pr, hf, hin, hQ⟩, hprint⟩ := hcsv m csv hm h2
  obtain ⟨env, fuel, p0, p', printed, ghosh, elapsed, reach, updates, g1, g2, g3, g4, g5, g6, rfl⟩ := hprint _ h3
  obtain ⟨wv, hwv⟩ := hwall wall h4
  obtain ⟨t, ht, hout, hval⟩ := C57_tour hf hin g1 g3
  have hprinted : printed = printCycle p'.best := by
    unfold mainRun at g3
    obtain ⟨g, -, g3⟩ := bind_eq_ok.1 g3
    obtain ⟨r, -, g3⟩ := bind_eq_ok.1 g3
    cases g3
    rfl
  have h2 : 2 ≤ cities.length := by have := hin.three; omega
  have hnn : 0 ≤ p'.best.value := hval.nonneg (legs_each (fun a ha b hb hab => (hin.pos a ha b hb hab).1.le) h2 ht)
  let r : Report := { inst := i.toNat, problem := p', ghosh := ghosh, elapsed := elapsed, reach := reach, updates := updates, cities := cities.map fun q => (W.fmt q.1, W.fmt q.2), wallText := wall, wall := wv }
  have hplain : r.Plain := by
    refine ⟨hnn, g4, g5, g6, ?_, hwv⟩
    intro q hq
    obtain ⟨a, ha, rfl⟩ := List.mem_map.1 hq
    exact hchars a ha
  obtain ⟨x, hx, hread⟩ := C82_read_back (c := c) hplain
  refine ⟨r, t, x, w, hQ, ?_, rfl, by rw [← hsz]; exact ht, ?_, hval, hx, hread.inst, hread.cost, hread.interrupted, ?_⟩
  · rw [h6]
    rfl
  · rw [← hprinted, hout]
  · intro u hP hu h14 heps hsq hni t' ht'
    rw [hread.interrupted] at hni
    subst hsz
    obtain ⟨t0, ht0, ho0, hb⟩ := C95_tour hP hu hf hin g1 h14 heps hsq g2 g3 hni
    have e : walkLength w t = walkLength w t0 := by
      unfold walkLength
      rw [← hout, ← ho0]
    rw [e]
    exact hb t' ht'

/-- tours have nearly the same length for nearly the same distances -/
theorem walkLength_near {n : Nat} {w D : Nat → Nat → ℚ} {δ : ℚ} (hδ : ∀ i < n, ∀ j < n, i ≠ j → |w i j - D i j| ≤ δ) (h2 : 2 ≤ n) {t : List Nat} (ht : IsTour n t) : |walkLength w t - walkLength D t| ≤ n * δ := by
  have hlen : (legs t).length = n := by simp [legs, ht.length_eq]
  have h := legs_each hδ h2 ht
  unfold walkLength
  rw [← hlen]
  generalize legs t = l at h
  clear hlen
  induction l with
  | nil => simp
  | cons a l ih =>
    have h1 := ih fun q hq => h q (by simp [hq])
    have h2 := h a (by simp)
    rw [abs_le] at h1 h2 ⊢
    simp only [List.map_cons, List.sum_cons, List.length_cons]
    push_cast
    constructor <;> linarith

/-- C93 on the machine (classic mode): the same with the rounding errors of the machine. If the run was not interrupted, no tour is shorter than the printed one by more than `EPSILON` and the rounding errors. -/
theorem C93_machine [Rounding] {W : World} {num : List Char → Option (ℚ × List Char)} (hint : IntReader W.int) {c : Cfg} {n : Nat} (hc : c.hybrid = false) (hn : c.maxV = n) (he : 0 ≤ c.eps)
    (hz : ReadsAs num ['0'] 0) (hwall : ∀ w, W.clock w → ∃ x, Decimal w x) {range : Text} {l : List Int}
    (hl : instanceRange W.int range = .ok l) {d d' : Disk} (hrun : Steps W (driverProc W range n false, d) (.done, d')) {i : Int} (hi : i ∈ l) {line : Text} {xs : List (ℚ × ℚ)}
    (hinst : IsInstance W (d.files (instancesPath n)) i line xs) (hg : GoodCities W num n xs)
    (hprint : ∀ out, W.solver (n, false) (some (classicText W.fmt xs (adjacencyMatrix W.dist xs))) out → Prints c num (classicText W.fmt xs (adjacencyMatrix W.dist xs)) out)
    {u : ℚ} (hP : Precise u) (hu : u ≤ 1 / 2 ^ 52) (h14 : 14 ≤ n) (heps : c.eps ≤ 1) (hsq : UnitSquare n (cityDistance W.dist xs)) :
    ∃ (r : Report) (t : List Nat) (x : ResultFile × Option FileRow), d'.files (resultPath n false i) = some (r.text c) ∧ IsTour n t ∧ printCycle r.problem.best = legs t ∧
      readText i.toNat (r.text c) = .ok x ∧ x.1.inst = i.toNat ∧
      (x.1.interrupted = false → ∀ t', IsTour n t' → walkLength (cityDistance W.dist xs) t ≤ walkLength (cityDistance W.dist xs) t' + c.eps + roundingLoss n u) := by
  obtain ⟨r, t, x, w, hQ, h1, h2, h3, h4, h5, h6, h7, h8, h9, h10⟩ := pipeline_any (c := c) (num := num) (Q := fun w => w = adjacencyMatrix W.dist xs) hint hwall hl hrun hi hinst hg.size hg.chars (by
    intro m csv hm hcsv
    rw [MatrixOf, if_neg Bool.false_ne_true] at hcsv
    subst hcsv
    exact ⟨⟨_, _, hg.file hz, hg.input hc hn he, rfl⟩, hprint⟩)
  subst hQ
  refine ⟨r, t, x, h1, h3, h4, h6, h7, fun hni t' ht' => ?_⟩
  have := h10 u hP hu h14 heps (by
    intro i hi j hj hij
    rw [hg.adj hij]
    exact hsq i hi j hj hij) hni t' ht'
  rwa [hg.walk h3, hg.walk ht'] at this

/-- what the network writes for the cities `xs`, at most as many as it is made for (`ms`): the matrix `a` of `ms` cities, as texts, is folded (main.py:143-155) and written; the distances read are `w`,
positive and symmetric, the probabilities are not negative -/
structure Spec.NetworkFile (num : List Char → Option (ℚ × List Char)) (fmt : ℚ → List Char) (ms : Nat) (xs : List (ℚ × ℚ)) (csv : Text) (w : Nat → Nat → ℚ) : Prop where
  size : xs.length ≤ ms ∧ ms ≤ 2 * xs.length
  written : ∃ (gt : List Char → List Char → Bool) (a : Nat → Nat → List Char × List Char) (pr : Nat → Nat → ℚ) (entries : List (List Char × List Char)),
    foldDummies gt xs.length ms (fun k => a (k / ms) (k % ms)) = .ok entries ∧ csv = adjacencyText xs.length (xs.map fun q => (fmt q.1, fmt q.2)) entries ∧
    (∀ i < xs.length, ∀ j < xs.length, ReadsAs num (a i j).1 (w i j) ∧ ReadsAs num (foldedProb gt xs.length ms a i j) (pr i j)) ∧ ∀ i j, i < j → j < xs.length → 0 ≤ pr i j
  symm : ∀ i < xs.length, ∀ j < xs.length, w i j = w j i
  pos : ∀ i < xs.length, ∀ j < xs.length, i ≠ j → 0 < w i j ∧ w i j < FLT_MAX

theorem Spec.NetworkFile.file {num : List Char → Option (ℚ × List Char)} {fmt : ℚ → List Char} {ms : Nat} {xs : List (ℚ × ℚ)} {csv : Text} {w : Nat → Nat → ℚ} (h : NetworkFile num fmt ms xs csv w)
    {c : Cfg} (hn : c.maxV = xs.length) (h3 : 3 ≤ xs.length) (h362 : xs.length ≤ 362) (he : 0 ≤ c.eps) (hx : ∀ q ∈ xs, ReadsAs num (fmt q.1) q.1 ∧ ReadsAs num (fmt q.2) q.2) :
    ∃ pr, CsvFile num csv xs w pr ∧ SolverInput c xs.length w pr := by
  obtain ⟨gt, a, pr, entries, h1, rfl, h2, h4⟩ := h.written
  obtain ⟨l, g, k1, k2, -⟩ := C60_padded (c := c) (mem := ⟨0, 0, 0, false, fun _ => ⟨0, 0, 0, 0, fun _ => 0⟩, fun _ => ⟨0, 0, 0, 0, 0, 0⟩, fun _ _ => ⟨0, 0, 0, 0, 0, 0⟩⟩) (gt := gt)
    (ct := xs.map fun q => (fmt q.1, fmt q.2)) (a := a) (xs := xs) (w := w) (pr := pr) (num := num) (ms := ms) (by omega) h362 (by omega) h.size.1 h.size.2 (by simp) (by
      intro i hi
      simp only [List.getElem_map]
      exact hx _ (List.getElem_mem _)) h2
  rw [h1] at k1
  cases k1
  exact ⟨pr, k2, hn.symm, h3, h362, h.symm, h.pos, fun _ => h4, he⟩

/-- C96. A run of the driver in hybrid mode that has ended, for every instance of 3 to 362 cities, not more than the network is made for and at least half as many, on which the solver does not crash: the result file is a
report of a run, the legs printed in it are those of a tour of the cities of this instance, and the analyzer reads from it the number of the instance, the length of this tour for the network's distances (as the machine adds
it up) to six decimals, and whether the run was interrupted. If it was not, and there are at least 14 cities at distances of at most 3/2, no tour of the cities is shorter by more than `EPSILON`, the rounding errors of the
solver, and `2 n δ`, where `δ` bounds the errors of the network's distances. -/
theorem C96_hybrid [Rounding] {W : World} {num : List Char → Option (ℚ × List Char)} (hint : IntReader W.int) {c : Cfg} {n : Nat} (hn : c.maxV = n) (he : 0 ≤ c.eps) (hwall : ∀ w, W.clock w → ∃ x, Decimal w x)
    {range : Text} {l : List Int} (hl : instanceRange W.int range = .ok l) {d d' : Disk} (hrun : Steps W (driverProc W range n true, d) (.done, d')) {i : Int} (hi : i ∈ l) {line : Text} {xs : List (ℚ × ℚ)}
    (hinst : IsInstance W (d.files (instancesPath n)) i line xs) (hsz : xs.length = n) (h3 : 3 ≤ n) (h362 : n ≤ 362) (hchars : ∀ q ∈ xs, FloatChars (W.fmt q.1) ∧ FloatChars (W.fmt q.2))
    (hx : ∀ q ∈ xs, ReadsAs num (W.fmt q.1) q.1 ∧ ReadsAs num (W.fmt q.2) q.2) {dist : ℚ × ℚ → ℚ × ℚ → ℚ} {δ : ℚ}
    (hnet : ∀ ms csv, netSize n true = .ok ms → MatrixOf W n ms true line xs csv →
      (∃ w, NetworkFile num W.fmt ms xs csv w ∧ ∀ i < n, ∀ j < n, i ≠ j → |w i j - cityDistance dist xs i j| ≤ δ) ∧ ∀ out, W.solver (n, true) (some csv) out → Prints c num csv out) :
    ∃ (r : Report) (t : List Nat) (x : ResultFile × Option FileRow) (w : Nat → Nat → ℚ), (∀ i < n, ∀ j < n, i ≠ j → |w i j - cityDistance dist xs i j| ≤ δ) ∧ d'.files (resultPath n true i) = some (r.text c) ∧
      r.cities = xs.map (fun q => (W.fmt q.1, W.fmt q.2)) ∧ IsTour n t ∧ printCycle r.problem.best = legs t ∧ MachineLength w t r.problem.best.value ∧
      readText i.toNat (r.text c) = .ok x ∧ x.1.inst = i.toNat ∧ SixDecimals r.problem.best.value x.1.cost ∧ x.1.interrupted = r.problem.interrupted ∧
      ∀ u, Precise u → u ≤ 1 / 2 ^ 52 → 14 ≤ n → c.eps ≤ 1 → UnitSquare n w → x.1.interrupted = false →
        ∀ t', IsTour n t' → walkLength (cityDistance dist xs) t ≤ walkLength (cityDistance dist xs) t' + c.eps + roundingLoss n u + 2 * n * δ := by
  obtain ⟨r, t, x, w, hQ, h1, h2, k3, h4, h5, h6, h7, h8, h9, h10⟩ := pipeline_any (c := c) (num := num) (Q := fun w => ∀ i < n, ∀ j < n, i ≠ j → |w i j - cityDistance dist xs i j| ≤ δ) hint hwall hl hrun hi hinst hsz hchars (by
    intro m csv hm hcsv
    obtain ⟨⟨w, hw, hδ⟩, hprint⟩ := hnet m csv hm hcsv
    obtain ⟨pr, hf, hin⟩ := hw.file (c := c) (by omega) (by omega) (by omega) he hx
    exact ⟨⟨w, pr, hf, hin, hδ⟩, hprint⟩)
  refine ⟨r, t, x, w, hQ, h1, h2, k3, h4, h5, h6, h7, h8, h9, ?_⟩
  intro u hP hu h14 heps hsq hni t' ht'
  have a1 := h10 u hP hu h14 heps hsq hni t' ht'
  have a2 := abs_le.1 (walkLength_near hQ (by omega) k3)
  have a3 := abs_le.1 (walkLength_near hQ (by omega) ht')
  linarith [a2.1, a2.2, a3.1, a3.2]

/-- with rounding to the nearest the rounding errors are less than 0.0005 -/
theorem roundingLoss_nearest {n : Nat} (h : n ≤ 362) : roundingLoss n (1 / 2 ^ 53) ≤ 5 / 10 ^ 4 := by
  have h1 : rootSteps n ≤ rootSteps 362 := by
    unfold rootSteps
    have : n * n ≤ 362 * 362 := Nat.mul_le_mul h h
    omega
  have q1 : (rootSteps n : ℚ) ≤ rootSteps 362 := by exact_mod_cast h1
  have q2 : (n : ℚ) ≤ 362 := by exact_mod_cast h
  refine le_trans (b := roundingLoss 362 (1 / 2 ^ 53)) ?_ (by decide +kernel)
  unfold roundingLoss
  push_cast
  gcongr

end Verif
