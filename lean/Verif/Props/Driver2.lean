import Verif.Props.Driver
import Verif.Props.Reader
import Mathlib.Data.List.GetD

/-!
# C58 – C60: the files of the Python driver
-/
namespace Verif
open Verif.Spec
set_option autoImplicit false

/-! ### the text of the file -/

theorem writeItems_append (n : Nat) : ∀ (l l' : List (List Char)) (e : Nat), writeItems n e (l ++ l') = writeItems n e l ++ writeItems n (e + l.length) l' := by
  intro l
  induction l with
  | nil => intro l' e; simp [writeItems]
  | cons it l ih =>
    intro l' e
    rw [List.cons_append, writeItems, writeItems, ih, List.append_assoc, List.length_cons, show e + 1 + l.length = e + (l.length + 1) by omega]

theorem writeItems_part {n : Nat} : ∀ (l : List (List Char)) (e : Nat), (∀ k < l.length, (e + k + 1) % n ≠ 0) → writeItems n e l = l.flatten := by
  intro l
  induction l with
  | nil => intro e _; rfl
  | cons it l ih =>
    intro e h
    rw [writeItems, if_neg (h 0 (by simp)), ih (e + 1) (fun k hk => by have := h (k + 1) (by simp; omega); rwa [show e + 1 + k + 1 = e + (k + 1) + 1 by omega]), List.flatten_cons]

theorem writeItems_row {n r : Nat} (hn : 0 < n) {l : List (List Char)} (hl : l.length = n) : writeItems n (r * n) l = l.flatten ++ ['\n'] := by
  have hne : l ≠ [] := by rintro rfl; simp at hl; omega
  obtain ⟨l0, x, rfl⟩ : ∃ l0 x, l = l0 ++ [x] := ⟨l.dropLast, l.getLast hne, (List.dropLast_append_getLast hne).symm⟩
  have hl0 : l0.length + 1 = n := by simpa using hl
  rw [writeItems_append, writeItems_part l0 (r * n), List.flatten_append]
  · have : (r * n + l0.length + 1) % n = 0 := by rw [Nat.add_assoc, hl0, Nat.add_mod_right, Nat.mul_mod_left]
    simp [writeItems, this]
  · intro k hk
    rw [Nat.add_assoc, Nat.mul_add_mod' , Nat.mod_eq_of_lt (by omega)]
    omega

theorem writeItems_rows {n : Nat} (hn : 0 < n) : ∀ (rows : List (List (List Char))) (r : Nat), (∀ row ∈ rows, row.length = n) → writeItems n (r * n) rows.flatten = rows.flatMap fun row => row.flatten ++ ['\n'] := by
  intro rows
  induction rows with
  | nil => intro r _; rfl
  | cons row rows ih =>
    intro r h
    have hr := h row (by simp)
    rw [List.flatten_cons, writeItems_append, writeItems_row hn hr, hr, show r * n + n = (r + 1) * n by rw [Nat.succ_mul], ih (r + 1) (fun x hx => h x (by simp [hx])), List.flatMap_cons]

/-- the file for a square matrix of texts: the rows, each cell followed by a semicolon, each row by a newline -/
theorem adjacencyText_eq {n : Nat} (hn : 0 < n) {ct : List (List Char × List Char)} {rt : Nat → Nat → List Char × List Char} :
    adjacencyText n ct ((List.range n).flatMap fun i => (List.range n).map fun j => rt i j) =
      csvText (ct.map fun p => cellText p.1 p.2) ((List.range n).map fun k => (List.range n).map fun j => cellText (rt k j).1 (rt k j).2) := by
  unfold adjacencyText csvText
  congr 1
  have h := writeItems_rows hn ((List.range n).map fun i => (List.range n).map fun j => cellText (rt i j).1 (rt i j).2 ++ [';']) 0 (by
    intro row hrow
    obtain ⟨i, -, rfl⟩ := List.mem_map.1 hrow
    simp)
  rw [Nat.zero_mul] at h
  rw [List.map_flatMap]
  simp only [List.map_map, Function.comp_def]
  rw [List.flatMap_def, h, List.flatMap_map, List.flatMap_map]
  simp only [List.flatMap_def, List.map_map, Function.comp_def]

variable {c : Cfg} {mem : Graph} {num : List Char → Option (ℚ × List Char)} {xs : List (ℚ × ℚ)} {w pr : Nat → Nat → ℚ}

/-- C60. Hybrid mode, instances of the size of the model or padded with at most as many dummies as cities: the file that the network driver writes is read as the graph of the cities of the instance, with the
distances of the network's input and the folded probabilities. `ct` are the texts of the coordinates, `a` those of the network. At most 362 cities. -/
theorem C60_padded {gt : List Char → List Char → Bool} {ms : Nat} {ct : List (List Char × List Char)} {a : Nat → Nat → List Char × List Char} (hn : xs.length ≤ c.maxV)
    (h362 : xs.length ≤ 362) (h0 : 0 < xs.length) (hle : xs.length ≤ ms) (h2 : ms ≤ 2 * xs.length) (hc : ct.length = xs.length)
    (hct : ∀ i (hi : i < ct.length), ReadsAs num ct[i].1 (xs[i]'(hc ▸ hi)).1 ∧ ReadsAs num ct[i].2 (xs[i]'(hc ▸ hi)).2)
    (hw : ∀ i < xs.length, ∀ j < xs.length, ReadsAs num (a i j).1 (w i j) ∧ ReadsAs num (foldedProb gt xs.length ms a i j) (pr i j)) :
    ∃ l g, foldDummies gt xs.length ms (fun k => a (k / ms) (k % ms)) = .ok l ∧ CsvFile num (adjacencyText xs.length ct l) xs w pr ∧ readCsv c num mem (adjacencyText xs.length ct l) = .ok g ∧ IsCsvGraph c mem xs w pr g := by
  have hf := csvText_file (num := num) (xs := xs) (ct := ct) (rt := fun i j => ((a i j).1, foldedProb gt xs.length ms a i j)) (w := w) (pr := pr) hc hct hw
  obtain ⟨g, e, hg⟩ := C48_csv_partial (c := c) (mem := mem) hf hn h362
  refine ⟨_, g, C54_fold_partial h0 hle h2, ?_, ?_, hg⟩
  · rw [adjacencyText_eq h0]; exact hf
  · rw [adjacencyText_eq h0]; exact e

/-! ### instances larger than the model -/

section grow
variable {P E : Type} [DecidableEq P] {cell : P → P → E} {zero : E}

/-- the matrix of the cities `ps`: `m` for the first `k` cities, zero on the rest of the diagonal, the distance for the other pairs -/
structure Spec.GrownMatrix (cell : P → P → E) (zero : E) (k : Nat) (m : List (List E)) (ps : List P) (rows : List (List E)) : Prop where
  size : rows.length = ps.length
  square : ∀ i (hi : i < rows.length), rows[i].length = ps.length
  corner : ∀ i (hi : i < rows.length) j (hj : j < rows[i].length), i < k → j < k → m[i]?.bind (·[j]?) = some rows[i][j]
  diag : ∀ i (hi : i < rows.length) (hj : i < rows[i].length), k ≤ i → rows[i][i] = zero
  lower : ∀ i (hi : i < ps.length) j (hj : j < i) (h1 : i < rows.length) (h2 : j < rows[i].length), k ≤ i → rows[i][j] = cell ps[i] (ps[j]'(by omega))
  upper : ∀ i (hi : i < ps.length) j (hj : j < i) (h1 : j < rows.length) (h2 : i < rows[j].length), k ≤ i → rows[j][i] = cell ps[i] (ps[j]'(by omega))

theorem growStep_inv {k : Nat} {m : List (List E)} {ps : List P} {rows : List (List E)} (hk : k ≤ ps.length) (h : GrownMatrix cell zero k m ps rows) (p : P) :
    GrownMatrix cell zero k m (growStep cell zero (rows, ps) p).2 (growStep cell zero (rows, ps) p).1 := by
  unfold growStep
  by_cases hp : p ∈ ps
  · simp only [hp, if_true]; exact h
  simp only [hp, if_false]
  have hsz := h.size
  have hz : (List.zipWith (fun row q => row ++ [cell p q]) rows ps).length = ps.length := by simp [hsz]
  have hlen : (List.zipWith (fun row q => row ++ [cell p q]) rows ps ++ [(ps.map fun q => cell p q) ++ [zero]]).length = ps.length + 1 := by rw [List.length_append, hz]; rfl
  have hold : ∀ i (hi : i < ps.length), (List.zipWith (fun row q => row ++ [cell p q]) rows ps ++ [(ps.map fun q => cell p q) ++ [zero]])[i]'(by omega) = rows[i]'(by omega) ++ [cell p ps[i]] := by
    intro i hi
    rw [List.getElem_append_left (by omega), List.getElem_zipWith]
  have hnew : (List.zipWith (fun row q => row ++ [cell p q]) rows ps ++ [(ps.map fun q => cell p q) ++ [zero]])[ps.length]'(by omega) = (ps.map fun q => cell p q) ++ [zero] := by
    rw [List.getElem_append_right (by omega)]
    simp [hz]
  have hps : ∀ i (hi : i < ps.length), (ps ++ [p])[i]'(by simp; omega) = ps[i] := fun i hi => List.getElem_append_left hi
  have hpl : (ps ++ [p])[ps.length]'(by simp) = p := by simp
  refine ⟨?_, ?_, ?_, ?_, ?_, ?_⟩
  · rw [hlen]; simp
  · intro i hi
    rw [hlen] at hi
    rcases Nat.lt_succ_iff_lt_or_eq.1 hi with h' | rfl
    · rw [hold i h', List.length_append, h.square i (by omega)]; simp
    · rw [hnew]; simp
  · intro i hi j hj hik hjk
    have hi' : i < ps.length := by omega
    simp only [hold i hi'] at hj ⊢
    rw [List.getElem_append_left (by rw [h.square i (by omega)]; omega)]
    exact h.corner i (by omega) j (by rw [h.square i (by omega)]; omega) hik hjk
  · intro i hi hj hki
    rw [hlen] at hi
    rcases Nat.lt_succ_iff_lt_or_eq.1 hi with h' | rfl
    · simp only [hold i h'] at hj ⊢
      rw [List.getElem_append_left (by rw [h.square i (by omega)]; omega)]
      exact h.diag i (by omega) (by rw [h.square i (by omega)]; omega) hki
    · simp only [hnew]
      rw [List.getElem_append_right (by simp)]
      simp
  · intro i hi j hj h1 h2 hki
    rw [hlen] at h1
    rcases Nat.lt_succ_iff_lt_or_eq.1 h1 with h' | rfl
    · simp only [hold i h'] at h2 ⊢
      rw [List.getElem_append_left (by rw [h.square i (by omega)]; omega), hps i h', hps j (by omega)]
      exact h.lower i h' j hj (by omega) (by rw [h.square i (by omega)]; omega) hki
    · simp only [hnew]
      rw [List.getElem_append_left (by simp; exact hj), List.getElem_map, hpl, hps j hj]
  · intro i hi j hj h1 h2 hki
    have hi' : i < ps.length + 1 := by simpa using hi
    have hj' : j < ps.length := by omega
    simp only [hold j hj'] at h2 ⊢
    have hr := h.square j (by omega)
    rcases Nat.lt_succ_iff_lt_or_eq.1 hi' with h' | rfl
    · rw [List.getElem_append_left (by rw [hr]; omega), hps i h', hps j hj']
      exact h.upper i h' j hj (by omega) (by rw [hr]; omega) hki
    · rw [List.getElem_append_right (by rw [hr])]
      simp only [hr, Nat.sub_self, List.getElem_cons_zero]
      rw [hpl, hps j hj']

theorem growStep_len (s : List (List E) × List P) (p : P) : s.2.length ≤ (growStep cell zero s p).2.length := by
  unfold growStep; split <;> simp

theorem grow_foldl {k : Nat} {m : List (List E)} : ∀ (graph : List P) (s : List (List E) × List P), k ≤ s.2.length → GrownMatrix cell zero k m s.2 s.1 →
    GrownMatrix cell zero k m (graph.foldl (growStep cell zero) s).2 (graph.foldl (growStep cell zero) s).1 := by
  intro graph
  induction graph with
  | nil => intro s _ h; exact h
  | cons p graph ih =>
    intro s hk h
    exact ih _ (hk.trans (growStep_len s p)) (growStep_inv hk h p)

theorem grow_cities : ∀ (graph : List P) (s : List (List E) × List P), graph.Nodup → (graph.foldl (growStep cell zero) s).2 = s.2 ++ graph.filter (· ∉ s.2) := by
  intro graph
  induction graph with
  | nil => intro s _; simp
  | cons p graph ih =>
    intro s hnd
    rw [List.nodup_cons] at hnd
    rw [List.foldl_cons, ih _ hnd.2]
    unfold growStep
    by_cases hp : p ∈ s.2
    · simp [hp]
    · simp only [hp, if_false, List.filter_cons, not_false_eq_true, decide_true, if_true]
      rw [List.append_assoc, List.singleton_append]
      congr 2
      apply List.filter_congr
      intro x hx
      have : x ≠ p := by rintro rfl; exact hnd.1 hx
      simp [this]

/-- C59. For an instance larger than the model the driver writes a square matrix for the cities of the instance, each exactly once: the medoids with the network's entries, and for every pair with another
city the distance, in both directions, with probability zero. -/
theorem C59_clustered {m : List (List E)} {medoids graph : List P} (hm : m.length = medoids.length) (hsq : ∀ row ∈ m, row.length = medoids.length) (hnd : graph.Nodup) (hmd : medoids.Nodup)
    (hsub : ∀ p ∈ medoids, p ∈ graph) :
    GrownMatrix cell zero medoids.length m (growMatrix cell zero m medoids graph).2 (growMatrix cell zero m medoids graph).1 ∧ (growMatrix cell zero m medoids graph).2.Perm graph ∧
      (growMatrix cell zero m medoids graph).2.take medoids.length = medoids := by
  have hc : (growMatrix cell zero m medoids graph).2 = medoids ++ graph.filter (· ∉ medoids) := grow_cities graph (m, medoids) hnd
  refine ⟨grow_foldl graph (m, medoids) (le_refl _) ?_, ?_, by rw [hc]; simp⟩
  · refine ⟨?_, ?_, ?_, ?_, ?_, ?_⟩
    · exact hm
    · intro i hi; exact hsq _ (List.getElem_mem _)
    · intro i hi j hj _ _
      rw [List.getElem?_eq_getElem hi]
      simp only [Option.bind_some]
      rw [List.getElem?_eq_getElem hj]
    · intro i hi _ hk; simp only at hi; omega
    · intro i hi j hj _ _ hk; simp only at hi; omega
    · intro i hi j hj _ _ hk; simp only at hi; omega
  · rw [hc, List.perm_ext_iff_of_nodup _ hnd]
    · intro x
      rw [List.mem_append, List.mem_filter]
      simp only [decide_eq_true_eq]
      constructor
      · rintro (h | h)
        · exact hsub x h
        · exact h.1
      · intro h
        by_cases hx : x ∈ medoids
        · exact Or.inl hx
        · exact Or.inr ⟨h, hx⟩
    · refine List.Nodup.append hmd (hnd.filter _) ?_
      intro x h1 h2
      have := (List.mem_filter.1 h2).2
      simp only [decide_eq_true_eq] at this
      exact this h1

/-- C58, exactly: in hybrid mode with more cities than the model, the number of a city in the printed tour is its number in the list of cities of the same result file, for all cities, iff the medoids
happen to be the first cities of the instance, in order. -/
theorem C58_exact {m : List (List E)} {medoids graph : List P} (hnd : graph.Nodup) (hmd : medoids.Nodup) (hsub : ∀ p ∈ medoids, p ∈ graph) :
    listedCities (growMatrix cell zero m medoids graph).2 = listedCities graph ↔ medoids = graph.take medoids.length := by
  have hc : (growMatrix cell zero m medoids graph).2 = medoids ++ graph.filter (· ∉ medoids) := grow_cities graph (m, medoids) hnd
  have hinj : ∀ a b : List P, listedCities a = listedCities b → a = b := by
    intro a b h
    have : (listedCities a).map Prod.snd = (listedCities b).map Prod.snd := by rw [h]
    have hs : ∀ l : List P, (listedCities l).map Prod.snd = l := by
      intro l
      unfold listedCities
      apply List.ext_getElem
      · simp
      · intro i h1 h2; simp
    rwa [hs, hs] at this
  rw [hc]
  constructor
  · intro h
    have := hinj _ _ h
    rw [← this]
    simp
  · intro h
    congr 1
    have hl : medoids.length ≤ graph.length := by
      by_contra hlt
      have : medoids.length = (graph.take medoids.length).length := by rw [← h]
      rw [List.length_take] at this
      omega
    have hd : graph = medoids ++ graph.drop medoids.length := by
      conv_lhs => rw [← List.take_append_drop medoids.length graph, ← h]
    have hf : graph.filter (· ∉ medoids) = graph.drop medoids.length := by
      conv_lhs => rw [hd]
      rw [List.filter_append, List.filter_eq_nil_iff.2 (by intro x hx; simpa using hx), List.nil_append, List.filter_eq_self]
      intro x hx
      rw [hd, List.nodup_append] at hnd
      simp only [decide_eq_true_eq]
      intro hx'
      exact hnd.2.2 x hx' x hx rfl
    rw [hf]; exact hd.symm

end grow

/-- the cities do not depend on the entries of the matrix -/
theorem growMatrix_cities {P E E' : Type} [DecidableEq P] (cell : P → P → E) (zero : E) (m : List (List E)) (cell' : P → P → E') (zero' : E') (m' : List (List E')) (graph : List P) :
    ∀ medoids : List P, (growMatrix cell zero m medoids graph).2 = (growMatrix cell' zero' m' medoids graph).2 := by
  unfold growMatrix
  induction graph generalizing m m' with
  | nil => intro _; rfl
  | cons p graph ih =>
    intro medoids
    rw [List.foldl_cons, List.foldl_cons]
    unfold growStep
    by_cases hp : p ∈ medoids
    · simp only [hp, if_true]; exact ih _ _ _
    · simp only [hp, if_false]; exact ih _ _ _

/-- C58 (partial): for at most as many cities as the model the file has the cities of the instance in order, so the number of a city in the printed tour is its number in the list of cities of the
result file (in classic mode: `C49_classic`). Missing: larger instances, for which it is false (`C58_fails`). -/
theorem C58_numbering_partial {P : Type} [DecidableEq P] {ms : Nat} (graph dummies medoids : List P) (h : graph.length ≤ ms) :
    listedCities (writtenCities graph.length ms (networkCities graph.length ms graph dummies medoids) graph) = listedCities graph := by
  unfold writtenCities networkCities
  by_cases h1 : graph.length < ms
  · simp [h1]
  · have h2 : ¬ ms < graph.length := by omega
    simp [h1, h2]

/-- The property C58 fails in hybrid mode for instances larger than the model: for every instance with more cities than the model (at least one), there are medoids for which the numbers do not agree. -/
theorem C58_fails {P : Type} [DecidableEq P] {ms : Nat} (hk : 0 < ms) {graph : List P} (dummies : List P) (hnd : graph.Nodup) (h : ms < graph.length) :
    ∃ medoids : List P, medoids.length = ms ∧ medoids.Nodup ∧ (∀ p ∈ medoids, p ∈ graph) ∧
      listedCities (writtenCities graph.length ms (networkCities graph.length ms graph dummies medoids) graph) ≠ listedCities graph := by
  have h1 : (graph.drop (graph.length - ms)).length = ms := by rw [List.length_drop]; omega
  refine ⟨graph.drop (graph.length - ms), h1, hnd.sublist (List.drop_sublist _ _), fun p hp => List.mem_of_mem_drop hp, ?_⟩
  have h2 : ¬ graph.length < ms := by omega
  unfold writtenCities networkCities
  simp only [h2, h, if_true, if_false]
  intro hc
  rw [C58_exact hnd (hnd.sublist (List.drop_sublist _ _)) (fun p hp => List.mem_of_mem_drop hp), h1] at hc
  have e := List.getElem_of_eq hc (i := 0) (by omega)
  rw [List.getElem_drop, List.getElem_take] at e
  have := (List.Nodup.getElem_inj_iff hnd).1 e
  omega

/-! ### reading the files back -/

/-- C60, instances larger than the model: the file is read as a graph of all the cities of the instance, the medoids first: between medoids the network's numbers, and for the other pairs the distance `dist`
(in either direction) and the probability 0. -/
theorem C60_clustered {medoids graph : List (ℚ × ℚ)} {m : List (List (List Char × List Char))} {cell : ℚ × ℚ → ℚ × ℚ → List Char × List Char} {zero : List Char × List Char}
    {fmt : ℚ → List Char} {dist : ℚ × ℚ → ℚ × ℚ → ℚ} {wm pm : Nat → Nat → ℚ} (hn : graph.length ≤ c.maxV) (h362 : graph.length ≤ 362) (h0 : 0 < graph.length)
    (hm : m.length = medoids.length) (hsq : ∀ row ∈ m, row.length = medoids.length) (hnd : graph.Nodup) (hmd : medoids.Nodup) (hsub : ∀ p ∈ medoids, p ∈ graph)
    (hx : ∀ q ∈ graph, ReadsAs num (fmt q.1) q.1 ∧ ReadsAs num (fmt q.2) q.2)
    (hcell : ∀ p ∈ graph, ∀ q ∈ graph, ReadsAs num (cell p q).1 (dist p q) ∧ ReadsAs num (cell p q).2 0) (hzero : ReadsAs num zero.1 0 ∧ ReadsAs num zero.2 0)
    (hmr : ∀ i (hi : i < m.length) j (hj : j < m[i].length), ReadsAs num m[i][j].1 (wm i j) ∧ ReadsAs num m[i][j].2 (pm i j)) :
    ∃ xs w pr g, xs.Perm graph ∧ xs.take medoids.length = medoids ∧ (growMatrix cell zero m medoids graph).2 = xs ∧
      CsvFile num (adjacencyText graph.length (xs.map fun q => (fmt q.1, fmt q.2)) (growMatrix cell zero m medoids graph).1.flatten) xs w pr ∧
      readCsv c num mem (adjacencyText graph.length (xs.map fun q => (fmt q.1, fmt q.2)) (growMatrix cell zero m medoids graph).1.flatten) = .ok g ∧ IsCsvGraph c mem xs w pr g ∧
      (∀ i < medoids.length, ∀ j < medoids.length, w i j = wm i j ∧ pr i j = pm i j) ∧
      (∀ i (hi : i < xs.length) j (hj : j < i), medoids.length ≤ i → w i j = dist xs[i] (xs[j]'(by omega)) ∧ w j i = dist xs[i] (xs[j]'(by omega)) ∧ pr i j = 0 ∧ pr j i = 0) := by
  obtain ⟨hG, hperm, htake⟩ := C59_clustered (cell := cell) (zero := zero) hm hsq hnd hmd hsub
  generalize hps : (growMatrix cell zero m medoids graph).2 = ps at hG hperm htake
  generalize hrs : (growMatrix cell zero m medoids graph).1 = rows at hG
  have hl : ps.length = graph.length := hperm.length_eq
  have hkl : medoids.length ≤ ps.length := by
    have := congrArg List.length htake
    rw [List.length_take] at this; omega
  have hsz := hG.size
  let rt : Nat → Nat → List Char × List Char := fun i j => (rows.getD i []).getD j ([], [])
  let w : Nat → Nat → ℚ := fun i j => if i < medoids.length ∧ j < medoids.length then wm i j else if j < i then dist (ps.getD i (0, 0)) (ps.getD j (0, 0)) else if i < j then dist (ps.getD j (0, 0)) (ps.getD i (0, 0)) else 0
  let pr : Nat → Nat → ℚ := fun i j => if i < medoids.length ∧ j < medoids.length then pm i j else 0
  have hrt : ∀ i (hi : i < rows.length) j (hj : j < rows[i].length), rt i j = rows[i][j] := by
    intro i hi j hj
    show (rows.getD i []).getD j _ = _
    rw [List.getD_eq_getElem _ _ hi, List.getD_eq_getElem _ _ hj]
  have hflat : rows.flatten = (List.range ps.length).flatMap fun i => (List.range ps.length).map fun j => rt i j := by
    rw [List.flatMap_def]
    congr 1
    apply List.ext_getElem
    · simp [hsz]
    · intro i h1 h2
      rw [List.getElem_map, List.getElem_range]
      apply List.ext_getElem
      · simp [hG.square i h1]
      · intro j h3 h4
        rw [List.getElem_map, List.getElem_range, hrt i h1 j h3]
  have hgd : ∀ i (hi : i < ps.length), ps.getD i (0, 0) = ps[i] := fun i hi => List.getD_eq_getElem _ _ hi
  have hmem : ∀ i (hi : i < ps.length), ps[i] ∈ graph := fun i hi => hperm.mem_iff.1 (List.getElem_mem _)
  have hrd : ∀ i < ps.length, ∀ j < ps.length, ReadsAs num (rt i j).1 (w i j) ∧ ReadsAs num (rt i j).2 (pr i j) := by
    intro i hi j hj
    have hi' : i < rows.length := by omega
    have hj' : j < rows[i].length := by rw [hG.square i hi']; exact hj
    rw [hrt i hi' j hj']
    by_cases hk : i < medoids.length ∧ j < medoids.length
    · have hw : w i j = wm i j := if_pos hk
      have hp : pr i j = pm i j := if_pos hk
      have hcn := hG.corner i hi' j hj' hk.1 hk.2
      have hi2 : i < m.length := by omega
      have hj2 : j < m[i].length := by rw [hsq _ (List.getElem_mem hi2)]; exact hk.2
      rw [List.getElem?_eq_getElem hi2, Option.bind_some, List.getElem?_eq_getElem hj2, Option.some.injEq] at hcn
      rw [hw, hp, ← hcn]
      exact hmr i hi2 j hj2
    · have hp : pr i j = 0 := if_neg hk
      rw [hp]
      rcases lt_trichotomy j i with hlt | rfl | hlt
      · have hw : w i j = dist ps[i] ps[j] := by
          show (if _ then _ else _) = _
          rw [if_neg hk, if_pos hlt, hgd i hi, hgd j hj]
        rw [hw, hG.lower i hi j hlt hi' hj' (by omega)]
        exact hcell _ (hmem i hi) _ (hmem j hj)
      · have hw : w j j = 0 := by
          show (if _ then _ else _) = _
          rw [if_neg hk, if_neg (lt_irrefl _), if_neg (lt_irrefl _)]
        rw [hw, hG.diag j hi' hj' (by omega)]
        exact hzero
      · have hw : w i j = dist ps[j] ps[i] := by
          show (if _ then _ else _) = _
          rw [if_neg hk, if_neg (by omega), if_pos hlt, hgd i hi, hgd j hj]
        rw [hw, hG.upper j hj i hlt hi' hj' (by omega)]
        exact hcell _ (hmem j hj) _ (hmem i hi)
  have hf := csvText_file (num := num) (xs := ps) (ct := ps.map fun q => (fmt q.1, fmt q.2)) (rt := rt) (w := w) (pr := pr) (by simp)
    (by intro i hi; simp only [List.getElem_map]; exact hx _ (hmem i (by simpa using hi))) hrd
  obtain ⟨g, e, hg⟩ := C48_csv_partial (c := c) (mem := mem) hf (by omega) (by omega)
  have htext := adjacencyText_eq (n := ps.length) (ct := ps.map fun q => (fmt q.1, fmt q.2)) (rt := rt) (by omega)
  rw [← hflat, hl] at htext
  rw [← hl] at htext
  rw [hl] at htext
  rw [hl] at hf e
  refine ⟨ps, w, pr, g, hperm, htake, rfl, ?_, ?_, hg, ?_, ?_⟩
  · rw [htext]; exact hf
  · rw [htext]; exact e
  · intro i hi j hj; exact ⟨if_pos ⟨hi, hj⟩, if_pos ⟨hi, hj⟩⟩
  · intro i hi j hj hk
    have h1 : ¬ (i < medoids.length ∧ j < medoids.length) := by omega
    have h2 : ¬ (j < medoids.length ∧ i < medoids.length) := by omega
    refine ⟨?_, ?_, if_neg h1, if_neg h2⟩
    · show (if _ then _ else _) = _
      rw [if_neg h1, if_pos hj, hgd i hi, hgd j (by omega)]
    · show (if _ then _ else _) = _
      rw [if_neg h2, if_neg (by omega), if_pos hj, hgd i hi, hgd j (by omega)]

end Verif
