import Verif.Spec.CsvSpec
import Verif.Spec.GraphSpec
import Verif.Proofs.Constrained
import Mathlib.Data.Finset.Prod
import Mathlib.Data.Finset.Basic

/-!
# The CSV reader
-/
namespace Verif
open Verif.Spec
set_option autoImplicit false

variable [Rounding] {c : Cfg} {mem : Graph} {w pr : Nat → Nat → ℚ} {n : Nat}

/-- the edges among the cells `P` -/
def csvE (w : Nat → Nat → ℚ) (P : List (Nat × Nat)) : List (Nat × Nat) := P.filter fun q => q.1 < q.2 ∧ 0 < w q.1 q.2

/-- the neighbours of `i` among the cells `P` -/
def csvN (w : Nat → Nat → ℚ) (P : List (Nat × Nat)) (i : Nat) : List Nat := (P.filter fun q => q.1 = i ∧ q.2 ≠ i ∧ 0 < w i q.2).map Prod.snd

structure CsvInv (c : Cfg) (mem : Graph) (w pr : Nat → Nat → ℚ) (xs : List (ℚ × ℚ)) (P : List (Nat × Nat)) (g : Graph) (z : Nat) : Prop where
  num : g.numEdges = (csvE w P).length
  z : z = (csvE w P).length
  edges : ∀ k (hk : k < (csvE w P).length), g.edges k = csvEdge c w pr (csvE w P)[k] k
  mat : ∀ k (hk : k < (csvE w P).length), g.mat (csvE w P)[k].1 (csvE w P)[k].2 = csvEdge c w pr (csvE w P)[k] k ∧
    g.mat (csvE w P)[k].2 (csvE w P)[k].1 = csvEdge c w pr (csvE w P)[k] k
  nodes : ∀ i < xs.length, (g.nodes i).list = csvN w P i
  coord : ∀ i (hi : i < xs.length), (g.nodes i).pos = i ∧ (g.nodes i).x = xs[i].1 ∧ (g.nodes i).y = xs[i].2
  cost : g.cost = flSum ((csvE w P).map fun q => w q.1 q.2)
  ord : g.ordered = false
  other : ∀ u v, (u, v) ∉ csvE w P → (v, u) ∉ csvE w P → g.mat u v = mem.mat u v

omit [Rounding] in
theorem csvE_length {P : List (Nat × Nat)} (hP : P.Nodup) (hlt : ∀ q ∈ P, q.1 < n ∧ q.2 < n) : 2 * (csvE w P).length ≤ n * (n - 1) := by
  set E := (csvE w P).toFinset with hE
  have hmem : ∀ q, q ∈ E → q.1 < q.2 ∧ q.1 < n ∧ q.2 < n := by
    intro q hq
    rw [hE, List.mem_toFinset, csvE, List.mem_filter] at hq
    have := hlt q hq.1
    have h2 := of_decide_eq_true hq.2
    exact ⟨h2.1, this⟩
  have hc : E.card = (csvE w P).length := List.toFinset_card_of_nodup (hP.filter _)
  have hd : Disjoint E (E.image Prod.swap) := by
    rw [Finset.disjoint_left]
    intro q hq hq'
    obtain ⟨r, hr, rfl⟩ := Finset.mem_image.1 hq'
    have h1 := hmem _ hq
    have h2 := hmem _ hr
    simp only [Prod.fst_swap, Prod.snd_swap] at h1
    omega
  have hsub : E ∪ E.image Prod.swap ⊆ (Finset.range n).offDiag := by
    intro q hq
    rw [Finset.mem_offDiag, Finset.mem_range, Finset.mem_range]
    rcases Finset.mem_union.1 hq with hq | hq
    · have := hmem _ hq; omega
    · obtain ⟨r, hr, rfl⟩ := Finset.mem_image.1 hq
      have := hmem _ hr
      simp only [Prod.fst_swap, Prod.snd_swap]; omega
  have := Finset.card_le_card hsub
  rw [Finset.card_union_of_disjoint hd, Finset.card_image_of_injective _ Prod.swap_injective, Finset.offDiag_card, Finset.card_range, hc] at this
  rw [Nat.mul_sub, Nat.mul_one]
  omega

omit [Rounding] in
theorem csvN_length {P : List (Nat × Nat)} {i j : Nat} (hP : (P ++ [(i, j)]).Nodup) (hlt : ∀ q ∈ P, q.1 < n ∧ q.2 < n) (hi : i < n) (hj : j < n) (hij : j ≠ i) :
    (csvN w P i).length + 1 < n := by
  have hn : (csvN w P i).Nodup := by
    unfold csvN
    refine List.Nodup.map_on ?_ ((List.nodup_append.1 hP).1.filter _)
    intro a ha b hb hab
    have h1 := (of_decide_eq_true (List.mem_filter.1 ha).2).1
    have h2 := (of_decide_eq_true (List.mem_filter.1 hb).2).1
    exact Prod.ext (h1.trans h2.symm) hab
  have hnot : j ∉ csvN w P i := by
    intro h
    unfold csvN at h
    obtain ⟨q, hq, rfl⟩ := List.mem_map.1 h
    have h1 := (of_decide_eq_true (List.mem_filter.1 hq).2).1
    have h2 := (List.mem_filter.1 hq).1
    exact (List.nodup_append.1 hP).2.2 q h2 (i, q.2) (by simp) (Prod.ext h1 rfl)
  have hsub : insert j (insert i (csvN w P i).toFinset) ⊆ Finset.range n := by
    intro v hv
    rw [Finset.mem_range]
    rw [Finset.mem_insert, Finset.mem_insert, List.mem_toFinset] at hv
    rcases hv with rfl | rfl | hv
    · exact hj
    · exact hi
    · unfold csvN at hv
      obtain ⟨q, hq, rfl⟩ := List.mem_map.1 hv
      exact (hlt q (List.mem_filter.1 hq).1).2
  have hni : i ∉ csvN w P i := by
    intro h
    unfold csvN at h
    obtain ⟨q, hq, h'⟩ := List.mem_map.1 h
    exact (of_decide_eq_true (List.mem_filter.1 hq).2).2.1 h'
  have := Finset.card_le_card hsub
  rw [Finset.card_insert_of_notMem (by rw [Finset.mem_insert, List.mem_toFinset]; tauto), Finset.card_insert_of_notMem (by rw [List.mem_toFinset]; exact hni),
    List.toFinset_card_of_nodup hn, Finset.card_range] at this
  omega

omit [Rounding] in
theorem csvE_snoc (P : List (Nat × Nat)) (i j : Nat) : csvE w (P ++ [(i, j)]) = if i < j ∧ 0 < w i j then csvE w P ++ [(i, j)] else csvE w P := by
  unfold csvE
  rw [List.filter_append]
  by_cases h : i < j ∧ 0 < w i j
  · rw [if_pos h, List.filter_cons_of_pos (by simpa using h)]; rfl
  · rw [if_neg h, List.filter_cons_of_neg (by simpa using h)]; simp

omit [Rounding] in
theorem csvN_snoc (P : List (Nat × Nat)) (i j a : Nat) : csvN w (P ++ [(i, j)]) a = if i = a ∧ j ≠ a ∧ 0 < w a j then csvN w P a ++ [j] else csvN w P a := by
  unfold csvN
  rw [List.filter_append, List.map_append]
  by_cases h : i = a ∧ j ≠ a ∧ 0 < w a j
  · rw [if_pos h, List.filter_cons_of_pos (by simpa using h)]; rfl
  · rw [if_neg h, List.filter_cons_of_neg (by simpa using h)]; simp

omit [Rounding] in
theorem inc16_small {x : Nat} (h : x < 65535) : inc16 x = x + 1 := by
  unfold inc16; exact Nat.mod_eq_of_lt (by omega)

omit [Rounding] in
theorem Node.push_list (u : Node) (v : Nat) : (u.push v).list = u.list ++ [v] := by
  unfold Node.push Node.list
  simp only [List.range_succ, List.map_append, List.map_cons, List.map_nil, upd_apply, if_pos]
  congr 1
  apply List.map_congr_left
  intro x hx
  rw [List.mem_range] at hx
  rw [upd_apply, if_neg (by omega)]

/-- one cell -/
theorem csvCell_ok {num : List Char → Option (ℚ × List Char)} {xs : List (ℚ × ℚ)} {P : List (Nat × Nat)} {g : Graph} {z i j : Nat} {tok : List Char} (hn : xs.length ≤ c.maxV)
    (h362 : xs.length ≤ 362) (hi : i < xs.length) (hj : j < xs.length) (h : CsvInv c mem w pr xs P g z) (hP : (P ++ [(i, j)]).Nodup)
    (hlt : ∀ q ∈ P, q.1 < xs.length ∧ q.2 < xs.length) (ht : j ≠ i → scanPair num tok = some (w i j, pr i j)) :
    ∃ g' z', csvCell c num i (g, z, j) tok = .ok (g', z', j + 1) ∧ CsvInv c mem w pr xs (P ++ [(i, j)]) g' z' ∧ g'.numNodes = g.numNodes := by
  have hlt' : ∀ q ∈ P ++ [(i, j)], q.1 < xs.length ∧ q.2 < xs.length := by
    intro q hq
    rcases List.mem_append.1 hq with hq | hq
    · exact hlt q hq
    · rw [List.mem_singleton] at hq; subst hq; exact ⟨hi, hj⟩
  have hj1 : inc16 j = j + 1 := inc16_small (by omega)
  unfold csvCell
  simp only [hj1]
  by_cases hij : j = i
  · subst hij
    simp only [ne_eq, not_true_eq_false, ↓reduceIte]
    refine ⟨g, z, rfl, ?_, rfl⟩
    have e1 : csvE w (P ++ [(j, j)]) = csvE w P := by rw [csvE_snoc, if_neg (by omega)]
    have e2 : ∀ a, csvN w (P ++ [(j, j)]) a = csvN w P a := fun a => by rw [csvN_snoc, if_neg (by omega)]
    exact ⟨by rw [e1]; exact h.num, by rw [e1]; exact h.z, by rw [e1]; exact h.edges, by rw [e1]; exact h.mat, fun a ha => by rw [e2]; exact h.nodes a ha, h.coord, by rw [e1]; exact h.cost, h.ord, by rw [e1]; exact h.other⟩
  · rw [if_pos hij, ht hij]
    simp only
    by_cases hw : 0 < w i j
    · rw [if_pos hw]
      have hlen : (g.nodes i).nn = (csvN w P i).length := by rw [← h.nodes i hi]; unfold Node.list; simp
      have hN := csvN_length (w := w) hP hlt hi hj hij
      rw [if_neg (by rw [hlen]; omega)]
      by_cases hgt : j > i
      · rw [if_pos hgt]
        have hE := csvE_length (w := w) hP hlt'
        have e1 : csvE w (P ++ [(i, j)]) = csvE w P ++ [(i, j)] := by rw [csvE_snoc, if_pos ⟨hgt, hw⟩]
        have e2 : ∀ a, csvN w (P ++ [(i, j)]) a = if i = a then csvN w P a ++ [j] else csvN w P a := by
          intro a
          rw [csvN_snoc]
          by_cases ha : i = a
          · subst ha; rw [if_pos ⟨rfl, hij, hw⟩, if_pos rfl]
          · rw [if_neg (by tauto), if_neg ha]
        rw [e1, List.length_append, List.length_singleton] at hE
        have hzE : (csvE w P).length + 1 ≤ c.maxE := by
          unfold Cfg.maxE
          rw [Nat.le_div_iff_mul_le (by omega)]
          have := Nat.mul_le_mul hn (Nat.sub_le_sub_right hn 1)
          omega
        have hz16 : (csvE w P).length + 1 ≤ 65341 := by
          have := Nat.mul_le_mul h362 (Nat.sub_le_sub_right h362 1)
          omega
        have hz := h.z
        rw [if_neg (by omega), h.num, hz, inc16_small (by omega)]
        refine ⟨_, _, rfl, ?_, rfl⟩
        have hin : ∀ k (hk : k < (csvE w P).length), (csvE w P)[k] ∈ P ∧ (csvE w P)[k].1 < (csvE w P)[k].2 := by
          intro k hk
          have := List.mem_filter.1 (List.getElem_mem hk)
          exact ⟨this.1, (of_decide_eq_true this.2).1⟩
        have hfresh : ∀ k (hk : k < (csvE w P).length), (csvE w P)[k] ≠ (i, j) := by
          intro k hk he
          exact (List.nodup_append.1 hP).2.2 _ (hin k hk).1 (i, j) (by simp) he
        have hlast : ∀ hk : (csvE w P).length < (csvE w P ++ [(i, j)]).length, (csvE w P ++ [(i, j)])[(csvE w P).length] = (i, j) := fun hk => by
          rw [List.getElem_append_right (le_refl _)]; simp
        have hk' : ∀ k, k < (csvE w P ++ [(i, j)]).length → k < (csvE w P).length ∨ k = (csvE w P).length := by
          intro k hk; rw [List.length_append, List.length_singleton] at hk; omega
        refine ⟨?_, ?_, ?_, ?_, ?_, ?_, ?_, h.ord, ?_⟩
        · simp only [e1, List.length_append, List.length_singleton]
        · simp only [e1, List.length_append, List.length_singleton]
        · rw [e1]
          intro k hk
          simp only [upd_apply]
          rcases hk' k hk with h' | rfl
          · rw [if_neg (by omega), List.getElem_append_left h']; exact h.edges k h'
          · rw [if_pos rfl, hlast]; rfl
        · rw [e1]
          intro k hk
          simp only [upd2_apply]
          rcases hk' k hk with h' | rfl
          · rw [List.getElem_append_left h']
            have hf := hfresh k h'
            have hl := (hin k h').2
            have hne : ¬ ((csvE w P)[k].1 = i ∧ (csvE w P)[k].2 = j) := fun hh => hf (Prod.ext hh.1 hh.2)
            rw [if_neg (by omega), if_neg hne, if_neg (by tauto), if_neg (by omega)]
            exact h.mat k h'
          · rw [hlast]
            simp only [and_self, ↓reduceIte, hgt.ne', hgt.ne]
            rfl
        · intro a ha
          rw [e2]
          simp only [upd_apply]
          by_cases haj : a = j
          · subst haj
            rw [if_pos rfl, if_neg (Ne.symm hij)]
            rw [if_neg hij]
            exact h.nodes a ha
          · rw [if_neg haj]
            by_cases hai : a = i
            · subst hai; rw [if_pos rfl, if_pos rfl, Node.push_list, h.nodes a ha]
            · rw [if_neg hai, if_neg (Ne.symm hai)]; exact h.nodes a ha
        · intro a ha
          have := h.coord a ha
          simp only [upd_apply]
          by_cases haj : a = j
          · subst haj
            simp only [↓reduceIte, if_neg hij]
            exact ⟨trivial, this.2⟩
          · simp only [if_neg haj]
            by_cases hai : a = i
            · subst hai; simp only [↓reduceIte]; exact this
            · simp only [if_neg hai]; exact this
        · simp only [e1, List.map_append, List.map_cons, List.map_nil, flSum_append, h.cost]
        · rw [e1]
          intro u v h1 h2
          rw [List.mem_append, List.mem_singleton, Prod.mk.injEq] at h1 h2
          simp only [upd2_apply]
          rw [if_neg (by tauto), if_neg (by tauto)]
          exact h.other u v (by tauto) (by tauto)
      · rw [if_neg hgt]
        have e1 : csvE w (P ++ [(i, j)]) = csvE w P := by rw [csvE_snoc, if_neg (by omega)]
        have e2 : ∀ a, csvN w (P ++ [(i, j)]) a = if i = a then csvN w P a ++ [j] else csvN w P a := by
          intro a
          rw [csvN_snoc]
          by_cases ha : i = a
          · subst ha; rw [if_pos ⟨rfl, hij, hw⟩, if_pos rfl]
          · rw [if_neg (by tauto), if_neg ha]
        refine ⟨_, _, rfl, ?_, rfl⟩
        refine ⟨by rw [e1]; exact h.num, by rw [e1]; exact h.z, by rw [e1]; exact h.edges, by rw [e1]; exact h.mat, ?_, ?_, by rw [e1]; exact h.cost, h.ord, by rw [e1]; exact h.other⟩
        · intro a ha
          rw [e2]
          simp only [upd_apply]
          by_cases hai : a = i
          · subst hai; rw [if_pos rfl, if_pos rfl, Node.push_list, h.nodes a ha]
          · rw [if_neg hai, if_neg (Ne.symm hai)]; exact h.nodes a ha
        · intro a ha
          have := h.coord a ha
          simp only [upd_apply]
          by_cases hai : a = i
          · subst hai; simp only [↓reduceIte]; exact this
          · simp only [if_neg hai]; exact this
    · rw [if_neg hw]
      refine ⟨g, z, rfl, ?_, rfl⟩
      have e1 : csvE w (P ++ [(i, j)]) = csvE w P := by rw [csvE_snoc, if_neg (by tauto)]
      have e2 : ∀ a, csvN w (P ++ [(i, j)]) a = csvN w P a := fun a => by
        rw [csvN_snoc, if_neg (by rintro ⟨rfl, -, h'⟩; exact hw h')]
      exact ⟨by rw [e1]; exact h.num, by rw [e1]; exact h.z, by rw [e1]; exact h.edges, by rw [e1]; exact h.mat, fun a ha => by rw [e2]; exact h.nodes a ha, h.coord, by rw [e1]; exact h.cost, h.ord, by rw [e1]; exact h.other⟩

/-- the cells before row `i` -/
def cellsTo (n i : Nat) : List (Nat × Nat) := (List.range i).flatMap fun a => (List.range n).map fun b => (a, b)

omit [Rounding] in
theorem cellsTo_succ (n i : Nat) : cellsTo n (i + 1) = cellsTo n i ++ (List.range n).map fun b => (i, b) := by
  unfold cellsTo
  rw [List.range_succ, List.flatMap_append]; simp

omit [Rounding] in
theorem mem_cellsTo {n i : Nat} {q : Nat × Nat} : q ∈ cellsTo n i ↔ q.1 < i ∧ q.2 < n := by
  unfold cellsTo
  rw [List.mem_flatMap]
  constructor
  · rintro ⟨a, ha, h⟩
    obtain ⟨b, hb, rfl⟩ := List.mem_map.1 h
    exact ⟨List.mem_range.1 ha, List.mem_range.1 hb⟩
  · rintro ⟨h1, h2⟩
    exact ⟨q.1, List.mem_range.2 h1, List.mem_map.2 ⟨q.2, List.mem_range.2 h2, rfl⟩⟩

omit [Rounding] in
theorem cellsTo_nodup (n : Nat) : ∀ i, (cellsTo n i).Nodup := by
  intro i
  induction i with
  | zero => simp [cellsTo]
  | succ i ih =>
    rw [cellsTo_succ, List.nodup_append]
    refine ⟨ih, List.nodup_range.map (fun a b h => (Prod.mk.inj h).2), ?_⟩
    intro a ha b hb hab
    obtain ⟨x, -, rfl⟩ := List.mem_map.1 hb
    subst hab
    have := (mem_cellsTo.1 ha).1
    simp at this

omit [Rounding] in
theorem cells_part_nodup (n i m : Nat) : (cellsTo n i ++ (List.range m).map fun b => (i, b)).Nodup := by
  rw [List.nodup_append]
  refine ⟨cellsTo_nodup n i, List.nodup_range.map (fun a b h => (Prod.mk.inj h).2), ?_⟩
  intro a ha b hb hab
  obtain ⟨x, -, rfl⟩ := List.mem_map.1 hb
  subst hab
  have := (mem_cellsTo.1 ha).1
  simp at this

omit [Rounding] in
theorem take_succ_getElem {α : Type} (l : List α) {m : Nat} (h : m < l.length) : l.take (m + 1) = l.take m ++ [l[m]] :=
  List.take_succ_eq_append_getElem h

/-- one row -/
theorem csvRow_ok {num : List Char → Option (ℚ × List Char)} {xs : List (ℚ × ℚ)} {g : Graph} {z i : Nat} {toks : List (List Char)} (hn : xs.length ≤ c.maxV)
    (h362 : xs.length ≤ 362) (hi : i < xs.length) (h : CsvInv c mem w pr xs (cellsTo xs.length i) g z) (hl : toks.length = xs.length)
    (ht : ∀ j (hj : j < toks.length), j ≠ i → scanPair num toks[j] = some (w i j, pr i j)) : ∀ m ≤ xs.length,
    ∃ g' z', forList (csvCell c num i) (toks.take m) (g, z, 0) = .ok (g', z', m) ∧ CsvInv c mem w pr xs (cellsTo xs.length i ++ (List.range m).map fun b => (i, b)) g' z' ∧
      g'.numNodes = g.numNodes := by
  intro m
  induction m with
  | zero => intro _; exact ⟨g, z, rfl, by simpa using h, rfl⟩
  | succ m ih =>
    intro hm
    obtain ⟨g1, z1, e1, i1, n1⟩ := ih (by omega)
    rw [take_succ_getElem _ (by omega), forList_snoc, e1, ok_bind]
    have hr : (List.range (m + 1)).map (fun b => (i, b)) = (List.range m).map (fun b => (i, b)) ++ [(i, m)] := by
      rw [List.range_succ, List.map_append]; rfl
    have hP := cells_part_nodup xs.length i (m + 1)
    rw [hr, ← List.append_assoc] at hP
    obtain ⟨g2, z2, e2, i2, n2⟩ := csvCell_ok (num := num) (tok := toks[m]) hn h362 hi (by omega) i1 hP (by
      intro q hq
      rcases List.mem_append.1 hq with hq | hq
      · have := mem_cellsTo.1 hq; omega
      · obtain ⟨b, hb, rfl⟩ := List.mem_map.1 hq
        have := List.mem_range.1 hb
        simp only; omega) (ht m (by omega))
    refine ⟨g2, z2, e2, ?_, n2.trans n1⟩
    rw [hr, ← List.append_assoc]
    exact i2

/-- the rows -/
theorem csvRows_ok {num : List Char → Option (ℚ × List Char)} {xs : List (ℚ × ℚ)} {g : Graph} {rows : List (List Char)} (hn : xs.length ≤ c.maxV)
    (h362 : xs.length ≤ 362) (h : CsvInv c mem w pr xs [] g 0) (h0 : g.numNodes = 0) (hl : rows.length = xs.length)
    (ht : ∀ i (hi : i < rows.length), (loopTokens rows[i]).length = xs.length ∧
      ∀ j (hj : j < (loopTokens rows[i]).length), j ≠ i → scanPair num (loopTokens rows[i])[j] = some (w i j, pr i j)) : ∀ m ≤ xs.length,
    ∃ g' z', forList (csvLine c num) (rows.take m) (g, 0, 0) = .ok (g', z', m) ∧ CsvInv c mem w pr xs (cellsTo xs.length m) g' z' ∧ g'.numNodes = m := by
  intro m
  induction m with
  | zero => intro _; exact ⟨g, 0, rfl, by simpa [cellsTo] using h, h0⟩
  | succ m ih =>
    intro hm
    obtain ⟨g1, z1, e1, i1, n1⟩ := ih (by omega)
    rw [take_succ_getElem _ (by omega), forList_snoc, e1, ok_bind]
    obtain ⟨t1, t2⟩ := ht m (by omega)
    obtain ⟨g2, z2, e2, i2, n2⟩ := csvRow_ok hn h362 (by omega) i1 t1 t2 xs.length (le_refl _)
    rw [List.take_of_length_le (by omega)] at e2
    unfold csvLine
    rw [e2]
    simp only [ok_bind, pure_eq_ok, n2, n1, inc16_small (show m < 65535 by omega)]
    refine ⟨_, _, rfl, ?_, rfl⟩
    rw [cellsTo_succ]
    exact ⟨i2.num, i2.z, i2.edges, i2.mat, i2.nodes, i2.coord, i2.cost, i2.ord, i2.other⟩

omit [Rounding] in
/-- the cities -/
theorem csvCities_ok {num : List Char → Option (ℚ × List Char)} {xs : List (ℚ × ℚ)} {g : Graph} {toks : List (List Char)} (hn : xs.length ≤ c.maxV) (h362 : xs.length ≤ 362)
    (ht : toks.map (scanPair num) = xs.map some) : ∀ m ≤ xs.length,
    ∃ g', forList (csvCity c num) (toks.take m) (g, 0) = .ok (g', m) ∧
      (∀ i (hi : i < xs.length), i < m → (g'.nodes i).pos = i ∧ (g'.nodes i).x = xs[i].1 ∧ (g'.nodes i).y = xs[i].2 ∧ (g'.nodes i).nn = 0) ∧ ∃ N, g' = { g with nodes := N } := by
  have hl : toks.length = xs.length := by have := congrArg List.length ht; simpa using this
  intro m
  induction m with
  | zero => intro _; exact ⟨g, rfl, fun _ _ h => absurd h (by omega), g.nodes, rfl⟩
  | succ m ih =>
    intro hm
    obtain ⟨g1, e1, i1, N, rfl⟩ := ih (by omega)
    rw [take_succ_getElem _ (by omega), forList_snoc, e1, ok_bind]
    have hs : scanPair num toks[m] = some xs[m] := by
      have := List.getElem_of_eq ht (i := m) (by simp; omega)
      simpa using this
    unfold csvCity
    rw [hs]
    simp only
    rw [if_neg (by omega), inc16_small (by omega)]
    refine ⟨_, rfl, ?_, _, rfl⟩
    intro i hi him
    simp only [upd_apply]
    by_cases h : i = m
    · subst h; simp
    · rw [if_neg h]; exact i1 i hi (by omega)

omit [Rounding] in
theorem csvE_all (w : Nat → Nat → ℚ) (n : Nat) : csvE w (cellsTo n n) = csvPairs w n := by
  unfold csvE cellsTo csvPairs
  rw [List.filter_flatMap]
  congr 1
  funext i
  rw [List.filter_map]
  rfl

omit [Rounding] in
theorem csvN_all (w : Nat → Nat → ℚ) {n i : Nat} (hi : i < n) : csvN w (cellsTo n n) i = (List.range n).filter fun j => j ≠ i ∧ 0 < w i j := by
  unfold csvN
  have key : ∀ m, (cellsTo n m).filter (fun q => decide (q.1 = i ∧ q.2 ≠ i ∧ 0 < w i q.2)) =
      if i < m then ((List.range n).filter fun j => j ≠ i ∧ 0 < w i j).map (fun j => (i, j)) else [] := by
    intro m
    induction m with
    | zero => simp [cellsTo]
    | succ m ih =>
      rw [cellsTo_succ, List.filter_append, ih, List.filter_map]
      rcases Nat.lt_trichotomy i m with h | rfl | h
      · rw [if_pos h, if_pos (by omega)]
        have : (List.range n).filter ((fun q : Nat × Nat => decide (q.1 = i ∧ q.2 ≠ i ∧ 0 < w i q.2)) ∘ fun b => (m, b)) = [] := by
          rw [List.filter_eq_nil_iff]; intro a _; simp; omega
        rw [this]; simp
      · rw [if_neg (by omega), if_pos (by omega), List.nil_append]
        congr 1
        apply List.filter_congr
        intro a _; simp
      · rw [if_neg (by omega), if_neg (by omega), List.nil_append]
        have : (List.range n).filter ((fun q : Nat × Nat => decide (q.1 = i ∧ q.2 ≠ i ∧ 0 < w i q.2)) ∘ fun b => (m, b)) = [] := by
          rw [List.filter_eq_nil_iff]; intro a _; simp; omega
        rw [this]; rfl
  rw [key n, if_pos hi, List.map_map]
  simp

theorem readCsv_ok {num : List Char → Option (ℚ × List Char)} {text : List Char} {xs : List (ℚ × ℚ)} (hf : CsvFile num text xs w pr) (hn : xs.length ≤ c.maxV)
    (h362 : xs.length ≤ 362) : ∃ g, readCsv c num mem text = .ok g ∧ IsCsvGraph c mem xs w pr g := by
  obtain ⟨head, rest, hl, h1, h2, h3⟩ := hf.lines
  unfold readCsv
  rw [hl]
  simp only
  have hlen : (loopTokens head).length = xs.length := by have := congrArg List.length h1; simpa using this
  obtain ⟨g1, e1, i1, N, rfl⟩ := csvCities_ok (c := c) (g := { mem with cost := 0, numEdges := 0, numNodes := 0, ordered := false }) hn h362 h1 xs.length (le_refl _)
  rw [List.take_of_length_le (by omega)] at e1
  rw [e1]
  simp only [ok_bind]
  have h0 : CsvInv c mem w pr xs [] { mem with cost := 0, numEdges := 0, numNodes := 0, ordered := false, nodes := N } 0 := by
    refine ⟨rfl, rfl, by simp [csvE], by simp [csvE], ?_, ?_, by simp [csvE], rfl, fun _ _ _ _ => rfl⟩
    · intro i hi
      have := (i1 i hi hi).2.2.2
      simp only at this
      simp [Node.list, this, csvN]
    · intro i hi
      have := i1 i hi hi
      exact ⟨this.1, this.2.1, this.2.2.1⟩
  obtain ⟨g2, z2, e2, i2, n2⟩ := csvRows_ok hn h362 h0 rfl h2 h3 xs.length (le_refl _)
  rw [List.take_of_length_le (by omega)] at e2
  rw [e2]
  refine ⟨g2, rfl, ?_⟩
  have hE := csvE_all w xs.length
  refine ⟨n2, i2.coord, by rw [i2.num, hE], ?_, ?_, by rw [← hE]; exact i2.other, ?_, by rw [i2.cost, hE], i2.ord⟩
  · intro k hk
    have := i2.edges k (by rw [hE]; exact hk)
    rw [this]; congr 1
    exact List.getElem_of_eq hE _
  · intro k hk u v huv
    have hk' : k < (csvE w (cellsTo xs.length xs.length)).length := by rw [hE]; exact hk
    have h1 := i2.edges k hk'
    have h2 := i2.mat k hk'
    have : (csvE w (cellsTo xs.length xs.length))[k] = (u, v) := by rw [← huv]; exact List.getElem_of_eq hE _
    rw [this] at h1 h2
    rw [h1]; exact h2
  · intro i hi
    rw [i2.nodes i hi, csvN_all w hi]

end Verif
