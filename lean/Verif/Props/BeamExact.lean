import Verif.Props.Beam
import Mathlib.Data.List.Permutation
import Mathlib.Data.Nat.Factorial.Basic

/-!
# C76: beam search with a wide beam is exact
-/
namespace Verif
open Verif.Spec
set_option autoImplicit false

/-- a path through `j` different nodes from `c` -/
def PathFrom (n c j : Nat) (p : List Nat) : Prop := p.Nodup ∧ (∀ v ∈ p, v < n) ∧ p.head? = some c ∧ p.length = j

/-- there are at most `(n - 1)!` paths of a given length from a node -/
theorem paths_card {n c j : Nat} (S : Finset (List Nat)) (h : ∀ p ∈ S, PathFrom n c j p) : S.card ≤ (n - 1).factorial := by
  rcases S.eq_empty_or_nonempty with rfl | ⟨p0, hp0⟩
  · simp
  have hc : c < n := by
    obtain ⟨-, h2, h3, -⟩ := h p0 hp0
    exact h2 c (List.mem_of_head? h3)
  have htail : ∀ p ∈ S, p = c :: p.tail := by
    intro p hp
    obtain ⟨-, -, h3, -⟩ := h p hp
    cases p with
    | nil => simp at h3
    | cons a p => simp at h3; simp [h3]
  have hlen : ((List.range n).erase c).length = n - 1 := by
    rw [List.length_erase_of_mem (List.mem_range.2 hc), List.length_range]
  have hperm : ∀ p ∈ S, (p.tail ++ ((List.range n).erase c).diff p.tail).Perm ((List.range n).erase c) := by
    intro p hp
    obtain ⟨h1, h2, h3, -⟩ := h p hp
    have ht := htail p hp
    rw [ht, List.nodup_cons] at h1
    refine List.subperm_append_diff_self_of_count_le fun x hx => ?_
    rw [List.count_eq_one_of_mem h1.2 hx]
    refine List.one_le_count_iff.2 ?_
    rw [List.nodup_range.mem_erase_iff]
    refine ⟨fun e => h1.1 (e ▸ hx), List.mem_range.2 (h2 x (List.mem_of_mem_tail hx))⟩
  have hsub : S.image (fun p => p.tail ++ ((List.range n).erase c).diff p.tail) ⊆ ((List.range n).erase c).permutations.toFinset := by
    intro q hq
    obtain ⟨p, hp, rfl⟩ := Finset.mem_image.1 hq
    rw [List.mem_toFinset, List.mem_permutations]
    exact hperm p hp
  have hinj : Set.InjOn (fun p => p.tail ++ ((List.range n).erase c).diff p.tail) (S : Set (List Nat)) := by
    intro p hp q hq e
    have hp := Finset.mem_coe.1 hp
    have hq := Finset.mem_coe.1 hq
    have hl : p.tail.length = q.tail.length := by
      rw [List.length_tail, List.length_tail, (h p hp).2.2.2, (h q hq).2.2.2]
    have := List.append_inj_left e hl
    rw [htail p hp, htail q hq, this]
  calc S.card = (S.image fun p => p.tail ++ ((List.range n).erase c).diff p.tail).card := (Finset.card_image_of_injOn hinj).symm
    _ ≤ ((List.range n).erase c).permutations.toFinset.card := Finset.card_le_card hsub
    _ ≤ ((List.range n).erase c).permutations.length := List.toFinset_card_le _
    _ = (n - 1).factorial := by rw [List.length_permutations, hlen]

/-- the beam holds every path, each once -/
structure Full (n beam : Nat) (start : Nat → Nat) (b : Beam) (s : Nat) : Prop where
  inj : ∀ k < beam, ∀ l < beam, Good 0 b k → Good 0 b l → pathOf b.prevKs b.nextNodes s k = pathOf b.prevKs b.nextNodes s l → k = l
  all : ∀ p, PathFrom n (start 0) (s + 1) p → ∃ k < beam, Good 0 b k ∧ pathOf b.prevKs b.nextNodes s k = p

theorem full_inv {topk : (Nat → ℚ) → Nat → Nat → List Nat} (ht : IsTopK topk) {y : Nat → Nat → ℚ} {n beam : Nat} {start : Nat → Nat} (hb : (n - 1).factorial ≤ beam)
    (hstart : ∀ k < beam, start k < n) (hy : ∀ i < n, ∀ j < n, i ≠ j → 0 < y i j) (hy0 : ∀ i < n, ∀ j < n, 0 ≤ y i j) : ∀ s < n,
    Full n beam start (beamAfter topk .raw beam n y start s) s
  | 0, _ => by
    have hb1 : 1 ≤ beam := le_trans (Nat.factorial_pos _) hb
    refine ⟨?_, ?_⟩
    · intro k _ l _ hk hl _
      have hk : k = 0 := hk
      have hl : l = 0 := hl
      omega
    · rintro p ⟨-, -, h3, h4⟩
      refine ⟨0, by omega, rfl, ?_⟩
      match p, h4 with
      | [a], _ =>
        simp at h3
        subst h3
        rfl
  | s + 1, hs => by
    have hb1 : 1 ≤ beam := le_trans (Nat.factorial_pos _) hb
    have hn : 0 < n := by omega
    obtain ⟨hI', -, -⟩ := raw_inv ht hb1 hstart hy hy0 (s + 1) hs
    obtain ⟨hI, hS, hN⟩ := raw_inv ht hb1 hstart hy hy0 s (by omega)
    have hF := full_inv ht hb hstart hy hy0 s (by omega)
    rw [beamAfter] at hI' ⊢
    generalize beamAfter topk .raw beam n y start s = b at hI hS hN hF hI'
    have hle : beam ≤ beam * n := Nat.le_mul_of_pos_right _ hn
    have hbad : badMask .raw = 0 := rfl
    set lk : Nat → ℚ := fun i => beamLk .raw b (gatherState y b) (i / n) (i % n) with hlk
    set ids := topk lk (beam * n) beam with hids
    have hlen : ids.length = beam := ht.length _ _ _ hle
    set b' := advance topk .raw beam n b (gatherState y b) with hb'
    have hnn : ∀ i : Nat, i - i / n * n = i % n := by
      intro i
      have := Nat.div_add_mod i n
      rw [Nat.mul_comm] at this
      omega
    have hpath : ∀ k, pathOf b'.prevKs b'.nextNodes (s + 1) k = pathOf b.prevKs b.nextNodes s (ids.getD k 0 / n) ++ [ids.getD k 0 % n] := by
      intro k
      rw [pathOf]
      have e1 : b'.prevKs = b.prevKs ++ [fun k => ids.getD k 0 / n] := rfl
      have e2 : b'.nextNodes = b.nextNodes ++ [fun k => ids.getD k 0 - ids.getD k 0 / n * n] := rfl
      have e3 : (b.prevKs ++ [fun k => ids.getD k 0 / n]).getD s (fun _ => 0) = fun k => ids.getD k 0 / n := by
        rw [List.getD_eq_getElem?_getD, List.getElem?_append_right (by rw [hI.lenP]), hI.lenP]; simp
      have e4 : (b.nextNodes ++ [fun k => ids.getD k 0 - ids.getD k 0 / n * n]).getD (s + 1) (fun _ => 0) = fun k => ids.getD k 0 - ids.getD k 0 / n * n := by
        rw [List.getD_eq_getElem?_getD, List.getElem?_append_right (by rw [hI.lenN]), hI.lenN]; simp
      rw [e1, e2, e3, e4, pathOf_append _ _ (by rw [hI.lenP]) (by rw [hI.lenN]; omega)]
      dsimp only
      rw [hnn]
    have hgood' : ∀ k, Good 0 b' k ↔ 0 < lk (ids.getD k 0) := by
      intro k
      unfold Good
      rw [hI'.lenP, if_neg (by omega)]
      rfl
    -- a positive value comes from a good position and an unvisited node
    have hpos : ∀ p < beam, ∀ v < n, 0 < beamLk .raw b (gatherState y b) p v → Good 0 b p := by
      intro p hp v hv hlt
      unfold Good
      rcases Nat.eq_zero_or_pos s with hs0 | hs0
      · rw [if_pos (by rw [hI.lenP, hs0])]
        rw [beamLk_first (by rw [hI.lenP, hs0])] at hlt
        by_contra hp0
        rw [if_pos (by omega), zero_mul] at hlt
        exact absurd hlt (lt_irrefl _)
      · rw [if_neg (by rw [hI.lenP]; omega)]
        rw [beamLk_raw (by rw [hI.lenP]; exact hs0)] at hlt
        rcases (hS p hp).eq_or_lt with he | he
        · rw [← he, mul_zero, zero_mul] at hlt; exact absurd hlt (lt_irrefl _)
        · exact he
    have hidlt : ∀ k < beam, ids.getD k 0 < beam * n ∧ ids.getD k 0 ∈ ids := by
      intro k hk
      rw [head_getD _ _ (by omega)]
      exact ⟨ht.lt _ _ _ hle _ (List.getElem_mem _), List.getElem_mem _⟩
    have hdiv : ∀ i, i < beam * n → i / n < beam := fun i hi => (Nat.div_lt_iff_lt_mul hn).2 hi
    have hprev : ∀ k < beam, Good 0 b' k → Good 0 b (ids.getD k 0 / n) := by
      intro k hk hg
      rw [hgood'] at hg
      exact hpos _ (hdiv _ (hidlt k hk).1) _ (Nat.mod_lt _ hn) hg
    have hinj : ∀ k < beam, ∀ l < beam, Good 0 b' k → Good 0 b' l → pathOf b'.prevKs b'.nextNodes (s + 1) k = pathOf b'.prevKs b'.nextNodes (s + 1) l → k = l := by
      intro k hk l hl hgk hgl e
      rw [hpath, hpath] at e
      obtain ⟨e1, e2⟩ := List.append_inj' e rfl
      have e3 := hF.inj _ (hdiv _ (hidlt k hk).1) _ (hdiv _ (hidlt l hl).1) (hprev k hk hgk) (hprev l hl hgl) e1
      have e4 : ids.getD k 0 % n = ids.getD l 0 % n := by simpa using e2
      have e5 : ids.getD k 0 = ids.getD l 0 := by
        rw [← Nat.div_add_mod (ids.getD k 0) n, ← Nat.div_add_mod (ids.getD l 0) n, e3, e4]
      rw [head_getD _ _ (by omega), head_getD _ _ (by omega)] at e5
      exact ((ht.nodup _ _ _ hle).getElem_inj_iff).1 e5
    refine ⟨hinj, ?_⟩
    rintro p ⟨h1, h2, h3, h4⟩
    have hpne : p ≠ [] := by intro e; rw [e] at h4; simp at h4
    have hsplit := List.dropLast_append_getLast hpne
    generalize p.dropLast = q at hsplit
    generalize p.getLast hpne = v at hsplit
    subst hsplit
    have hq : PathFrom n (start 0) (s + 1) q := by
      refine ⟨(List.nodup_append.1 h1).1, fun w hw => h2 w (by simp [hw]), ?_, by simpa using h4⟩
      have : q ≠ [] := by intro e; rw [e] at h4; simp at h4
      rw [List.head?_append_of_ne_nil _ this] at h3
      exact h3
    obtain ⟨k, hk, hgk, hpk⟩ := hF.all q hq
    have hv : v < n := h2 v (by simp)
    have hvq : v ∉ q := fun hm => by
      rw [List.nodup_append] at h1
      exact h1.2.2 v hm v (by simp) rfl
    obtain ⟨g1, g2, g3, g4, g5⟩ := hI.good k hk hgk
    have hm1 : b.mask k v = 1 := (g4 v hv).2 (by rw [hpk]; exact hvq)
    have hgs := gatherState_eq hI.lenN y k v
    have hmem := List.mem_of_getLast? (pathOf_getLast b.prevKs b.nextNodes s k)
    have hyp : 0 < gatherState y b k v := by
      rw [hgs]
      refine hy _ (g2 _ hmem) _ hv fun e => hvq ?_
      rw [← hpk, ← e]; exact hmem
    have hlkpos : 0 < beamLk .raw b (gatherState y b) k v := by
      unfold Good at hgk
      rcases Nat.eq_zero_or_pos s with hs0 | hs0
      · rw [if_pos (by rw [hI.lenP, hs0])] at hgk
        rw [beamLk_first (by rw [hI.lenP, hs0]), hm1, mul_one, if_neg (by omega)]
        exact hyp
      · rw [if_neg (by rw [hI.lenP]; omega)] at hgk
        rw [beamLk_raw (by rw [hI.lenP]; exact hs0), hm1, mul_one]
        exact mul_pos hyp hgk
    have hd1 : (k * n + v) / n = k := by rw [Nat.mul_comm, Nat.mul_add_div hn, Nat.div_eq_of_lt hv, Nat.add_zero]
    have hd2 : (k * n + v) % n = v := by rw [Nat.mul_comm, Nat.mul_add_mod, Nat.mod_eq_of_lt hv]
    have hlki : lk (k * n + v) = beamLk .raw b (gatherState y b) k v := by
      show beamLk .raw b (gatherState y b) ((k * n + v) / n) ((k * n + v) % n) = _
      rw [hd1, hd2]
    have hi : k * n + v < beam * n := by
      calc k * n + v < k * n + n := by omega
        _ = (k + 1) * n := by ring
        _ ≤ beam * n := Nat.mul_le_mul_right _ hk
    by_cases hin : k * n + v ∈ ids
    · obtain ⟨l, hl, el⟩ := List.getElem_of_mem hin
      have hgd : ids.getD l 0 = k * n + v := by rw [head_getD _ _ hl, el]
      refine ⟨l, by omega, ?_, ?_⟩
      · rw [hgood', hgd, hlki]; exact hlkpos
      · rw [hpath, hgd, hd1, hd2, hpk]
    · exfalso
      have hall : ∀ l < beam, Good 0 b' l := by
        intro l hl
        rw [hgood']
        have := ht.largest lk _ _ hle _ hi hin _ (hidlt l hl).2
        rw [hlki] at this
        exact lt_of_lt_of_le hlkpos this
      have hnew : q ++ [v] ∉ (Finset.range beam).image fun l => pathOf b'.prevKs b'.nextNodes (s + 1) l := by
        intro hmem
        obtain ⟨l, hl, el⟩ := Finset.mem_image.1 hmem
        have hl := Finset.mem_range.1 hl
        rw [hpath] at el
        obtain ⟨e1, e2⟩ := List.append_inj' el rfl
        have e3 := hF.inj _ (hdiv _ (hidlt l hl).1) k hk (hprev l hl (hall l hl)) hgk (by rw [e1, hpk])
        have e4 : ids.getD l 0 % n = v := by simpa using e2
        apply hin
        have : ids.getD l 0 = k * n + v := by
          rw [← Nat.div_add_mod (ids.getD l 0) n, e3, e4, Nat.mul_comm]
        rw [← this]
        exact (hidlt l hl).2
      have hcard := paths_card (n := n) (c := start 0) (j := s + 2) (insert (q ++ [v]) ((Finset.range beam).image fun l => pathOf b'.prevKs b'.nextNodes (s + 1) l)) (by
        intro p hp
        rcases Finset.mem_insert.1 hp with rfl | hp
        · exact ⟨h1, h2, h3, h4⟩
        · obtain ⟨l, hl, rfl⟩ := Finset.mem_image.1 hp
          have hl := Finset.mem_range.1 hl
          obtain ⟨a1, a2, a3, -, -⟩ := hI'.good l hl (hall l hl)
          exact ⟨a1, a2, a3, pathOf_length _ _ _ _⟩)
      rw [Finset.card_insert_of_notMem hnew, Finset.card_image_of_injOn, Finset.card_range] at hcard
      · omega
      · intro l hl l' hl' e
        exact hinj l (by simpa using hl) l' (by simpa using hl') (hall l (by simpa using hl)) (hall l' (by simpa using hl')) e

/-- **C76** (wide beam). With positive probabilities and a beam of at least `(n - 1)!` positions, the returned tour is a most probable one: no other order of the nodes from the same starting node has a larger
product of probabilities. -/
theorem C76_exact {topk : (Nat → ℚ) → Nat → Nat → List Nat} (ht : IsTopK topk) {y : Nat → Nat → ℚ} {n beam : Nat} {start : Nat → Nat} (hn : 2 ≤ n) (hb : (n - 1).factorial ≤ beam)
    (hstart : ∀ k < beam, start k < n) (hy : ∀ i < n, ∀ j < n, i ≠ j → 0 < y i j) (hy0 : ∀ i < n, ∀ j < n, 0 ≤ y i j) :
    ∃ t, beamTour topk .raw beam n y start = .ok t ∧ IsTour n t ∧ t.head? = some (start 0) ∧ ∀ t', IsTour n t' → t'.head? = some (start 0) → pathProb y t' ≤ pathProb y t := by
  have hb1 : 1 ≤ beam := le_trans (Nat.factorial_pos _) hb
  obtain ⟨t, h1, h2, h3, h4⟩ := C74_tour ht hn hb1 hstart hy hy0
  refine ⟨t, h1, h2, h3, ?_⟩
  intro t' ht' hh
  obtain ⟨hI, -, -⟩ := raw_inv ht hb1 hstart hy hy0 (n - 1) (by omega)
  have hF := full_inv ht hb hstart hy hy0 (n - 1) (by omega)
  rw [← beamRun_eq] at hI hF
  obtain ⟨k, hk, hg, hp⟩ := hF.all t' ⟨ht'.nodup, fun v hv => ht'.mem.1 hv, hh, by rw [ht'.length]; omega⟩
  have hs : 0 < (beamRun topk .raw beam n y start).scores k := by
    unfold Good at hg
    rwa [if_neg (by rw [hI.lenP]; omega)] at hg
  obtain ⟨t'', e1, e2, e3, e4, e5⟩ := h4 k hk hs
  have : t'' = t' := by
    unfold getHypothesis at e1
    rw [if_pos (by rw [hI.lenP]; omega), walkBack_eq (by rw [← List.length_pos_iff, hI.lenP]; omega), hI.lenP, hp] at e1
    exact (Except.ok.inj e1).symm
  rw [← this]
  exact e5

/-- the hypotheses are met with four nodes and a beam of six -/
example : (4 - 1).factorial ≤ 6 := by decide

/-- a narrow beam is not exact: from node 0 the best step is to node 1, but then only improbable steps are left -/
theorem C76_narrow : ∃ y : Nat → Nat → ℚ, (∀ i j, 0 < y i j) ∧ beamTour sortTopK .raw 1 3 y (fun _ => 0) = .ok [0, 1, 2] ∧ pathProb y [0, 1, 2] < pathProb y [0, 2, 1] := by
  refine ⟨fun i j => if i = 0 ∧ j = 1 then 9 / 10 else if i = 0 then 8 / 10 else if i = 2 then 9 / 10 else 1 / 10, fun i j => ?_, by decide +kernel, by decide +kernel⟩
  dsimp only
  split_ifs <;> norm_num

end Verif
