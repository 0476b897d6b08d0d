import Verif.Model.Beam
import Verif.Spec.TopK
import Verif.Spec.Tour
import Mathlib.Tactic.Linarith
import Mathlib.Tactic.Ring
import Mathlib.Tactic.Positivity
import Mathlib.Tactic.NormNum

/-!
# Invariant of beam search
-/
namespace Verif
open Verif.Spec
set_option autoImplicit false

/-- the value that replaces the mask of a visited node -/
def badMask : ProbsType → ℚ
  | .raw => 0
  | .logits => 10 ^ 20

theorem badMask_ne (m : ProbsType) : badMask m ≠ 1 := by cases m <;> norm_num [badMask]

theorem updateMask_eq {m : ProbsType} {mask : Nat → Nat → ℚ} {new : Nat → Nat} {k v : Nat} (h : mask k v = 1 ∨ mask k v = badMask m) :
    updateMask m mask new k v = if v = new k then badMask m else mask k v := by
  unfold updateMask
  by_cases hv : v = new k
  · cases m <;> simp [hv, badMask]
  · cases m
    · simp [hv]
    · rcases h with h | h <;> simp [hv, h, badMask]

/-- the nodes on the way back from position `k` at step `i` -/
def pathOf (prevKs nextNodes : List (Nat → Nat)) : Nat → Nat → List Nat
  | 0, k => [nextNodes.getD 0 (fun _ => 0) k]
  | i + 1, k => pathOf prevKs nextNodes i (prevKs.getD i (fun _ => 0) k) ++ [nextNodes.getD (i + 1) (fun _ => 0) k]

theorem walkBack_eq {prevKs nextNodes : List (Nat → Nat)} (h : prevKs ≠ []) : ∀ i k, walkBack prevKs nextNodes i k = .ok (pathOf prevKs nextNodes i k)
  | 0, k => by
    rw [walkBack, List.getLast?_eq_getLast_of_ne_nil h]
    rfl
  | i + 1, k => by
    rw [walkBack, walkBack_eq h i]
    rfl

theorem pathOf_append {pk nx : List (Nat → Nat)} {a b : Nat → Nat} : ∀ i k, i ≤ pk.length → i < nx.length → pathOf (pk ++ [a]) (nx ++ [b]) i k = pathOf pk nx i k
  | 0, k, _, h => by
    simp only [pathOf, List.getD_eq_getElem?_getD]
    rw [List.getElem?_append_left h]
  | i + 1, k, h1, h2 => by
    simp only [pathOf]
    rw [pathOf_append i _ (by omega) (by omega)]
    simp only [List.getD_eq_getElem?_getD]
    rw [List.getElem?_append_left h2, List.getElem?_append_left (by omega)]

theorem pathOf_length (pk nx : List (Nat → Nat)) : ∀ i k, (pathOf pk nx i k).length = i + 1
  | 0, _ => rfl
  | i + 1, k => by simp [pathOf, pathOf_length pk nx i]

theorem pathOf_getLast (pk nx : List (Nat → Nat)) (i k : Nat) : (pathOf pk nx i k).getLast? = some (nx.getD i (fun _ => 0) k) := by
  cases i <;> simp [pathOf]

/-- a position of the beam whose path is to be trusted -/
def Good (T : ℚ) (b : Beam) (k : Nat) : Prop := if b.prevKs.length = 0 then k = 0 else T < b.scores k

/-- the value of a path -/
def pathVal (m : ProbsType) (y : Nat → Nat → ℚ) (p : List Nat) : ℚ :=
  match m with
  | .raw => pathProb y p
  | .logits => pathSum y p

theorem zipWith_snoc (y : Nat → Nat → ℚ) (v : Nat) : ∀ {p : List Nat} {a : Nat}, p.getLast? = some a → List.zipWith y (p ++ [v]) (p ++ [v]).tail = List.zipWith y p p.tail ++ [y a v]
  | [], a, h => by simp at h
  | [x], a, h => by simp at h; subst h; rfl
  | x :: z :: p, a, h => by
    have := zipWith_snoc y v (p := z :: p) (a := a) (by simpa [List.getLast?_cons_cons] using h)
    simp only [List.cons_append, List.tail_cons, List.zipWith_cons_cons] at this ⊢
    rw [this]

theorem pathVal_snoc {m : ProbsType} {y : Nat → Nat → ℚ} {p : List Nat} {a : Nat} (v : Nat) (h : p.getLast? = some a) :
    pathVal m y (p ++ [v]) = match m with | .raw => y a v * pathVal m y p | .logits => y a v + pathVal m y p := by
  cases m
  · simp only [pathVal, pathProb, zipWith_snoc y v h, List.prod_append, List.prod_singleton]; ring
  · simp only [pathVal, pathSum, zipWith_snoc y v h, List.sum_append, List.sum_singleton]; ring

/-- the invariant after `s` steps -/
structure BeamInv (m : ProbsType) (T : ℚ) (y : Nat → Nat → ℚ) (n beam : Nat) (start : Nat → Nat) (b : Beam) (s : Nat) : Prop where
  lenP : b.prevKs.length = s
  lenN : b.nextNodes.length = s + 1
  mask : ∀ k < beam, ∀ v < n, b.mask k v = 1 ∨ b.mask k v = badMask m
  good : ∀ k < beam, Good T b k → (pathOf b.prevKs b.nextNodes s k).Nodup ∧ (∀ v ∈ pathOf b.prevKs b.nextNodes s k, v < n) ∧ (pathOf b.prevKs b.nextNodes s k).head? = some (start 0) ∧
    (∀ v < n, b.mask k v = 1 ↔ v ∉ pathOf b.prevKs b.nextNodes s k) ∧ (s ≠ 0 → b.scores k = pathVal m y (pathOf b.prevKs b.nextNodes s k))
  first : Good T b 0
  sorted : s ≠ 0 → ∀ k l, k ≤ l → l < beam → b.scores l ≤ b.scores k

theorem bInv_init {m : ProbsType} {T : ℚ} {y : Nat → Nat → ℚ} {n beam : Nat} {start : Nat → Nat} (h0 : start 0 < n) : BeamInv m T y n beam start (beamInit m start) 0 := by
  have hm : ∀ k v, (beamInit m start).mask k v = if v = start k then badMask m else 1 := by
    intro k v
    have := updateMask_eq (m := m) (mask := fun _ _ => 1) (new := start) (k := k) (v := v) (Or.inl rfl)
    exact this
  refine ⟨rfl, rfl, ?_, ?_, rfl, fun h => absurd rfl h⟩
  · intro k _ v _
    rw [hm]
    by_cases h : v = start k <;> simp [h]
  · intro k _ hk
    have hk : k = 0 := hk
    subst hk
    have hp : pathOf (beamInit m start).prevKs (beamInit m start).nextNodes 0 0 = [start 0] := rfl
    rw [hp]
    refine ⟨by simp, by simpa using h0, rfl, ?_, fun h => absurd rfl h⟩
    intro v _
    rw [hm, List.mem_singleton]
    by_cases h : v = start 0
    · simp [h, badMask_ne]
    · simp [h]

theorem head_getD (l : List Nat) (i : Nat) (h : i < l.length) : l.getD i 0 = l[i] := by simp [List.getD_eq_getElem?_getD, List.getElem?_eq_getElem h]

/-- one step of the search -/
theorem beamInv_step {topk : (Nat → ℚ) → Nat → Nat → List Nat} (ht : IsTopK topk) {m : ProbsType} {T : ℚ} {y : Nat → Nat → ℚ} {n beam : Nat} {start : Nat → Nat} {b : Beam} {s : Nat} (hb : 1 ≤ beam)
    (hs : s + 1 < n) (hI : BeamInv m T y n beam start b s)
    (H1 : ∀ p < beam, ∀ v < n, T < beamLk m b (gatherState y b) p v → Good T b p ∧ b.mask p v = 1)
    (H2 : ∀ v < n, b.mask 0 v = 1 → T < beamLk m b (gatherState y b) 0 v) :
    BeamInv m T y n beam start (advance topk m beam n b (gatherState y b)) (s + 1) ∧
      (∀ k < beam, ∃ p < beam, ∃ v < n, (advance topk m beam n b (gatherState y b)).scores k = beamLk m b (gatherState y b) p v) ∧
      (∀ p < beam, ∀ v < n, beamLk m b (gatherState y b) p v ≤ (advance topk m beam n b (gatherState y b)).scores 0) := by
  have hn : 0 < n := by omega
  have hle : beam ≤ beam * n := Nat.le_mul_of_pos_right _ hn
  set lk : Nat → ℚ := fun i => beamLk m b (gatherState y b) (i / n) (i % n) with hlk
  set ids := topk lk (beam * n) beam with hids
  have hlen : ids.length = beam := ht.length _ _ _ hle
  set prev : Nat → Nat := fun k => ids.getD k 0 / n with hprev
  set new : Nat → Nat := fun k => ids.getD k 0 - prev k * n with hnew
  have hnew' : ∀ k, new k = ids.getD k 0 % n := by
    intro k
    have := Nat.div_add_mod (ids.getD k 0) n
    simp only [hnew, hprev]
    rw [Nat.mul_comm] at this
    omega
  have hid : ∀ k < beam, ids.getD k 0 < beam * n ∧ ids.getD k 0 ∈ ids := by
    intro k hk
    rw [head_getD _ _ (by omega)]
    exact ⟨ht.lt _ _ _ hle _ (List.getElem_mem _), List.getElem_mem _⟩
  have hpk : ∀ k < beam, prev k < beam := fun k hk => (Nat.div_lt_iff_lt_mul hn).2 (hid k hk).1
  have hvk : ∀ k, new k < n := fun k => by rw [hnew']; exact Nat.mod_lt _ hn
  have hadv : advance topk m beam n b (gatherState y b) = { mask := updateMask m (fun k v => b.mask (prev k) v) new, scores := fun k => lk (ids.getD k 0), prevKs := b.prevKs ++ [prev], nextNodes := b.nextNodes ++ [new] } := rfl
  have hscore : ∀ k, (advance topk m beam n b (gatherState y b)).scores k = beamLk m b (gatherState y b) (prev k) (new k) := by
    intro k
    rw [hnew']
    rfl
  have hmax : ∀ p < beam, ∀ v < n, beamLk m b (gatherState y b) p v ≤ (advance topk m beam n b (gatherState y b)).scores 0 := by
    intro p hp v hv
    have hi : p * n + v < beam * n := by
      calc p * n + v < p * n + n := by omega
        _ = (p + 1) * n := by ring
        _ ≤ beam * n := Nat.mul_le_mul_right _ hp
    have hlki : lk (p * n + v) = beamLk m b (gatherState y b) p v := by
      simp only [hlk]
      rw [Nat.mul_comm p n, Nat.mul_add_div hn, Nat.div_eq_of_lt hv, Nat.mul_add_mod, Nat.mod_eq_of_lt hv, Nat.add_zero]
    rw [← hlki, hadv]
    show lk _ ≤ lk (ids.getD 0 0)
    by_cases hmem : p * n + v ∈ ids
    · obtain ⟨j, hj, e⟩ := List.getElem_of_mem hmem
      rw [← e, head_getD _ _ (by omega)]
      rcases Nat.eq_zero_or_pos j with rfl | hj0
      · exact le_rfl
      · exact (List.pairwise_iff_getElem.1 (ht.sorted _ _ _ hle)) 0 j (by rw [← hids]; omega) (by rw [← hids]; exact hj) hj0
    · exact ht.largest _ _ _ hle _ hi hmem _ (hid 0 hb).2
  have hnewpath : ∀ k, pathOf (b.prevKs ++ [prev]) (b.nextNodes ++ [new]) (s + 1) k = pathOf b.prevKs b.nextNodes s (prev k) ++ [new k] := by
    intro k
    rw [pathOf]
    have e1 : (b.prevKs ++ [prev]).getD s (fun _ => 0) = prev := by
      rw [List.getD_eq_getElem?_getD, List.getElem?_append_right (by rw [hI.lenP]), hI.lenP]; simp
    have e2 : (b.nextNodes ++ [new]).getD (s + 1) (fun _ => 0) = new := by
      rw [List.getD_eq_getElem?_getD, List.getElem?_append_right (by rw [hI.lenN]), hI.lenN]; simp
    rw [e1, e2, pathOf_append _ _ (by rw [hI.lenP]) (by rw [hI.lenN]; omega)]
  have hmask : ∀ k < beam, ∀ v < n, (advance topk m beam n b (gatherState y b)).mask k v = if v = new k then badMask m else b.mask (prev k) v := by
    intro k hk v hv
    rw [hadv]
    exact updateMask_eq (m := m) (mask := fun k v => b.mask (prev k) v) (new := new) (hI.mask _ (hpk k hk) v hv)
  have hlenP' : (advance topk m beam n b (gatherState y b)).prevKs.length = s + 1 := by rw [hadv]; simp [hI.lenP]
  have hgood' : ∀ k, Good T (advance topk m beam n b (gatherState y b)) k ↔ T < (advance topk m beam n b (gatherState y b)).scores k := by
    intro k
    unfold Good
    rw [hlenP', if_neg (by omega)]
  refine ⟨⟨hlenP', by rw [hadv]; simp [hI.lenN], ?_, ?_, ?_, ?_⟩, ?_, hmax⟩
  · intro k hk v hv
    rw [hmask k hk v hv]
    by_cases h : v = new k
    · simp [h]
    · simp only [h, if_false]
      exact hI.mask _ (hpk k hk) v hv
  · intro k hk hg
    rw [hgood', hscore] at hg
    obtain ⟨hgp, hmp⟩ := H1 _ (hpk k hk) _ (hvk k) hg
    obtain ⟨g1, g2, g3, g4, g5⟩ := hI.good _ (hpk k hk) hgp
    have hnot := (g4 _ (hvk k)).1 hmp
    have hpath : pathOf (advance topk m beam n b (gatherState y b)).prevKs (advance topk m beam n b (gatherState y b)).nextNodes (s + 1) k = pathOf b.prevKs b.nextNodes s (prev k) ++ [new k] := hnewpath k
    rw [hpath]
    refine ⟨?_, ?_, ?_, ?_, ?_⟩
    · rw [List.nodup_append]
      refine ⟨g1, by simp, ?_⟩
      intro a ha c hc e
      rw [List.mem_singleton] at hc
      subst hc; subst e
      exact hnot ha
    · intro v hv
      rcases List.mem_append.1 hv with hv | hv
      · exact g2 v hv
      · rw [List.mem_singleton] at hv; subst hv; exact hvk k
    · rw [List.head?_append, g3]; rfl
    · intro v hv
      rw [hmask k hk v hv, List.mem_append, List.mem_singleton, not_or]
      by_cases h : v = new k
      · simp [h, badMask_ne]
      · simp only [h, if_false, not_false_eq_true, and_true]
        exact g4 v hv
    · intro _
      have hlast := pathOf_getLast b.prevKs b.nextNodes s (prev k)
      have hgs : gatherState y b (prev k) (new k) = y (b.nextNodes.getD s (fun _ => 0) (prev k)) (new k) := by
        unfold gatherState
        rw [List.getLastD_eq_getLast?, List.getLast?_eq_getElem?, hI.lenN, List.getD_eq_getElem?_getD]
        rfl
      rw [hscore, pathVal_snoc _ hlast, ← hgs]
      unfold beamLk
      rw [hmp, mul_one, hI.lenP]
      rcases Nat.eq_zero_or_pos s with hs0 | hs0
      · have hp0 : prev k = 0 := by
          unfold Good at hgp
          rwa [if_pos (by rw [hI.lenP, hs0])] at hgp
        subst hs0
        rw [if_neg (by omega), if_neg (by omega)]
        cases m
        · simp [pathVal, pathProb, pathOf]
        · simp [pathVal, pathSum, pathOf]
      · rw [if_pos hs0, ← g5 (by omega)]
        rfl
  · rw [hgood']
    obtain ⟨g1, g2, g3, g4, g5⟩ := hI.good 0 (by omega) hI.first
    have hex : ∃ v < n, v ∉ pathOf b.prevKs b.nextNodes s 0 := by
      by_contra hcon
      push Not at hcon
      have hsub : List.range n ⊆ pathOf b.prevKs b.nextNodes s 0 := fun v hv => hcon v (List.mem_range.1 hv)
      have := (List.nodup_range.subperm hsub).length_le
      rw [List.length_range, pathOf_length] at this
      omega
    obtain ⟨v, hv, hvn⟩ := hex
    exact lt_of_lt_of_le (H2 v hv ((g4 v hv).2 hvn)) (hmax 0 (by omega) v hv)
  · intro _ k l hkl hl
    rw [hadv]
    show lk (ids.getD l 0) ≤ lk (ids.getD k 0)
    rw [head_getD _ _ (by omega), head_getD _ _ (by omega)]
    rcases Nat.eq_or_lt_of_le hkl with rfl | hkl
    · exact le_rfl
    · exact (List.pairwise_iff_getElem.1 (ht.sorted _ _ _ hle)) k l (by rw [← hids]; omega) (by rw [← hids]; omega) hkl
  · intro k hk
    exact ⟨_, hpk k hk, _, hvk k, hscore k⟩

/-- the run as a recursion on the number of steps -/
def beamAfter (topk : (Nat → ℚ) → Nat → Nat → List Nat) (m : ProbsType) (beam n : Nat) (y : Nat → Nat → ℚ) (start : Nat → Nat) : Nat → Beam
  | 0 => beamInit m start
  | s + 1 => advance topk m beam n (beamAfter topk m beam n y start s) (gatherState y (beamAfter topk m beam n y start s))

theorem beamRun_eq (topk : (Nat → ℚ) → Nat → Nat → List Nat) (m : ProbsType) (beam n : Nat) (y : Nat → Nat → ℚ) (start : Nat → Nat) : beamRun topk m beam n y start = beamAfter topk m beam n y start (n - 1) := by
  unfold beamRun
  generalize n - 1 = s
  induction s with
  | zero => rfl
  | succ s ih => rw [List.range_succ, List.foldl_append, ih]; rfl

theorem beamLk_first {m : ProbsType} {b : Beam} {trans : Nat → Nat → ℚ} {k v : Nat} (h : b.prevKs.length = 0) :
    beamLk m b trans k v = (if 1 ≤ k then (match m with | .raw => 0 | .logits => -10 ^ 20) else trans k v) * b.mask k v := by
  unfold beamLk
  rw [if_neg (by omega)]
  rfl

theorem beamLk_raw {b : Beam} {trans : Nat → Nat → ℚ} {k v : Nat} (h : 0 < b.prevKs.length) : beamLk .raw b trans k v = trans k v * b.scores k * b.mask k v := by
  unfold beamLk
  rw [if_pos h]

theorem beamLk_logits {b : Beam} {trans : Nat → Nat → ℚ} {k v : Nat} (h : 0 < b.prevKs.length) : beamLk .logits b trans k v = (trans k v + b.scores k) * b.mask k v := by
  unfold beamLk
  rw [if_pos h]

theorem advance_last {topk : (Nat → ℚ) → Nat → Nat → List Nat} {m : ProbsType} {beam n : Nat} (hn : 0 < n) (b : Beam) (trans : Nat → Nat → ℚ) (k : Nat) :
    ((advance topk m beam n b trans).nextNodes.getLastD fun _ => 0) k < n := by
  have : ∀ i : Nat, i - i / n * n < n := by
    intro i
    have h1 := Nat.div_add_mod i n
    have h2 := Nat.mod_lt i hn
    rw [Nat.mul_comm] at h1
    omega
  unfold advance
  rw [List.getLastD_concat]
  exact this _

theorem gatherState_eq {b : Beam} {s : Nat} (h : b.nextNodes.length = s + 1) (y : Nat → Nat → ℚ) (k v : Nat) : gatherState y b k v = y (b.nextNodes.getD s (fun _ => 0) k) v := by
  unfold gatherState
  rw [List.getLastD_eq_getLast?, List.getLast?_eq_getElem?, h, List.getD_eq_getElem?_getD]
  rfl

/-- the step from position 0 to an unvisited node uses an edge between different nodes -/
theorem first_step_edge {m : ProbsType} {T : ℚ} {y : Nat → Nat → ℚ} {n beam : Nat} {start : Nat → Nat} {b : Beam} {s : Nat} (hb : 1 ≤ beam) (hI : BeamInv m T y n beam start b s) {v : Nat} (hv : v < n)
    (hm : b.mask 0 v = 1) : ∃ i < n, i ≠ v ∧ gatherState y b 0 v = y i v := by
  obtain ⟨g1, g2, g3, g4, g5⟩ := hI.good 0 (by omega) hI.first
  have hvn := (g4 v hv).1 hm
  have hmem := List.mem_of_getLast? (pathOf_getLast b.prevKs b.nextNodes s 0)
  exact ⟨_, g2 _ hmem, fun e => hvn (e ▸ hmem), gatherState_eq hI.lenN y 0 v⟩

/-- raw probabilities: the invariant with threshold 0 -/
theorem raw_inv {topk : (Nat → ℚ) → Nat → Nat → List Nat} (ht : IsTopK topk) {y : Nat → Nat → ℚ} {n beam : Nat} {start : Nat → Nat} (hb : 1 ≤ beam)
    (hstart : ∀ k < beam, start k < n) (hy : ∀ i < n, ∀ j < n, i ≠ j → 0 < y i j) (hy0 : ∀ i < n, ∀ j < n, 0 ≤ y i j) : ∀ s < n,
    BeamInv .raw 0 y n beam start (beamAfter topk .raw beam n y start s) s ∧ (∀ k < beam, 0 ≤ (beamAfter topk .raw beam n y start s).scores k) ∧
      ∀ k < beam, ((beamAfter topk .raw beam n y start s).nextNodes.getLastD fun _ => 0) k < n
  | 0, _ => ⟨bInv_init (hstart 0 (by omega)), fun _ _ => le_rfl, hstart⟩
  | s + 1, hs => by
    obtain ⟨hI, hS, hN⟩ := raw_inv ht hb hstart hy hy0 s (by omega)
    rw [beamAfter]
    generalize beamAfter topk .raw beam n y start s = b at hI hS hN
    have hbad : badMask .raw = 0 := rfl
    have hg : ∀ p < beam, ∀ v < n, 0 ≤ gatherState y b p v := fun p hp v hv => hy0 _ (hN p hp) _ hv
    have hm : ∀ p < beam, ∀ v < n, 0 ≤ b.mask p v := by
      intro p hp v hv
      rcases hI.mask p hp v hv with h | h <;> simp [h, hbad]
    have hnn : ∀ p < beam, ∀ v < n, 0 ≤ beamLk .raw b (gatherState y b) p v := by
      intro p hp v hv
      rcases Nat.eq_zero_or_pos s with hs0 | hs0
      · rw [beamLk_first (by rw [hI.lenP, hs0])]
        refine mul_nonneg ?_ (hm p hp v hv)
        split
        · exact le_rfl
        · exact hg p hp v hv
      · rw [beamLk_raw (by rw [hI.lenP]; exact hs0)]
        exact mul_nonneg (mul_nonneg (hg p hp v hv) (hS p hp)) (hm p hp v hv)
    obtain ⟨h1, h2, h3⟩ := beamInv_step (b := b) ht hb (by omega) hI (by
      intro p hp v hv hlt
      have hm1 : b.mask p v = 1 := by
        rcases hI.mask p hp v hv with h | h
        · exact h
        · unfold beamLk at hlt; rw [h, hbad, mul_zero] at hlt; exact absurd hlt (lt_irrefl _)
      refine ⟨?_, hm1⟩
      unfold Good
      rcases Nat.eq_zero_or_pos s with hs0 | hs0
      · rw [if_pos (by rw [hI.lenP, hs0])]
        rw [beamLk_first (by rw [hI.lenP, hs0])] at hlt
        by_contra hp0
        rw [if_pos (by omega), zero_mul] at hlt
        exact absurd hlt (lt_irrefl _)
      · rw [if_neg (by rw [hI.lenP]; omega)]
        rw [beamLk_raw (by rw [hI.lenP]; exact hs0), hm1, mul_one] at hlt
        rcases (hS p hp).eq_or_lt with he | he
        · rw [← he, mul_zero] at hlt; exact absurd hlt (lt_irrefl _)
        · exact he) (by
      intro v hv hm1
      obtain ⟨i, hi, hne, e⟩ := first_step_edge hb hI hv hm1
      have hpos : 0 < gatherState y b 0 v := by rw [e]; exact hy i hi v hv hne
      have hgood := hI.first
      unfold Good at hgood
      rcases Nat.eq_zero_or_pos s with hs0 | hs0
      · rw [beamLk_first (by rw [hI.lenP, hs0]), hm1, mul_one, if_neg (by omega)]
        exact hpos
      · rw [if_neg (by rw [hI.lenP]; omega)] at hgood
        rw [beamLk_raw (by rw [hI.lenP]; exact hs0), hm1, mul_one]
        exact mul_pos hpos hgood)
    refine ⟨h1, ?_, fun k _ => advance_last (by omega) _ _ _⟩
    intro k hk
    obtain ⟨p, hp, v, hv, e⟩ := h2 k hk
    rw [e]
    exact hnn p hp v hv

/-- logarithms of probabilities between `-L` and `-l`: the invariant with the threshold `-B` -/
theorem logits_inv {topk : (Nat → ℚ) → Nat → Nat → List Nat} (ht : IsTopK topk) {y : Nat → Nat → ℚ} {n beam : Nat} {start : Nat → Nat} (hb : 1 ≤ beam)
    (hstart : ∀ k < beam, start k < n) {L l B : ℚ} (hl : 0 < l) (hB1 : B ≤ 10 ^ 20) (hB2 : B ≤ 10 ^ 20 * l) (hLB : n * L ≤ B) (hL : 0 < L) (hyl : ∀ i < n, ∀ j < n, y i j ≤ -l)
    (hyL : ∀ i < n, ∀ j < n, i ≠ j → -L ≤ y i j) : ∀ s < n,
    BeamInv .logits (-B) y n beam start (beamAfter topk .logits beam n y start s) s ∧ (∀ k < beam, (beamAfter topk .logits beam n y start s).scores k ≤ 0) ∧
      (-(s * L) ≤ (beamAfter topk .logits beam n y start s).scores 0) ∧
      ∀ k < beam, ((beamAfter topk .logits beam n y start s).nextNodes.getLastD fun _ => 0) k < n
  | 0, _ => ⟨bInv_init (hstart 0 (by omega)), fun _ _ => le_rfl, by simp [beamAfter, beamInit], hstart⟩
  | s + 1, hs => by
    obtain ⟨hI, hS, hS0, hN⟩ := logits_inv ht hb hstart hl hB1 hB2 hLB hL hyl hyL s (by omega)
    rw [beamAfter]
    generalize beamAfter topk .logits beam n y start s = b at hI hS hS0 hN
    have hbad : badMask .logits = 10 ^ 20 := rfl
    have hsn : ((s : ℚ) + 1) * L < n * L := by
      have : ((s : ℚ) + 1) < n := by exact_mod_cast hs
      exact mul_lt_mul_of_pos_right this hL
    have hg : ∀ p < beam, ∀ v < n, gatherState y b p v ≤ -l := fun p hp v hv => hyl _ (hN p hp) _ hv
    have hm : ∀ p < beam, ∀ v < n, 1 ≤ b.mask p v := by
      intro p hp v hv
      rcases hI.mask p hp v hv with h | h <;> rw [h] <;> norm_num [hbad]
    -- a negative number times the mask
    have hneg : ∀ (x : ℚ), x ≤ 0 → ∀ p < beam, ∀ v < n, x * b.mask p v ≤ x := by
      intro x hx p hp v hv
      nlinarith [hm p hp v hv]
    have hnp : ∀ p < beam, ∀ v < n, beamLk .logits b (gatherState y b) p v ≤ 0 := by
      intro p hp v hv
      rcases Nat.eq_zero_or_pos s with hs0 | hs0
      · rw [beamLk_first (by rw [hI.lenP, hs0])]
        split
        · have := hneg (-10 ^ 20) (by norm_num) p hp v hv
          exact this.trans (by norm_num)
        · have := hg p hp v hv
          exact (hneg _ (by linarith) p hp v hv).trans (by linarith)
      · rw [beamLk_logits (by rw [hI.lenP]; exact hs0)]
        have := hg p hp v hv
        have := hS p hp
        exact (hneg _ (by linarith) p hp v hv).trans (by linarith)
    have hfirst : ∀ v < n, b.mask 0 v = 1 → -((s + 1 : ℚ) * L) ≤ beamLk .logits b (gatherState y b) 0 v := by
      intro v hv hm1
      obtain ⟨i, hi, hne, e⟩ := first_step_edge hb hI hv hm1
      have hge : -L ≤ gatherState y b 0 v := by rw [e]; exact hyL i hi v hv hne
      rcases Nat.eq_zero_or_pos s with hs0 | hs0
      · rw [beamLk_first (by rw [hI.lenP, hs0]), hm1, mul_one, if_neg (by omega), hs0]
        simpa using hge
      · rw [beamLk_logits (by rw [hI.lenP]; exact hs0), hm1, mul_one]
        linarith
    obtain ⟨h1, h2, h3⟩ := beamInv_step (b := b) ht hb (by omega) hI (by
      intro p hp v hv hlt
      have hm1 : b.mask p v = 1 := by
        rcases hI.mask p hp v hv with h | h
        · exact h
        · exfalso
          rcases Nat.eq_zero_or_pos s with hs0 | hs0
          · rw [beamLk_first (by rw [hI.lenP, hs0]), h, hbad] at hlt
            split at hlt
            · norm_num at hlt hB1; linarith
            · have := hg p hp v hv
              nlinarith
          · rw [beamLk_logits (by rw [hI.lenP]; exact hs0), h, hbad] at hlt
            have := hg p hp v hv
            have := hS p hp
            nlinarith
      refine ⟨?_, hm1⟩
      unfold Good
      rcases Nat.eq_zero_or_pos s with hs0 | hs0
      · rw [if_pos (by rw [hI.lenP, hs0])]
        rw [beamLk_first (by rw [hI.lenP, hs0]), hm1, mul_one] at hlt
        by_contra hp0
        rw [if_pos (by omega)] at hlt
        dsimp only at hlt
        linarith
      · rw [if_neg (by rw [hI.lenP]; omega)]
        rw [beamLk_logits (by rw [hI.lenP]; exact hs0), hm1, mul_one] at hlt
        have := hg p hp v hv
        linarith) (by
      intro v hv hm1
      have := hfirst v hv hm1
      linarith)
    refine ⟨h1, ?_, ?_, fun k _ => advance_last (by omega) _ _ _⟩
    · intro k hk
      obtain ⟨p, hp, v, hv, e⟩ := h2 k hk
      rw [e]
      exact hnp p hp v hv
    · obtain ⟨g1, g2, g3, g4, g5⟩ := hI.good 0 (by omega) hI.first
      have hex : ∃ v < n, v ∉ pathOf b.prevKs b.nextNodes s 0 := by
        by_contra hcon
        push Not at hcon
        have hsub : List.range n ⊆ pathOf b.prevKs b.nextNodes s 0 := fun v hv => hcon v (List.mem_range.1 hv)
        have := (List.nodup_range.subperm hsub).length_le
        rw [List.length_range, pathOf_length] at this
        omega
      obtain ⟨v, hv, hvn⟩ := hex
      have := hfirst v hv ((g4 v hv).2 hvn)
      have := h3 0 (by omega) v hv
      push_cast
      linarith

end Verif
