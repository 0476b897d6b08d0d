import Verif.Proofs.Beam
import Verif.Proofs.TourUtils
import Verif.Proofs.Branch

/-!
# C74, C75: beam search
-/
namespace Verif
open Verif.Spec
set_option autoImplicit false

/-- the path of a good position at the end of the search is a tour -/
theorem good_tour {m : ProbsType} {T : ℚ} {y : Nat → Nat → ℚ} {n beam : Nat} {start : Nat → Nat} {b : Beam} (hn : 2 ≤ n) (hI : BeamInv m T y n beam start b (n - 1)) {k : Nat} (hk : k < beam) (hs : T < b.scores k) :
    ∃ t, getHypothesis n b k = .ok t ∧ IsTour n t ∧ t.head? = some (start 0) ∧ b.scores k = pathVal m y t := by
  have hg : Good T b k := by unfold Good; rw [if_neg (by rw [hI.lenP]; omega)]; exact hs
  obtain ⟨g1, g2, g3, g4, g5⟩ := hI.good k hk hg
  refine ⟨_, ?_, ?_, g3, g5 (by omega)⟩
  · unfold getHypothesis
    rw [if_pos (by rw [hI.lenP]; omega), walkBack_eq (by rw [← List.length_pos_iff, hI.lenP]; omega), hI.lenP]
  · refine (List.perm_of_nodup_nodup_toFinset_eq g1 List.nodup_range ?_)
    have hsub : (pathOf b.prevKs b.nextNodes (n - 1) k).toFinset ⊆ (List.range n).toFinset := by
      intro v hv
      rw [List.mem_toFinset, List.mem_range]
      exact g2 v (List.mem_toFinset.1 hv)
    refine Finset.eq_of_subset_of_card_le hsub ?_
    rw [List.toFinset_card_of_nodup g1, List.toFinset_card_of_nodup List.nodup_range, List.length_range, pathOf_length]
    omega

theorem first_score {m : ProbsType} {T : ℚ} {y : Nat → Nat → ℚ} {n beam : Nat} {start : Nat → Nat} {b : Beam} (hn : 2 ≤ n) (hI : BeamInv m T y n beam start b (n - 1)) : T < b.scores 0 := by
  have := hI.first
  unfold Good at this
  rwa [if_neg (by rw [hI.lenP]; omega)] at this

/-- **C74** (probabilities). For two or more nodes, any beam, any starting nodes, positive probabilities and any implementation of `topk`, the returned list is a tour of all the nodes that starts at the first
starting node. Every hypothesis of the beam with a positive score is such a tour too, its score is the product of the probabilities of its steps, and none is more probable than the returned one. -/
theorem C74_tour {topk : (Nat → ℚ) → Nat → Nat → List Nat} (ht : IsTopK topk) {y : Nat → Nat → ℚ} {n beam : Nat} {start : Nat → Nat} (hn : 2 ≤ n) (hb : 1 ≤ beam) (hstart : ∀ k < beam, start k < n)
    (hy : ∀ i < n, ∀ j < n, i ≠ j → 0 < y i j) (hy0 : ∀ i < n, ∀ j < n, 0 ≤ y i j) :
    ∃ t, beamTour topk .raw beam n y start = .ok t ∧ IsTour n t ∧ t.head? = some (start 0) ∧
      ∀ k < beam, 0 < (beamRun topk .raw beam n y start).scores k →
        ∃ t', getHypothesis n (beamRun topk .raw beam n y start) k = .ok t' ∧ IsTour n t' ∧ t'.head? = some (start 0) ∧ (beamRun topk .raw beam n y start).scores k = pathProb y t' ∧ pathProb y t' ≤ pathProb y t := by
  obtain ⟨hI, hS, -⟩ := raw_inv ht hb hstart hy hy0 (n - 1) (by omega)
  rw [← beamRun_eq] at hI hS
  obtain ⟨t, h1, h2, h3, h4⟩ := good_tour hn hI (by omega) (first_score hn hI)
  refine ⟨t, h1, h2, h3, ?_⟩
  intro k hk hs
  obtain ⟨t', e1, e2, e3, e4⟩ := good_tour hn hI hk hs
  refine ⟨t', e1, e2, e3, e4, ?_⟩
  have := hI.sorted (by omega) 0 k (by omega) hk
  rw [h4, e4] at this
  exact this

/-- **C74** (logarithms; partial: the logarithms lie between `-L` and `-l` with `n L` at most `10^20` and at most `10^20 l`). The returned list is a tour of all the nodes that starts at the first starting node.
Missing: logarithms closer to 0, for which it is false (`C74_fails_logits`). -/
theorem C74_logits_partial {topk : (Nat → ℚ) → Nat → Nat → List Nat} (ht : IsTopK topk) {y : Nat → Nat → ℚ} {n beam : Nat} {start : Nat → Nat} (hn : 2 ≤ n) (hb : 1 ≤ beam) (hstart : ∀ k < beam, start k < n)
    {L l : ℚ} (hl : 0 < l) (hyl : ∀ i < n, ∀ j < n, y i j ≤ -l) (hyL : ∀ i < n, ∀ j < n, i ≠ j → -L ≤ y i j) (h1 : n * L ≤ 10 ^ 20) (h2 : n * L ≤ 10 ^ 20 * l) :
    ∃ t, beamTour topk .logits beam n y start = .ok t ∧ IsTour n t ∧ t.head? = some (start 0) := by
  have hprep : ∀ i < n, ∀ j < n, prepProbs .logits y i j = y i j := by
    intro i hi j hj
    have := hyl i hi j hj
    unfold prepProbs
    exact if_neg (by intro e; rw [e] at this; linarith)
  have hL : 0 < L := by
    have a := hyl 0 (by omega) 1 (by omega)
    have b := hyL 0 (by omega) 1 (by omega) (by omega)
    linarith
  obtain ⟨hI, -, -, -⟩ := logits_inv (y := prepProbs .logits y) (B := n * L) ht hb hstart hl h1 h2 le_rfl hL (fun i hi j hj => by rw [hprep i hi j hj]; exact hyl i hi j hj)
    (fun i hi j hj hne => by rw [hprep i hi j hj]; exact hyL i hi j hj hne) (n - 1) (by omega)
  rw [← beamRun_eq] at hI
  obtain ⟨t, e1, e2, e3, -⟩ := good_tour hn hI (by omega) (first_score hn hI)
  exact ⟨t, e1, e2, e3⟩

/-- **C74** (one node). With a single node the search fails with an exception. -/
theorem C74_single (topk : (Nat → ℚ) → Nat → Nat → List Nat) (m : ProbsType) (beam : Nat) (y : Nat → Nat → ℚ) (start : Nat → Nat) : beamTour topk m beam 1 y start = .error .oob := rfl

/-- **C75** (shortest hypothesis). Under the hypotheses of C74, `beamsearch_tour_nodes_shortest` returns a tour of all the nodes which is no longer than the one of `beamsearch_tour_nodes`, and no longer than any
hypothesis of the beam that is a tour. -/
theorem C75_shortest {topk : (Nat → ℚ) → Nat → Nat → List Nat} (ht : IsTopK topk) {y : Nat → Nat → ℚ} {n beam : Nat} {start : Nat → Nat} (hn : 2 ≤ n) (hb : 1 ≤ beam) (hstart : ∀ k < beam, start k < n)
    (hy : ∀ i < n, ∀ j < n, i ≠ j → 0 < y i j) (hy0 : ∀ i < n, ∀ j < n, 0 ≤ y i j) (wv : Nat → Nat → ℚ) :
    ∃ t, beamShortest topk .raw beam n y wv start = .ok t ∧ IsTour n t ∧ (∀ t', beamTour topk .raw beam n y start = .ok t' → legCost wv t ≤ legCost wv t') ∧
      ∀ k < beam, ∀ t', getHypothesis n (beamRun topk .raw beam n y start) k = .ok t' → IsTour n t' → legCost wv t ≤ legCost wv t' := by
  obtain ⟨hI, hS, -⟩ := raw_inv ht hb hstart hy hy0 (n - 1) (by omega)
  rw [← beamRun_eq] at hI hS
  obtain ⟨t, h1, h2, h3, h4⟩ := good_tour hn hI (by omega) (first_score hn hI)
  have hlen : ∀ t', IsTour n t' → tourLen n t' wv = .ok (legCost wv t') := fun t' h' => tourLen_ok (by rw [h'.length]; exact hn) (fun i hi => h'.mem.1 hi) wv
  -- every hypothesis is a list of `n` nodes, for which the length is computed without failure
  have hnodes : ∀ s < n, ∀ i ≤ s, ∀ k < beam, (beamAfter topk .raw beam n y start s).nextNodes.getD i (fun _ => 0) k < n := by
    intro s
    induction s with
    | zero =>
      intro _ i hi k hk
      have : i = 0 := by omega
      subst this
      exact hstart k hk
    | succ s ih =>
      intro hs i hi k hk
      have hl : (beamAfter topk .raw beam n y start s).nextNodes.length = s + 1 := (raw_inv ht hb hstart hy hy0 s (by omega)).1.lenN
      have hlast := advance_last (topk := topk) (m := .raw) (beam := beam) (n := n) (by omega) (beamAfter topk .raw beam n y start s) (gatherState y (beamAfter topk .raw beam n y start s)) k
      rcases Nat.lt_or_ge i (s + 1) with hi' | hi'
      · have := ih (by omega) i (by omega) k hk
        rw [List.getD_eq_getElem?_getD] at this ⊢
        rw [beamAfter]
        unfold advance
        rw [List.getElem?_append_left (by omega)]
        exact this
      · have : i = s + 1 := by omega
        subst this
        rw [beamAfter]
        unfold advance at hlast ⊢
        rw [List.getLastD_concat] at hlast
        rw [List.getD_eq_getElem?_getD, List.getElem?_append_right (by omega), hl]
        simpa using hlast
  have hprevs : ∀ s < n, ∀ i < s, ∀ k < beam, (beamAfter topk .raw beam n y start s).prevKs.getD i (fun _ => 0) k < beam := by
    intro s
    induction s with
    | zero => intro _ i hi; omega
    | succ s ih =>
      intro hs i hi k hk
      have hl : (beamAfter topk .raw beam n y start s).prevKs.length = s := (raw_inv ht hb hstart hy hy0 s (by omega)).1.lenP
      have hle : beam ≤ beam * n := Nat.le_mul_of_pos_right _ (by omega)
      rcases Nat.lt_or_ge i s with hi' | hi'
      · have := ih (by omega) i hi' k hk
        rw [List.getD_eq_getElem?_getD] at this ⊢
        rw [beamAfter]
        unfold advance
        rw [List.getElem?_append_left (by omega)]
        exact this
      · have : i = s := by omega
        subst this
        rw [beamAfter]
        unfold advance
        rw [List.getD_eq_getElem?_getD, List.getElem?_append_right (by omega), hl]
        simp only [Nat.sub_self, List.getElem?_cons_zero, Option.getD_some]
        rw [Nat.div_lt_iff_lt_mul (by omega), head_getD _ _ (by rw [ht.length _ _ _ hle]; exact hk)]
        exact ht.lt _ _ _ hle _ (List.getElem_mem _)
  have hpath : ∀ i ≤ n - 1, ∀ k < beam, ∀ v ∈ pathOf (beamRun topk .raw beam n y start).prevKs (beamRun topk .raw beam n y start).nextNodes i k, v < n := by
    rw [beamRun_eq]
    intro i
    induction i with
    | zero =>
      intro _ k hk v hv
      rw [pathOf, List.mem_singleton] at hv
      subst hv
      exact hnodes (n - 1) (by omega) 0 (by omega) k hk
    | succ i ih =>
      intro hi k hk v hv
      rw [pathOf, List.mem_append, List.mem_singleton] at hv
      rcases hv with hv | rfl
      · exact ih (by omega) _ (hprevs (n - 1) (by omega) i (by omega) k hk) v hv
      · exact hnodes (n - 1) (by omega) (i + 1) hi k hk
  have hhyp : ∀ k < beam, ∃ t', getHypothesis n (beamRun topk .raw beam n y start) k = .ok t' ∧ ∃ x, tourLen n t' wv = .ok x ∧ (IsTour n t' → x = legCost wv t') := by
    intro k hk
    refine ⟨_, ?_, legCost wv (pathOf (beamRun topk .raw beam n y start).prevKs (beamRun topk .raw beam n y start).nextNodes (n - 1) k), ?_, fun _ => rfl⟩
    · unfold getHypothesis
      rw [if_pos (by rw [hI.lenP]; omega), walkBack_eq (by rw [← List.length_pos_iff, hI.lenP]; omega), hI.lenP]
    · exact tourLen_ok (by rw [pathOf_length]; omega) (hpath _ le_rfl k hk) wv
  -- the loop over the positions
  have hloop : ∀ (ps : List Nat) (s : List Nat × ℚ), (∀ p ∈ ps, p < beam) → IsTour n s.1 → s.2 = legCost wv s.1 →
      ∃ s', forList (shortestStep n wv (beamRun topk .raw beam n y start)) ps s = .ok s' ∧ IsTour n s'.1 ∧ legCost wv s'.1 ≤ legCost wv s.1 ∧
        ∀ p ∈ ps, ∀ t', getHypothesis n (beamRun topk .raw beam n y start) p = .ok t' → IsTour n t' → legCost wv s'.1 ≤ legCost wv t' := by
    intro ps
    induction ps with
    | nil => intro s _ hs _; exact ⟨s, rfl, hs, le_rfl, by simp⟩
    | cons p ps ih =>
      intro s hps hs hsl
      obtain ⟨t', e1, x, e2, e3⟩ := hhyp p (hps p (by simp))
      have hrest : ∀ q ∈ ps, q < beam := fun q hq => hps q (by simp [hq])
      rw [forList]
      unfold shortestStep
      rw [e1]
      simp only [ok_bind, e2]
      by_cases hc : x < s.2 ∧ isValidTour t' n = true
      · rw [if_pos hc]
        have hv := (isValidTour_iff t' n).1 hc.2
        obtain ⟨s', f1, f2, f3, f4⟩ := ih (t', x) hrest hv (e3 hv)
        simp only [pure_eq_ok, ok_bind]
        refine ⟨s', f1, f2, ?_, ?_⟩
        · have := hc.1
          rw [e3 hv, hsl] at this
          exact f3.trans this.le
        · intro q hq t'' g1 g2
          rcases List.mem_cons.1 hq with rfl | hq
          · rw [e1] at g1; cases g1; exact f3
          · exact f4 q hq t'' g1 g2
      · rw [if_neg hc]
        obtain ⟨s', f1, f2, f3, f4⟩ := ih s hrest hs hsl
        simp only [pure_eq_ok, ok_bind]
        refine ⟨s', f1, f2, f3, ?_⟩
        intro q hq t'' g1 g2
        rcases List.mem_cons.1 hq with rfl | hq
        · rw [e1] at g1; cases g1
          have hx : ¬ x < s.2 := fun hx => hc ⟨hx, (isValidTour_iff t' n).2 g2⟩
          rw [e3 g2, hsl, not_lt] at hx
          exact f3.trans hx
        · exact f4 q hq t'' g1 g2
  obtain ⟨s', f1, f2, f3, f4⟩ := hloop (List.range' 1 (beam - 1)) (t, legCost wv t) (by intro p hp; rw [List.mem_range'_1] at hp; omega) h2 rfl
  refine ⟨s'.1, ?_, f2, ?_, ?_⟩
  · unfold beamShortest
    have hp : prepProbs .raw y = y := rfl
    dsimp only
    rw [hp, h1, ok_bind, hlen t h2, ok_bind, f1]
    rfl
  · intro t' e
    have : beamTour topk .raw beam n y start = .ok t := h1
    rw [this] at e; cases e
    exact f3
  · intro k hk t' e1 e2
    rcases Nat.eq_zero_or_pos k with rfl | hk0
    · rw [h1] at e1; cases e1; exact f3
    · exact f4 k (by rw [List.mem_range'_1]; omega) t' e1 e2

/-! ### An implementation of `topk`, and what can go wrong -/

/-- sort the indices by decreasing value (the smaller index first among equal values) and take the first ones -/
def sortTopK (f : Nat → ℚ) (len k : Nat) : List Nat := ((List.range len).insertionSort fun i j => f j ≤ f i).take k

theorem sortTopK_ok : IsTopK sortTopK := by
  have hperm : ∀ (f : Nat → ℚ) len, ((List.range len).insertionSort fun i j => f j ≤ f i).Perm (List.range len) := fun f len => List.perm_insertionSort _ _
  have hsort : ∀ (f : Nat → ℚ) len, ((List.range len).insertionSort fun i j => f j ≤ f i).Pairwise fun i j => f j ≤ f i := by
    intro f len
    have : Std.Total fun i j => f j ≤ f i := ⟨fun a b => le_total _ _⟩
    have : IsTrans Nat fun i j => f j ≤ f i := ⟨fun a b c h1 h2 => h2.trans h1⟩
    exact List.pairwise_insertionSort _ _
  refine ⟨?_, ?_, ?_, ?_, ?_⟩
  · intro f len k h
    simp only [sortTopK, List.length_take, (hperm f len).length_eq, List.length_range]
    omega
  · intro f len k h
    exact ((hperm f len).nodup_iff.2 List.nodup_range).sublist (List.take_sublist _ _)
  · intro f len k h i hi
    exact List.mem_range.1 ((hperm f len).mem_iff.1 (List.mem_of_mem_take hi))
  · intro f len k h
    exact (hsort f len).sublist (List.take_sublist _ _)
  · intro f len k h i hi hni j hj
    have hmem := (hperm f len).mem_iff.2 (List.mem_range.2 hi)
    have hs := hsort f len
    rw [← List.take_append_drop k ((List.range len).insertionSort fun i j => f j ≤ f i)] at hmem hs
    rcases List.mem_append.1 hmem with hm | hm
    · exact absurd hm hni
    · exact (List.pairwise_append.1 hs).2.2 j hj i hm

/-- the logarithms of the example: the steps between the nodes 0 and 1 are certain, all the others have the logarithm -50 -/
def Ex.nearCertain (i j : Nat) : ℚ := if (i = 0 ∧ j = 1) ∨ (i = 1 ∧ j = 0) then 0 else -50

/-- **C74** fails with logarithms: three nodes, two steps with probability 1 and the others with `exp (-50)`. Node 0 is visited twice and node 2 is not visited at all, for the beams 1 and 3. -/
theorem C74_fails_logits : beamTour sortTopK .logits 1 3 Ex.nearCertain (fun _ => 0) = .ok [0, 1, 0] ∧ beamTour sortTopK .logits 3 3 Ex.nearCertain (fun _ => 0) = .ok [0, 1, 0] := by
  decide +kernel

/-- With a beam wider than the number of hypotheses, positions with the score 0 hold lists that are not tours: that is why C75 has to check them. -/
theorem C74_fails_zero_score : getHypothesis 2 (beamRun sortTopK .raw 2 2 (fun _ _ => 1 / 2) fun _ => 0) 1 = .ok [0, 0] := by decide +kernel

/-! ### The hypotheses are met -/

/-- probabilities of the example -/
def Ex.probs (i j : Nat) : ℚ := if i = j then 0 else 1 / (1 + i + 2 * j : Nat)

/-- C74, C75 with four nodes, beam 3 and different starting nodes -/
example : ∃ t, beamTour sortTopK .raw 3 4 Ex.probs (fun k => 2 - k) = .ok t ∧ IsTour 4 t ∧ t.head? = some 2 := by
  have hy0 : ∀ i < 4, ∀ j < 4, 0 ≤ Ex.probs i j := by intro i _ j _; unfold Ex.probs; split <;> positivity
  obtain ⟨t, h1, h2, h3, -⟩ := C74_tour (n := 4) (beam := 3) (start := fun k => 2 - k) sortTopK_ok (by omega) (by omega) (by intro k _; omega)
    (y := Ex.probs) (by intro i _ j _ h; unfold Ex.probs; rw [if_neg h]; positivity) hy0
  exact ⟨t, h1, h2, h3⟩

example : beamTour sortTopK .raw 3 4 Ex.probs (fun _ => 0) = .ok [0, 1, 2, 3] := by decide +kernel

example : beamShortest sortTopK .raw 3 4 Ex.probs (fun i j => if i + j = 3 then 5 else 1) (fun _ => 0) = .ok [0, 1, 3, 2] := by decide +kernel

/-- C74 with logarithms: 100 nodes and probabilities between `exp (-20)` and `exp (-1/1000)` -/
example : (100 : ℚ) * 20 ≤ 10 ^ 20 ∧ (100 : ℚ) * 20 ≤ 10 ^ 20 * (1 / 1000) := by norm_num

end Verif
