import Verif.Model.MaxK
import Verif.Proofs.Constrained

/-!
# C103: the number of neighbours that keeps all tours
-/
namespace Verif
open Verif.Spec
set_option autoImplicit false

/-- the result of `argsort`: the positions in an order in which the numbers increase; equal numbers come in any order -/
def Spec.Argsort (n : Nat) (sort : (Nat → ℚ) → List Nat) : Prop := ∀ v, (sort v).Perm (List.range n) ∧ (sort v).Pairwise fun a b => v a ≤ v b

/-- in the tours of the instances, at most `k` cities are closer to a city than its neighbours in the tour (the city itself is one of them) -/
def Spec.EnoughFor (n k : Nat) (data : List Labelled) : Prop :=
  ∀ t ∈ data, ∀ i < n, ∀ j < n, t.target i j = 1 → ((List.range n).countP fun c => decide (t.value i c < t.value i j)) ≤ k

/-- some city has a neighbour in a tour such that at least `k` other cities are as close as this neighbour -/
def Spec.Attained (n k : Nat) (data : List Labelled) : Prop :=
  ∃ t ∈ data, ∃ i < n, ∃ j < n, t.target i j = 1 ∧ k ≤ (List.range n).countP fun c => decide (c ≠ j ∧ t.value i c ≤ t.value i j)

theorem rank_bounds {n : Nat} {l : List Nat} {v : Nat → ℚ} (hp : l.Perm (List.range n)) (hs : l.Pairwise fun a b => v a ≤ v b) {c : Nat} (hc : c ∈ l) :
    ((List.range n).countP fun a => decide (v a < v c)) ≤ l.idxOf c ∧ l.idxOf c ≤ (List.range n).countP fun a => decide (a ≠ c ∧ v a ≤ v c) := by
  obtain ⟨pre, post, rfl, hn⟩ := List.eq_append_cons_of_mem hc
  have hi : (pre ++ c :: post).idxOf c = pre.length := by
    rw [List.idxOf_append, if_neg hn, List.idxOf_cons_self, Nat.zero_add]
  rw [hi, ← hp.countP_eq, ← hp.countP_eq, List.countP_append, List.countP_append, List.countP_cons, List.countP_cons]
  rw [List.pairwise_append, List.pairwise_cons] at hs
  constructor
  · have h0 : (post.countP fun a => decide (v a < v c)) = 0 := by
      rw [List.countP_eq_zero]
      intro a ha
      simpa using hs.2.1.1 a ha
    have h1 := List.countP_le_length (p := fun a => decide (v a < v c)) (l := pre)
    simp [h0]
    exact h1
  · have h1 : (pre.countP fun a => decide (a ≠ c ∧ v a ≤ v c)) = pre.length := by
      rw [List.countP_eq_length]
      intro a ha
      have : a ≠ c := fun e => hn (e ▸ ha)
      simpa [this] using hs.2.2 a ha c List.mem_cons_self
    omega

theorem forList_collect {A : Type} {f : List Nat → A → Res (List Nat)} {g : A → List Nat} (h : ∀ ks a, f ks a = .ok (ks ++ g a)) : ∀ (l : List A) (ks : List Nat), forList f l ks = .ok (ks ++ l.flatMap g) := by
  intro l
  induction l with
  | nil => intro ks; simp [forList]
  | cons a l ih => intro ks; rw [forList, h, ok_bind, ih, List.flatMap_cons, List.append_assoc]

/-- the ranks of an instance -/
def ranksOf (n : Nat) (sort : (Nat → ℚ) → List Nat) (t : Labelled) : List Nat :=
  (List.range n).flatMap fun row => (connections n t row).map fun c => (sort (t.value row)).idxOf c

theorem instanceKs_eq {n : Nat} {sort : (Nat → ℚ) → List Nat} (hs : Argsort n sort) (ks : List Nat) (t : Labelled) : instanceKs n sort ks t = .ok (ks ++ ranksOf n sort t) := by
  unfold instanceKs ranksOf
  refine forList_collect (fun ks row => ?_) _ _
  have key : ∀ (l : List Nat) (ks : List Nat), (∀ c ∈ l, c < n) → forList (fun ks c => do let k ← whereFirst (sort (t.value row)) c; pure (ks ++ [k])) l ks = .ok (ks ++ l.map fun c => (sort (t.value row)).idxOf c) := by
    intro l
    induction l with
    | nil => intro ks _; simp [forList]
    | cons c l ih =>
      intro ks h
      have hm : c ∈ sort (t.value row) := ((hs (t.value row)).1.mem_iff).2 (List.mem_range.2 (h c List.mem_cons_self))
      have e : whereFirst (sort (t.value row)) c = .ok ((sort (t.value row)).idxOf c) := if_pos hm
      rw [forList, e, ok_bind, pure_eq_ok, ok_bind, ih _ fun x hx => h x (List.mem_cons_of_mem _ hx), List.map_cons, List.append_assoc, List.singleton_append]
  exact key _ ks fun c hc => List.mem_range.1 (List.mem_filter.1 hc).1

/-- the ranks of the first mini-batch, once per round -/
theorem rounds_eq {n size maxIter : Nat} {sort : (Nat → ℚ) → List Nat} (hs : Argsort n sort) {data : List Labelled} (h0 : 0 < size) (h1 : size ≤ data.length) :
    forList (maxKRound n size sort data) (List.range maxIter) [] = .ok ((List.range maxIter).flatMap fun _ => (data.take size).flatMap (ranksOf n sort)) := by
  have hr : ∀ ks k, maxKRound n size sort data ks k = .ok (ks ++ (data.take size).flatMap (ranksOf n sort)) := by
    intro ks k
    have hq : 0 < data.length / size := Nat.div_pos h1 h0
    obtain ⟨m, hm⟩ := Nat.exists_eq_succ_of_ne_zero hq.ne'
    unfold maxKRound batches
    rw [if_neg h0.ne', hm, List.range_succ_eq_map, List.map_cons, ok_bind]
    simp only [Nat.zero_mul, List.drop_zero, Nat.zero_add, Nat.one_mul, Nat.sub_zero]
    exact forList_collect (instanceKs_eq hs) _ _
  rw [forList_collect (g := fun _ => (data.take size).flatMap (ranksOf n sort)) hr, List.nil_append]

theorem foldl_max : ∀ (l : List Nat) (k : Nat), (∀ x ∈ k :: l, x ≤ l.foldl max k) ∧ l.foldl max k ∈ k :: l := by
  intro l
  induction l with
  | nil => intro k; simp
  | cons a l ih =>
    intro k
    rw [List.foldl_cons]
    obtain ⟨h1, h2⟩ := ih (max k a)
    have hm := h1 (max k a) List.mem_cons_self
    refine ⟨?_, ?_⟩
    · intro x hx
      rw [List.mem_cons, List.mem_cons] at hx
      rcases hx with rfl | rfl | hx
      · exact (le_max_left _ _).trans hm
      · exact (le_max_right _ _).trans hm
      · exact h1 x (List.mem_cons_of_mem _ hx)
    · rw [List.mem_cons] at h2
      rcases h2 with h2 | h2
      · rw [h2]
        rcases max_choice k a with e | e <;> rw [e] <;> simp
      · exact List.mem_cons_of_mem _ (List.mem_cons_of_mem _ h2)

theorem mem_ranks {n : Nat} {sort : (Nat → ℚ) → List Nat} {data : List Labelled} {k : Nat} :
    k ∈ data.flatMap (ranksOf n sort) ↔ ∃ t ∈ data, ∃ i < n, ∃ j < n, t.target i j = 1 ∧ (sort (t.value i)).idxOf j = k := by
  simp only [ranksOf, connections, List.mem_flatMap, List.mem_map, List.mem_filter, List.mem_range, decide_eq_true_eq]
  constructor
  · rintro ⟨t, ht, i, hi, j, ⟨hj, h⟩, e⟩; exact ⟨t, ht, i, hi, j, hj, h, e⟩
  · rintro ⟨t, ht, i, hi, j, hj, h, e⟩; exact ⟨t, ht, i, hi, j, ⟨hj, h⟩, e⟩

/-- the result is the largest rank in the first mini-batch -/
theorem maxK_iff {n size maxIter : Nat} {sort : (Nat → ℚ) → List Nat} (hs : Argsort n sort) {data : List Labelled} (h0 : 0 < size) (h1 : size ≤ data.length) {k : Nat} :
    getMaxK n size maxIter sort data = .ok k ↔ 0 < maxIter ∧ k ∈ (data.take size).flatMap (ranksOf n sort) ∧ ∀ x ∈ (data.take size).flatMap (ranksOf n sort), x ≤ k := by
  unfold getMaxK
  rw [rounds_eq hs h0 h1, ok_bind]
  have hmem : ∀ x, x ∈ ((List.range maxIter).flatMap fun _ => (data.take size).flatMap (ranksOf n sort)) ↔ 0 < maxIter ∧ x ∈ (data.take size).flatMap (ranksOf n sort) := by
    intro x
    rw [List.mem_flatMap]
    constructor
    · rintro ⟨a, ha, hx⟩; exact ⟨Nat.pos_of_ne_zero (by rintro rfl; simp at ha), hx⟩
    · rintro ⟨hp, hx⟩; exact ⟨0, List.mem_range.2 hp, hx⟩
  split
  · next hr =>
    rw [hr] at hmem
    constructor
    · intro h; cases h
    · rintro ⟨hp, hk, -⟩; have := (hmem k).2 ⟨hp, hk⟩; cases this
  · next k0 r hr =>
    rw [hr] at hmem
    obtain ⟨m1, m2⟩ := foldl_max r k0
    constructor
    · intro h
      cases h
      obtain ⟨hp, hm⟩ := (hmem _).1 m2
      exact ⟨hp, hm, fun x hx => m1 x ((hmem x).2 ⟨hp, hx⟩)⟩
    · rintro ⟨hp, hk, hx⟩
      exact congrArg _ (le_antisymm (hx _ ((hmem _).1 m2).2) (m1 _ ((hmem _).2 ⟨hp, hk⟩)))

/-- **C103** (partial). The number that `get_max_k` returns is enough for the tours of the first mini-batch, and (up to cities at the same distance) no smaller number is. Missing: the other mini-batches, see `C103_fails`. -/
theorem C103_batch_partial {n size maxIter : Nat} {sort : (Nat → ℚ) → List Nat} (hs : Argsort n sort) {data : List Labelled} (h0 : 0 < size) (h1 : size ≤ data.length) {k : Nat}
    (e : getMaxK n size maxIter sort data = .ok k) : EnoughFor n k (data.take size) ∧ Attained n k (data.take size) := by
  obtain ⟨-, hk, hx⟩ := (maxK_iff hs h0 h1).1 e
  have hin : ∀ (t : Labelled) (i j : Nat), j < n → j ∈ sort (t.value i) := fun t i j hj => ((hs _).1.mem_iff).2 (List.mem_range.2 hj)
  refine ⟨?_, ?_⟩
  · intro t ht i hi j hj h
    exact (rank_bounds (hs _).1 (hs _).2 (hin t i j hj)).1.trans (hx _ (mem_ranks.2 ⟨t, ht, i, hi, j, hj, h, rfl⟩))
  · obtain ⟨t, ht, i, hi, j, hj, h, rfl⟩ := mem_ranks.1 hk
    exact ⟨t, ht, i, hi, j, hj, h, (rank_bounds (hs _).1 (hs _).2 (hin t i j hj)).2⟩

/-- C103: more rounds change nothing -/
theorem C103_rounds {n size m m' : Nat} {sort : (Nat → ℚ) → List Nat} (hs : Argsort n sort) {data : List Labelled} (h0 : 0 < size) (h1 : size ≤ data.length) (hm : 0 < m) (hm' : 0 < m') {k : Nat} :
    getMaxK n size m sort data = .ok k ↔ getMaxK n size m' sort data = .ok k := by
  rw [maxK_iff hs h0 h1, maxK_iff hs h0 h1]
  simp only [hm, hm']

/-- C103: it returns a number if it makes a round, the first mini-batch is complete and a city of it has a neighbour -/
theorem C103_returns {n size maxIter : Nat} {sort : (Nat → ℚ) → List Nat} (hs : Argsort n sort) {data : List Labelled} (h0 : 0 < size) (h1 : size ≤ data.length) (hm : 0 < maxIter)
    (h : ∃ t ∈ data.take size, ∃ i < n, ∃ j < n, t.target i j = 1) : ∃ k, getMaxK n size maxIter sort data = .ok k := by
  obtain ⟨t, ht, i, hi, j, hj, h⟩ := h
  unfold getMaxK
  rw [rounds_eq hs h0 h1, ok_bind]
  split
  · next hr =>
    have : (sort (t.value i)).idxOf j ∈ (List.range maxIter).flatMap fun _ => (data.take size).flatMap (ranksOf n sort) :=
      List.mem_flatMap.2 ⟨0, List.mem_range.2 hm, mem_ranks.2 ⟨t, ht, i, hi, j, hj, h, rfl⟩⟩
    rw [hr] at this
    cases this
  · exact ⟨_, rfl⟩

/-- C103: what it is for. If no two cities are at the same distance from a third, the graph of the `k + 1` nearest cities of each city (which the reader builds for `num_neighbors = k`, and to which the city itself
belongs) contains the tours. -/
theorem C103_graph {n k : Nat} {data : List Labelled} (h : EnoughFor n k data) {t : Labelled} (ht : t ∈ data) {i : Nat} (hi : i < n) (hd : ∀ a < n, ∀ b < n, t.value i a = t.value i b → a = b)
    {near : List Nat} (hn : near.Nodup) (hl : near.length = k + 1) (hlt : ∀ a ∈ near, a < n) (hnear : ∀ a ∈ near, ∀ b < n, b ∉ near → t.value i a ≤ t.value i b) {j : Nat} (hj : j < n) (hij : t.target i j = 1) :
    j ∈ near := by
  by_contra hnot
  have hc := h t ht i hi j hj hij
  have hsub : near.Subperm ((List.range n).filter fun c => decide (t.value i c < t.value i j)) := by
    refine hn.subperm fun a ha => ?_
    rw [List.mem_filter, List.mem_range]
    have hle := hnear a ha j hj hnot
    have hne : t.value i a ≠ t.value i j := fun e => hnot (hd a (hlt a ha) j hj e ▸ ha)
    exact ⟨hlt a ha, by simpa using lt_of_le_of_ne hle hne⟩
  have := hsub.length_le
  rw [← List.countP_eq_length_filter] at this
  omega

namespace Ex

/-- a rectangle, with its sides and diagonals, and the tour along the sides -/
def rectangle : Labelled where
  target i j := if (i + 1) % 4 = j ∨ (j + 1) % 4 = i then 1 else 0
  value i j := if i = j then 0 else if i + j = 3 then 4 else if (i + 2) % 4 = j then 5 else 3

/-- four cities on a line and the tour there and back -/
def lineOfFour : Labelled where
  target i j := if (i + 1) % 4 = j ∨ (j + 1) % 4 = i then 1 else 0
  value i j := |(i : ℚ) - j|

/-- `argsort` -/
def argsort (n : Nat) (v : Nat → ℚ) : List Nat := (List.range n).insertionSort fun a b => v a ≤ v b

theorem argsort_ok (n : Nat) : Argsort n (argsort n) := by
  intro v
  have : Std.Total fun a b : Nat => v a ≤ v b := ⟨fun a b => le_total _ _⟩
  have : IsTrans Nat fun a b => v a ≤ v b := ⟨fun a b c => le_trans⟩
  exact ⟨List.perm_insertionSort _ _, List.pairwise_insertionSort _ _⟩

end Ex

/-- C103 is false of the code: every round looks at the same mini-batch, so the tours of all others are ignored. Here the two instances have shortest tours; after 1000 rounds the result is 2, the second tour needs 3. -/
theorem C103_fails : getMaxK 4 1 1000 (Ex.argsort 4) [Ex.rectangle, Ex.lineOfFour] = .ok 2 ∧ ¬ EnoughFor 4 2 [Ex.rectangle, Ex.lineOfFour] ∧
    getMaxK 4 2 1000 (Ex.argsort 4) [Ex.rectangle, Ex.lineOfFour] = .ok 3 ∧ EnoughFor 4 3 [Ex.rectangle, Ex.lineOfFour] := by
  have h : ∀ (size k : Nat), 0 < size → size ≤ 2 → (k ∈ ([Ex.rectangle, Ex.lineOfFour].take size).flatMap (ranksOf 4 (Ex.argsort 4)) ∧
      ∀ x ∈ ([Ex.rectangle, Ex.lineOfFour].take size).flatMap (ranksOf 4 (Ex.argsort 4)), x ≤ k) → getMaxK 4 size 1000 (Ex.argsort 4) [Ex.rectangle, Ex.lineOfFour] = .ok k :=
    fun size k h0 h1 h => (maxK_iff (data := [Ex.rectangle, Ex.lineOfFour]) (Ex.argsort_ok 4) h0 (by simpa using h1)).2 ⟨by norm_num, h⟩
  have h2 := h 2 3 (by norm_num) le_rfl (by decide +kernel)
  refine ⟨h 1 2 (by norm_num) (by norm_num) (by decide +kernel), ?_, h2, ?_⟩
  swap
  · exact (C103_batch_partial (Ex.argsort_ok 4) (data := [Ex.rectangle, Ex.lineOfFour]) (by norm_num) (by simp) h2).1
  intro hw
  have := hw Ex.lineOfFour (by simp) 0 (by norm_num) 3 (by norm_num) (by decide +kernel)
  revert this
  decide +kernel

/-- C103_graph on the rectangle: the three nearest cities of the first one are itself and its neighbours in the tour -/
example : 3 ∈ [0, 1, 3] := by
  have h2 : EnoughFor 4 2 [Ex.rectangle] := (C103_batch_partial (Ex.argsort_ok 4) (data := [Ex.rectangle, Ex.lineOfFour]) (by norm_num) (by simp) C103_fails.1).1
  exact C103_graph (i := 0) h2 (List.mem_singleton.2 rfl) (by norm_num) (by decide +kernel) (near := [0, 1, 3]) (by decide) rfl (by decide) (by decide +kernel) (by norm_num) (by decide +kernel)

end Verif
