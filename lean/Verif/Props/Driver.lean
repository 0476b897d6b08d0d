import Verif.Model.Driver
import Verif.Proofs.Branch
import Mathlib.Data.String.Basic

/-!
# C54, C55: the Python driver
-/
namespace Verif
open Verif.Spec
set_option autoImplicit false

/-! ### C55 -/

theorem pyIndex_nonneg {α : Type} {l : List α} {k : Nat} : pyIndex l (k : Int) = (match l[k]? with | some a => .ok a | none => .error .oob) := by
  unfold pyIndex
  rw [if_pos (by omega), Int.toNat_natCast]
  cases l[k]? <;> rfl

/-- C55 (partial). For instance numbers from 1 on, `get_instance` takes the line with that number, and fails when there is none. Missing: for the number after the last it fails with an
`IndexError` instead of its message (`C55_fails`). -/
theorem C55_get_instance_partial (lines : List (List Char)) (k : Nat) (hk : 1 ≤ k) :
    (∀ h : k ≤ lines.length, instanceLine lines k = .ok (lines[k - 1]'(by omega))) ∧
    (k = lines.length + 1 → instanceLine lines k = .error .oob) ∧ (lines.length + 2 ≤ k → instanceLine lines k = .error .exit) := by
  have e : ((k : Int) - 1) = ((k - 1 : Nat) : Int) := by omega
  refine ⟨?_, ?_, ?_⟩
  · intro h
    unfold instanceLine
    rw [if_neg (by omega), e, pyIndex_nonneg, List.getElem?_eq_getElem (by omega)]
  · intro h
    unfold instanceLine
    rw [if_neg (by omega), e, pyIndex_nonneg, List.getElem?_eq_none (by omega)]
  · intro h
    unfold instanceLine
    rw [if_pos (by omega)]

/-- The property C55 fails for every file: the number after the last one is not rejected with the message, but fails with an `IndexError`; and the number 0 is not rejected, but gives the last line. -/
theorem C55_fails (lines : List (List Char)) : instanceLine lines (lines.length + 1) = .error .oob ∧ ∀ h : lines ≠ [], instanceLine lines 0 = .ok (lines.getLast h) := by
  refine ⟨?_, ?_⟩
  · have := (C55_get_instance_partial lines (lines.length + 1) (by omega)).2.1 rfl
    rw [← this]; congr 1
  · intro h
    have hl : 0 < lines.length := List.length_pos_iff.2 h
    unfold instanceLine
    rw [if_neg (by omega)]
    unfold pyIndex
    rw [if_neg (by omega), if_pos (by omega)]
    have : ((0 : Int) - 1 + lines.length).toNat = lines.length - 1 := by omega
    rw [this, List.getElem?_eq_getElem (by omega), List.getLast_eq_getElem]

theorem mem_pyRange {a b k : Int} : k ∈ pyRange a b ↔ a ≤ k ∧ k < b := by
  unfold pyRange
  rw [List.mem_map]
  constructor
  · rintro ⟨n, hn, rfl⟩
    rw [List.mem_range] at hn
    omega
  · rintro ⟨h1, h2⟩
    exact ⟨(k - a).toNat, List.mem_range.2 (by omega), by omega⟩

theorem pyRange_sorted (a b : Int) : (pyRange a b).Pairwise (· < ·) := by
  unfold pyRange
  rw [List.pairwise_map]
  exact List.pairwise_lt_range.imp (by intro x y h; omega)

/-- C55: the range `a-b` (two texts of natural numbers around a hyphen) makes the driver handle the instances from `a` (from 1 if `a` is 0) to `b`, each once, in increasing order. -/
theorem C55_range {int : List Char → Option Int} {s t : List Char} {a b : Nat} (hs : '-' ∉ s) (ht : '-' ∉ t) (ha : int s = some (a : Int)) (hb : int t = some (b : Int)) :
    ∃ l, instanceRange int (s ++ '-' :: t) = .ok l ∧ l.Pairwise (· < ·) ∧ ∀ k : Int, k ∈ l ↔ 1 ≤ k ∧ a ≤ k ∧ k ≤ b := by
  have hsp : (s ++ '-' :: t).splitOn '-' = [s, t] := by
    have h := List.splitOn_intercalate '-' (ls := [s, t]) (by intro l hl; simp only [List.mem_cons, List.not_mem_nil, or_false] at hl; rcases hl with rfl | rfl <;> assumption) (by simp)
    rw [← h]
    simp [List.intercalate]
  refine ⟨pyRange (if (a : Int) = 0 then 1 else a) (b + 1), ?_, pyRange_sorted _ _, ?_⟩
  · unfold instanceRange
    rw [if_pos (by simp), hsp]
    simp only [List.map_cons, List.map_nil, ha, hb]
  · intro k
    rw [mem_pyRange]
    split <;> omega

/-- C55: a single number `b` stands for the instances from 1 to `b`. -/
theorem C55_single {int : List Char → Option Int} {s : List Char} {b : Nat} (hs : '-' ∉ s) (hb : int s = some (b : Int)) :
    ∃ l, instanceRange int s = .ok l ∧ l.Pairwise (· < ·) ∧ ∀ k : Int, k ∈ l ↔ 1 ≤ k ∧ k ≤ b := by
  refine ⟨pyRange 1 (b + 1), ?_, pyRange_sorted _ _, ?_⟩
  · unfold instanceRange
    rw [if_neg hs, hb]
  · intro k; rw [mem_pyRange]; omega

/-! ### C54 -/

/-- the text of the probability of the pair `(i, j)` after folding: the larger one (for `gt`) of its own and of that of the dummy copy of `j`, if there is one -/
def Spec.foldedProb {T : Type} (gt : T → T → Bool) (n ms : Nat) (a : Nat → Nat → T × T) (i j : Nat) : T :=
  if j ≠ i ∧ n + j < ms ∧ gt (a i (n + j)).2 (a i j).2 = true then (a i (n + j)).2 else (a i j).2

section fold
variable {T : Type} {gt : T → T → Bool} {n ms : Nat} {a : Nat → Nat → T × T}

/-- the array in the middle of row `i`, with `q` dummy columns done -/
def foldMid (gt : T → T → Bool) (n ms : Nat) (a : Nat → Nat → T × T) (i q k : Nat) : T × T :=
  if (k / ms < i ∧ k % ms < n) ∨ (k / ms = i ∧ k % ms < q ∧ k % ms < n) then ((a (k / ms) (k % ms)).1, foldedProb gt n ms a (k / ms) (k % ms)) else a (k / ms) (k % ms)

theorem divmod {i j : Nat} (hj : j < ms) : (i * ms + j) / ms = i ∧ (i * ms + j) % ms = j := by
  constructor
  · rw [Nat.mul_comm, Nat.mul_add_div (by omega), Nat.div_eq_of_lt hj, Nat.add_zero]
  · rw [Nat.mul_comm, Nat.mul_add_mod, Nat.mod_eq_of_lt hj]

def viewsTo (n ms i : Nat) : List Nat := (List.range (i * n)).map fun t => t / n * ms + t % n

theorem viewsTo_succ (hn : 0 < n) (i : Nat) : viewsTo n ms i ++ (List.range n).map (fun j => i * ms + j) = viewsTo n ms (i + 1) := by
  unfold viewsTo
  rw [Nat.succ_mul, List.range_add, List.map_append, List.map_map]
  congr 1
  apply List.map_congr_left
  intro j hj
  have := divmod (i := i) (ms := n) (List.mem_range.1 hj)
  simp only [Function.comp, this.1, this.2]

theorem foldCell_ok (hle : n ≤ ms) (h2 : ms ≤ 2 * n) {i : Nat} : ∀ q, q ≤ ms - n →
    forList (foldCell gt n ms i) (List.range' n q) (foldMid gt n ms a i 0, viewsTo n ms (i + 1)) = .ok (foldMid gt n ms a i q, viewsTo n ms (i + 1)) := by
  intro q
  induction q with
  | zero => intro _; rfl
  | succ q ih =>
    intro hq
    have hn : 0 < n := by omega
    rw [List.range'_concat, forList_snoc, ih (by omega), ok_bind]
    have hj : n + 1 * q - n = q := by omega
    unfold foldCell
    rw [hj]
    have hstep : ∀ k, foldMid gt n ms a i (q + 1) k = if k = i * ms + q then ((a i q).1, foldedProb gt n ms a i q) else foldMid gt n ms a i q k := by
      intro k
      have hd := divmod (i := i) (j := q) (ms := ms) (by omega)
      by_cases hk : k = i * ms + q
      · rw [if_pos hk, hk]
        unfold foldMid
        rw [hd.1, hd.2, if_pos (Or.inr ⟨rfl, by omega, by omega⟩)]
      · rw [if_neg hk]
        have : ¬ (k / ms = i ∧ k % ms = q) := by
          rintro ⟨h1, h2⟩
          apply hk
          rw [← h1, ← h2, Nat.mul_comm]; exact (Nat.div_add_mod k ms).symm
        unfold foldMid
        by_cases hc : k / ms < i ∧ k % ms < n ∨ k / ms = i ∧ k % ms < q ∧ k % ms < n
        · rw [if_pos hc, if_pos]
          rcases hc with hc | hc
          · exact Or.inl hc
          · exact Or.inr ⟨hc.1, by omega, hc.2.2⟩
        · rw [if_neg hc, if_neg]
          rintro (h | ⟨h1, h2, h3⟩)
          · exact hc (Or.inl h)
          · rcases Nat.lt_succ_iff_lt_or_eq.1 h2 with h' | h'
            · exact hc (Or.inr ⟨h1, h', h3⟩)
            · exact this ⟨h1, h'⟩
    have hcur : foldMid gt n ms a i q (i * ms + q) = a i q := by
      have hd := divmod (i := i) (j := q) (ms := ms) (by omega)
      unfold foldMid
      rw [hd.1, hd.2, if_neg]
      rintro (h | h) <;> omega
    have hdum : foldMid gt n ms a i q (i * ms + (n + 1 * q)) = a i (n + q) := by
      have hd := divmod (i := i) (j := n + 1 * q) (ms := ms) (by omega)
      unfold foldMid
      rw [hd.1, hd.2, if_neg]
      · rw [Nat.one_mul]
      · rintro (h | h) <;> omega
    by_cases hiq : i = q
    · rw [if_neg (by omega)]
      congr 2
      funext k
      rw [hstep k]
      split
      · next hk =>
        rw [hk, hcur]
        have : foldedProb gt n ms a i q = (a i q).2 := by unfold foldedProb; rw [if_neg]; rintro ⟨h, -⟩; exact h hiq.symm
        rw [this]
      · rfl
    · rw [if_pos hiq]
      have hget : (viewsTo n ms (i + 1))[i * n + (n + 1 * q) - n]? = some (i * ms + q) := by
        have he : i * n + (n + 1 * q) - n = i * n + q := by omega
        rw [he]
        unfold viewsTo
        rw [List.getElem?_map, List.getElem?_range (by rw [Nat.succ_mul]; omega)]
        have := divmod (i := i) (j := q) (ms := n) (by omega)
        simp only [Option.map_some, this.1, this.2]
      simp only [hget, hcur, hdum]
      split
      · next hg =>
        congr 2
        funext k
        rw [hstep k, upd_apply]
        split
        · have : foldedProb gt n ms a i q = (a i (n + q)).2 := by unfold foldedProb; rw [if_pos ⟨Ne.symm hiq, by omega, hg⟩]
          rw [this]
        · rfl
      · next hg =>
        congr 2
        funext k
        rw [hstep k]
        split
        · next hk =>
          have : foldedProb gt n ms a i q = (a i q).2 := by unfold foldedProb; rw [if_neg]; rintro ⟨-, -, h⟩; exact hg h
          rw [this, hk, hcur]
        · rfl

theorem foldRows_ok (hn : 0 < n) (hle : n ≤ ms) (h2 : ms ≤ 2 * n) : ∀ i, forList (foldRow gt n ms) (List.range i) (fun k => a (k / ms) (k % ms), []) =
    .ok (foldMid gt n ms a i 0, viewsTo n ms i) := by
  intro i
  induction i with
  | zero =>
    show Except.ok _ = _
    congr 2
    · funext k; unfold foldMid; rw [if_neg]; rintro (⟨h, -⟩ | ⟨-, h, -⟩) <;> exact absurd h (Nat.not_lt_zero _)
    · simp [viewsTo]
  | succ i ih =>
    rw [List.range_succ, forList_snoc, ih, ok_bind]
    unfold foldRow
    rw [viewsTo_succ hn, foldCell_ok hle h2 (ms - n) (le_refl _)]
    congr 2
    funext k
    unfold foldMid
    have hp : foldedProb gt n ms a i (k % ms) = (a i (k % ms)).2 ∨ k % ms < ms - n := by
      by_cases h : k % ms < ms - n
      · exact Or.inr h
      · left; unfold foldedProb; rw [if_neg]; rintro ⟨-, h', -⟩; omega
    by_cases h1 : k / ms < i ∧ k % ms < n
    · rw [if_pos (Or.inl h1), if_pos (Or.inl ⟨by omega, h1.2⟩)]
    · by_cases h3 : k / ms = i ∧ k % ms < n
      · rcases hp with hp | hp
        · by_cases hq : k % ms < ms - n
          · rw [if_pos (Or.inr ⟨h3.1, hq, h3.2⟩), if_pos (Or.inl ⟨by omega, h3.2⟩)]
          · rw [if_neg (by omega), if_pos (Or.inl ⟨by omega, h3.2⟩), h3.1, hp]
        · rw [if_pos (Or.inr ⟨h3.1, hp, h3.2⟩), if_pos (Or.inl ⟨by omega, h3.2⟩)]
      · rw [if_neg (by omega), if_neg (by omega)]

end fold

/-- C54 (partial). When the padded instance has at most twice the cities of the instance, the entries written are those of the real pairs, row by row; the probability of a pair `(i, j)` is the larger one, for the
comparison of texts, of its own and of that of the dummy copy of `j` (on the diagonal, its own). `a i j` is the pair of texts that the network gave for the cities `i`, `j` of the padded instance.
Missing: for more dummies there is an `IndexError` (`C54_fails_index`), and the order of the texts is not that of the numbers (`C54_fails_order`). -/
theorem C54_fold_partial {T : Type} {gt : T → T → Bool} {n ms : Nat} {a : Nat → Nat → T × T} (hn : 0 < n) (hle : n ≤ ms) (h2 : ms ≤ 2 * n) :
    foldDummies gt n ms (fun k => a (k / ms) (k % ms)) = .ok ((List.range n).flatMap fun i => (List.range n).map fun j => ((a i j).1, foldedProb gt n ms a i j)) := by
  unfold foldDummies
  rw [foldRows_ok hn hle h2, ok_bind]
  show Except.ok _ = _
  congr 1
  have key : ∀ i, i ≤ n → (viewsTo n ms i).map (foldMid gt n ms a n 0) = (List.range i).flatMap fun i => (List.range n).map fun j => ((a i j).1, foldedProb gt n ms a i j) := by
    intro i
    induction i with
    | zero => intro _; simp [viewsTo]
    | succ i ih =>
      intro hi
      rw [← viewsTo_succ hn, List.map_append, ih (by omega), List.range_succ, List.flatMap_append, List.flatMap_singleton, List.map_map]
      congr 1
      apply List.map_congr_left
      intro j hj
      rw [List.mem_range] at hj
      have hd := divmod (i := i) (j := j) (ms := ms) (by omega)
      simp only [Function.comp]
      unfold foldMid
      rw [hd.1, hd.2, if_pos (Or.inl ⟨by omega, hj⟩)]
  exact key n (le_refl _)

/-- C54, with numbers: if the order of the texts agrees with that of the numbers they stand for, then the probability of a pair `(i, j)`, `i ≠ j`, is the maximum over the real city `j` and its dummies,
as seen from `i`. (In `[n, 2n)` the only dummy copy of `j` is `n + j`: `C54_dummies`.) -/
theorem C54_max_partial {T : Type} {gt : T → T → Bool} {n ms : Nat} {a : Nat → Nat → T × T} {val : T → ℚ} (hn : 0 < n) (hle : n ≤ ms) (h2 : ms ≤ 2 * n)
    (hgt : ∀ i < n, ∀ j < n, n + j < ms → (gt (a i (n + j)).2 (a i j).2 = true ↔ val (a i (n + j)).2 > val (a i j).2)) :
    ∃ l, foldDummies gt n ms (fun k => a (k / ms) (k % ms)) = .ok l ∧ l.length = n * n ∧ ∀ i < n, ∀ j < n, ∃ x, l[i * n + j]? = some x ∧ x.1 = (a i j).1 ∧
      (i ≠ j → val (a i j).2 ≤ val x.2 ∧ (∀ d, n ≤ d → d < ms → d % n = j → val (a i d).2 ≤ val x.2) ∧ (x.2 = (a i j).2 ∨ ∃ d, n ≤ d ∧ d < ms ∧ d % n = j ∧ x.2 = (a i d).2)) := by
  refine ⟨_, C54_fold_partial hn hle h2, ?_, ?_⟩
  · rw [List.length_flatMap]
    simp
  · intro i hi j hj
    have hget : ∀ (f : Nat → Nat → T × T) m, i < m → ((List.range m).flatMap fun i => (List.range n).map fun j => f i j)[i * n + j]? = some (f i j) := by
      intro f m
      induction m with
      | zero => intro h; omega
      | succ m ih =>
        intro him
        have hlen : ((List.range m).flatMap fun i => (List.range n).map fun j => f i j).length = m * n := by
          rw [List.length_flatMap]; simp
        rw [List.range_succ, List.flatMap_append, List.flatMap_singleton]
        rcases Nat.lt_succ_iff_lt_or_eq.1 him with h | rfl
        · have : i * n + j < m * n := by
            have : (i + 1) * n ≤ m * n := Nat.mul_le_mul_right n h
            rw [Nat.succ_mul] at this; omega
          rw [List.getElem?_append_left (by omega)]
          exact ih h
        · rw [List.getElem?_append_right (by omega), hlen, Nat.add_sub_cancel_left, List.getElem?_map, List.getElem?_range hj]
          rfl
    refine ⟨_, hget _ n hi, rfl, ?_⟩
    intro hij
    have hd : ∀ d, n ≤ d → d < ms → d % n = j → d = n + j := by
      intro d h1 h3 h4
      have : d % n = d - n := by rw [Nat.mod_eq_sub_mod h1, Nat.mod_eq_of_lt (by omega)]
      omega
    simp only
    unfold foldedProb
    by_cases hc : j ≠ i ∧ n + j < ms ∧ gt (a i (n + j)).2 (a i j).2 = true
    · rw [if_pos hc]
      have := (hgt i hi j hj hc.2.1).1 hc.2.2
      refine ⟨this.le, ?_, Or.inr ⟨n + j, by omega, hc.2.1, by rw [Nat.add_mod_left, Nat.mod_eq_of_lt hj], rfl⟩⟩
      intro d h1 h3 h4
      rw [hd d h1 h3 h4]
    · rw [if_neg hc]
      refine ⟨le_refl _, ?_, Or.inl rfl⟩
      intro d h1 h3 h4
      have := hd d h1 h3 h4
      subst this
      have : ¬ gt (a i (n + j)).2 (a i j).2 = true := fun h => hc ⟨Ne.symm hij, h3, h⟩
      rw [hgt i hi j hj h3] at this
      exact not_lt.1 this

/-- C54: the dummies are copied from the cities in turn: the dummy number `k` (the city `n + k` of the padded instance) from the city `k mod n`. -/
theorem C54_dummies {n : Nat} (hn : 0 < n) (m : Nat) : dummySources n m 0 = (List.range m).map (· % n) := by
  have h : ∀ m rr, rr < n → dummySources n m rr = (List.range m).map fun k => (rr + k) % n := by
    intro m
    induction m with
    | zero => intro rr _; rfl
    | succ m ih =>
      intro rr hr
      rw [dummySources, ih _ (Nat.mod_lt _ hn), List.range_succ_eq_map, List.map_cons, List.map_map]
      have h0 : (rr + 0) % n = rr := Nat.mod_eq_of_lt hr
      rw [h0]
      congr 1
      apply List.map_congr_left
      intro k _
      simp only [Function.comp, Nat.succ_eq_add_one]
      rw [Nat.add_mod ((rr + 1) % n), Nat.mod_mod, ← Nat.add_mod]
      congr 1
      omega
  rw [h m 0 hn]
  simp

/-- The property C54 fails when there are more dummies than cities: whatever the network says, there is an `IndexError`. -/
theorem C54_fails_index {T : Type} (gt : T → T → Bool) {n ms : Nat} (a : Nat → T × T) (hn : 0 < n) (h : 2 * n < ms) : foldDummies gt n ms a = .error .oob := by
  have hcells : ∀ q, q ≤ n → ∀ s : (Nat → T × T) × List Nat, s.2.length = n → ∃ s', forList (foldCell gt n ms 0) (List.range' n q) s = .ok s' ∧ s'.2 = s.2 := by
    intro q
    induction q with
    | zero => intro _ s _; exact ⟨s, rfl, rfl⟩
    | succ q ih =>
      intro hq s hs
      obtain ⟨s', e, hs'⟩ := ih (by omega) s hs
      rw [List.range'_concat, forList_snoc, e, ok_bind]
      unfold foldCell
      split
      · rw [hs']
        rw [List.getElem?_eq_getElem (by omega)]
        simp only
        split
        · exact ⟨_, rfl, rfl⟩
        · exact ⟨_, rfl, hs'⟩
      · exact ⟨_, rfl, hs'⟩
  obtain ⟨s', e, hs'⟩ := hcells n (le_refl _) (a, [] ++ (List.range n).map fun j => 0 * ms + j) (by simp)
  have hrow : foldRow gt n ms (a, []) 0 = .error .oob := by
    unfold foldRow
    have hr : List.range' n (ms - n) = List.range' n n ++ (2 * n :: List.range' (2 * n + 1) (ms - 2 * n - 1)) := by
      rw [show ms - n = n + (1 + (ms - 2 * n - 1)) by omega, ← List.range'_append_1, ← List.range'_append_1, show n + n = 2 * n by omega]
      rfl
    rw [hr, forList_append, e, ok_bind]
    show (foldCell gt n ms 0 s' (2 * n) >>= _) = _
    have : foldCell gt n ms 0 s' (2 * n) = .error .oob := by
      unfold foldCell
      rw [if_pos (by omega), hs', List.getElem?_eq_none (by simp; omega)]
    rw [this]; rfl
  unfold foldDummies
  rw [show n = (n - 1) + 1 by omega, List.range_succ_eq_map]
  rw [show n - 1 + 1 = n by omega]
  show (foldRow gt n ms (a, []) 0 >>= _) >>= _ = _
  rw [hrow]; rfl

/-- C54, the size of the network: the smallest of the three sizes 20, 50, 100 that has room for the cities, and 100 for more than 100 cities; one city or none is refused. -/
theorem C54_model_size (n : Nat) : (n ≤ 1 → modelSize n = .error .exit) ∧
    (1 < n → ∃ ms, modelSize n = .ok ms ∧ ms ∈ [20, 50, 100] ∧ (n ≤ 100 → n ≤ ms ∧ ∀ m ∈ [20, 50, 100], n ≤ m → ms ≤ m) ∧ (100 < n → ms = 100)) := by
  unfold modelSize
  refine ⟨fun h => if_pos h, fun h => ?_⟩
  rw [if_neg (by omega)]
  simp only [List.mem_cons, List.not_mem_nil, or_false]
  by_cases h1 : n ≤ 20
  · rw [if_pos h1]
    exact ⟨20, rfl, by omega, fun _ => ⟨by omega, fun m hm _ => by omega⟩, by omega⟩
  rw [if_neg h1]
  by_cases h2 : n ≤ 50
  · rw [if_pos h2]
    exact ⟨50, rfl, by omega, fun _ => ⟨by omega, fun m hm _ => by omega⟩, by omega⟩
  rw [if_neg h2]
  exact ⟨100, rfl, by omega, fun _ => ⟨by omega, fun m hm _ => by omega⟩, fun _ => rfl⟩

/-- C54 fails for exactly these sizes of the driver: 2 to 9 and 21 to 24 cities. -/
theorem C54_failing_sizes (n ms : Nat) (h : modelSize n = .ok ms) (hlt : n < ms) : 2 * n < ms ↔ (2 ≤ n ∧ n ≤ 9) ∨ (21 ≤ n ∧ n ≤ 24) := by
  unfold modelSize at h
  split at h
  · cases h
  · split at h
    · cases h; omega
    · split at h
      · cases h; omega
      · cases h; omega

/-- the order of Python strings: lexicographic by code points -/
def Spec.textGt : List Char → List Char → Bool
  | [], _ => false
  | _ :: _, [] => true
  | a :: s, b :: t => if a = b then textGt s t else decide (a.toNat > b.toNat)

/-- The property C54 also fails because the probabilities are compared as texts: for every size that the driver pads, if the network gives a pair the probability 0.9 and the dummy copy the
probability 0.000009, whose text is `9e-06`, the pair gets the smaller one. -/
theorem C54_fails_order {n ms : Nat} (h1 : 1 < n) (hlt : n + 1 < ms) (h2 : ms ≤ 2 * n) {a : Nat → Nat → List Char × List Char} (h01 : (a 0 1).2 = "0.9".toList)
    (h0d : (a 0 (n + 1)).2 = "9e-06".toList) : ∃ l, foldDummies textGt n ms (fun k => a (k / ms) (k % ms)) = .ok l ∧ (l[1]?.map Prod.snd) = some "9e-06".toList := by
  refine ⟨_, C54_fold_partial (by omega) (by omega) h2, ?_⟩
  rw [show n = (n - 1) + 1 by omega, List.range_succ_eq_map, List.flatMap_cons, show n - 1 + 1 = n by omega]
  rw [List.getElem?_append_left (by simp; omega)]
  rw [← List.range_succ_eq_map, show n - 1 + 1 = n by omega, List.getElem?_map, List.getElem?_range h1]
  simp only [Option.map_some, Option.some.injEq]
  unfold foldedProb
  rw [if_pos ⟨by omega, hlt, by rw [h01, h0d]; decide⟩, h0d]

/-- C54: ten cities, padded to twenty -/
example : modelSize 10 = .ok 20 ∧ 0 < 10 ∧ 10 ≤ 20 ∧ 20 ≤ 2 * 10 ∧ dummySources 10 10 0 = [0, 1, 2, 3, 4, 5, 6, 7, 8, 9] ∧
    (∀ i < 10, ∀ j < 10, 10 + j < 20 → ((fun x y : Nat => decide (x > y)) (i + (10 + j)) (i + j) = true ↔ ((i + (10 + j) : Nat) : ℚ) > ((i + j : Nat) : ℚ))) := by
  refine ⟨rfl, by decide, by decide, by decide, rfl, ?_⟩
  intro i _ j _ _
  simp only [decide_eq_true_eq, gt_iff_lt, Nat.cast_lt]

end Verif
