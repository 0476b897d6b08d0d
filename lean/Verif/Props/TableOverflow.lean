import Verif.Props.TableHistory

/-!
# C13 fails: `extract_min` leaves the table of `consolidate`
-/
namespace Verif.Fib
open Verif Verif.Spec
set_option autoImplicit false

/-- the contents in which exactly the nodes of `D` are, each under its own number, with the values `val` -/
def ownKeys (D : Nat → Bool) (val : Nat → ℚ) : Bag := fun x => if D x then some (x, val x) else none

theorem ownKeys_insert (D : Nat → Bool) (val : Nat → ℚ) (x : Nat) (v : ℚ) :
    upd (ownKeys D val) x (some (x, v)) = ownKeys (upd D x true) (upd val x v) := by
  funext y
  simp only [ownKeys, upd_apply]
  by_cases h : y = x
  · simp [h]
  · simp [h]

theorem ownKeys_decrease {D : Nat → Bool} {x : Nat} (hx : D x = true) (val : Nat → ℚ) (v : ℚ) :
    upd (ownKeys D val) x (some (x, v)) = ownKeys D (upd val x v) := by
  funext y
  simp only [ownKeys, upd_apply]
  by_cases h : y = x
  · simp [h, hx]
  · simp [h]

theorem ownKeys_extract (D : Nat → Bool) (val : Nat → ℚ) (x : Nat) :
    upd (ownKeys D val) x none = ownKeys (upd D x false) val := by
  funext y
  simp only [ownKeys, upd_apply]
  by_cases h : y = x
  · simp [h]
  · simp [h]

theorem ownKeys_some {D : Nat → Bool} {val : Nat → ℚ} {x k : Nat} {w : ℚ} (h : ownKeys D val x = some (k, w)) : D x = true ∧ k = x ∧ w = val x := by
  unfold ownKeys at h
  split at h
  · rename_i hd; simp at h; exact ⟨hd, h.1.symm, h.2.symm⟩
  · simp at h

/-- the memory is reachable with these contents -/
def Keyed (H : Heap) (D : Nat → Bool) (val : Nat → ℚ) : Prop := Reach H (ownKeys D val)

theorem Keyed.value {H : Heap} {D : Nat → Bool} {val : Nat → ℚ} (h : Keyed H D val) {x : Nat} (hx : D x = true) : H.value x = val x :=
  (C10_contents h (x := x) (k := x) (w := val x) (by simp [ownKeys, hx])).2

theorem Keyed.insert {H : Heap} {D : Nat → Bool} {val : Nat → ℚ} (h : Keyed H D val) {x : Nat} (hx : D x = false) (v : ℚ) :
    ∃ H', createInsertNode H x x v = .ok H' ∧ Keyed H' (upd D x true) (upd val x v) := by
  obtain ⟨H', e, h'⟩ := C10_insert_succeeds h (x := x) (k := x) v (by simp [ownKeys, hx]) (by
    intro y k w hy hk
    obtain ⟨h1, h2, -⟩ := ownKeys_some hy
    rw [← h2, hk, hx] at h1; cases h1)
  refine ⟨H', e, ?_⟩
  rw [ownKeys_insert] at h'; exact h'

theorem Keyed.decrease {H H' : Heap} {D : Nat → Bool} {val : Nat → ℚ} (h : Keyed H D val) {x : Nat} (hx : D x = true) {v : ℚ}
    (e : decreaseValue H x v = .ok H') : Keyed H' D (upd val x v) := by
  have := Reach.decrease h (x := x) (k := x) (w := val x) (by simp [ownKeys, hx]) e
  rw [ownKeys_decrease hx] at this; exact this

theorem Keyed.extract {H H' : Heap} {D : Nat → Bool} {val : Nat → ℚ} (h : Keyed H D val) {x : Nat} (e : extractMin H = .ok (some x, H')) :
    D x = true ∧ Keyed H' (upd D x false) val := by
  by_cases hne : (ownKeys D val).Empty
  · rw [(C11_empty_and_counter h).2.1 hne] at e; cases e
  · rcases C10_extract_min_returns_minimum h (C11_empty_and_counter h).2.2 hne with ⟨e', -⟩ | ⟨y, k, H1, e', ⟨w, hy, -⟩, hr⟩
    · rw [e'] at e; cases e
    · rw [e'] at e; cases e
      obtain ⟨h1, h2, -⟩ := ownKeys_some hy
      subst h2
      rw [ownKeys_extract] at hr
      exact ⟨h1, hr⟩

/-- the nodes 1 to `k` -/
def upto (k : Nat) (x : Nat) : Bool := decide (1 ≤ x ∧ x ≤ k)

theorem upto_succ (k : Nat) : upd (upto k) (k + 1) true = upto (k + 1) := by
  funext x
  rw [upd_apply]
  unfold upto
  split
  · rename_i h; subst h; simp
  · rename_i h; simp only [decide_eq_decide]; omega

theorem insertAll_keyed {H : Heap} : ∀ k, ∃ H', insertAll (createHeap H) k = .ok H' ∧ Keyed H' (upto k) (fun _ => FLT_MAX) := by
  intro k
  induction k with
  | zero =>
    refine ⟨_, rfl, ?_⟩
    have : ownKeys (upto 0) (fun _ => FLT_MAX) = fun _ => none := by
      funext x
      have : upto 0 x = false := by simp [upto]; omega
      simp [ownKeys, this]
    unfold Keyed; rw [this]; exact .create H
  | succ k ih =>
    obtain ⟨H1, e1, h1⟩ := ih
    obtain ⟨H2, e2, h2⟩ := h1.insert (x := k + 1) (by simp [upto]) FLT_MAX
    refine ⟨H2, by rw [insertAll, e1]; exact e2, ?_⟩
    rw [upto_succ] at h2
    have : upd (fun _ => FLT_MAX) (k + 1) FLT_MAX = fun _ => FLT_MAX := by funext x; rw [upd_apply]; split <;> rfl
    rw [this] at h2; exact h2

theorem lower_keyed {D : Nat → Bool} : ∀ (l : List Nat) {H H' : Heap} {val : Nat → ℚ}, Keyed H D val → (∀ v ∈ l, D v = true) → forList lower l H = .ok H' →
    Keyed H' D (fun x => if x ∈ l then (if x = 2 then 1 else 2) else val x) := by
  intro l
  induction l with
  | nil => intro H H' val h _ e; simp [forList] at e; subst e; simpa using h
  | cons a l ih =>
    intro H H' val h hD e
    rw [forList, bind_eq_ok] at e
    obtain ⟨H1, e1, e2⟩ := e
    have h1 := h.decrease (hD a (by simp)) e1
    have h2 := ih h1 (fun v hv => hD v (by simp [hv])) e2
    convert h2 using 1
    funext x
    rw [upd_apply]
    by_cases hx : x ∈ l
    · simp [hx]
    · by_cases hxa : x = a
      · subst hxa; simp
      · simp [hx, hxa]

theorem chain_keyed : ∀ (l : List Nat) {H H' : Heap} {D : Nat → Bool} {val : Nat → ℚ}, Keyed H D val → l.Nodup → (∀ v ∈ l, D v = true) → chain H l = .ok H' →
    ∃ D' val', Keyed H' D' val' := by
  intro l
  induction l with
  | nil => intro H H' D val h _ _ e; simp [chain] at e; subst e; exact ⟨D, val, h⟩
  | cons x l ih =>
    intro H H' D val h nd hD e
    cases l with
    | nil => simp [chain] at e; subst e; exact ⟨D, val, h⟩
    | cons y l =>
      rw [chain, bind_eq_ok] at e
      obtain ⟨⟨r, H1⟩, e1, e⟩ := e
      dsimp only at e
      split at e
      · rename_i hr
        subst hr
        rw [bind_eq_ok] at e
        obtain ⟨H2, e2, e⟩ := e
        obtain ⟨-, h1⟩ := h.extract e1
        have hv : ∀ v ∈ y :: l, upd D x false v = true := by
          intro v hv
          have : v ≠ x := by rintro rfl; exact (List.nodup_cons.1 nd).1 hv
          rw [upd_ne _ _ this]; exact hD v (by simp only [List.mem_cons] at hv ⊢; tauto)
        exact ih (h1.decrease (hv y (by simp)) e2) (List.nodup_cons.1 nd).2 hv e
      · cases e

theorem overflows_elim {r : Res Heap} (h : overflows r = true) : ∃ H, r = .ok H ∧ H.numNodes = 64 ∧ extractMin H = .error (.oobAt .degreeList) := by
  cases r with
  | error f => simp [overflows] at h
  | ok H =>
    simp only [overflows, Bool.and_eq_true, beq_iff_eq, decide_eq_true_eq] at h
    exact ⟨H, rfl, h.1, eq_error_iff.2 h.2⟩

theorem victims_range : victims.Nodup ∧ ∀ v ∈ victims, 2 ≤ v ∧ v ≤ 258 := by decide +kernel

/-- the four stages of the history -/
theorem history_stages : ∃ H1 H2 H3 H4, insertAll (createHeap mem0) 258 = .ok H1 ∧ extractMin H1 = .ok (some 1, H2) ∧
    forList lower (List.range' 2 257) H2 = .ok H3 ∧ chain H3 victims = .ok H4 ∧ H4.numNodes = 64 ∧ extractMin H4 = .error (.oobAt .degreeList) := by
  obtain ⟨H4, e, hn, he⟩ := overflows_elim history_overflows
  unfold history at e
  rw [bind_eq_ok] at e
  obtain ⟨H1, e1, e⟩ := e
  rw [bind_eq_ok] at e
  obtain ⟨⟨r, H2⟩, e2, e⟩ := e
  dsimp only at e
  split at e
  · rename_i hr
    subst hr
    rw [bind_eq_ok] at e
    obtain ⟨H3, e3, e⟩ := e
    exact ⟨H1, H2, H3, H4, e1, e2, e3, e, hn, he⟩
  · cases e

/-- C13 fails: there is a history of calls after which the heap holds 64 nodes and `extract_min` writes outside the table of `consolidate`. -/
theorem C13_fails : ∃ H s, Reach H s ∧ s.Size 64 ∧ extractMin H = .error (.oobAt .degreeList) := by
  obtain ⟨H1, H2, H3, H4, e1, e2, e3, e4, hn, he⟩ := history_stages
  obtain ⟨H1', e1', k1⟩ := insertAll_keyed (H := mem0) 258
  rw [e1] at e1'; cases e1'
  obtain ⟨-, k2⟩ := k1.extract e2
  have hD : ∀ v, 2 ≤ v ∧ v ≤ 258 → upd (upto 258) 1 false v = true := by
    intro v hv
    rw [upd_ne _ _ (by omega)]; simp [upto]; omega
  have k3 := lower_keyed _ k2 (fun v hv => hD v (by rw [List.mem_range'_1] at hv; omega)) e3
  obtain ⟨D', val', k4⟩ := chain_keyed _ k3 victims_range.1 (fun v hv => hD v (victims_range.2 v hv)) e4
  refine ⟨H4, _, k4, ?_, he⟩
  have := (C11_empty_and_counter k4).2.2
  rw [hn] at this; exact this

end Verif.Fib
