import Verif.Proofs.FibExtract
import Verif.Spec.PriorityQueue

/-!
# Properties C10–C13: the Fibonacci heap

`Reach H s`: the heap memory `H` is the result of some history of calls, and the contents that history asks for are
`s`.
-/
namespace Verif.Fib
open Verif Verif.Spec
set_option autoImplicit false

/-- Heaps produced by a history of `create_fibonacci_heap`, `create_insert_node` (node and key not in the heap),
`decrease_value` (node in the heap) and `extract_min`, with the contents the calls ask for. -/
inductive Reach : Heap → Bag → Prop where
  | create (H : Heap) : Reach (createHeap H) (fun _ => none)
  | insert {H H' : Heap} {s : Bag} {x k : Nat} {v : ℚ} : Reach H s → s x = none → s.FreshKey k →
      createInsertNode H x k v = .ok H' → Reach H' (upd s x (some (k, v)))
  | decrease {H H' : Heap} {s : Bag} {x k : Nat} {w v : ℚ} : Reach H s → s x = some (k, w) →
      decreaseValue H x v = .ok H' → Reach H' (upd s x (some (k, v)))
  | extract {H H' : Heap} {s : Bag} {x k : Nat} {w : ℚ} : Reach H s → extractMin H = .ok (some k, H') →
      s x = some (k, w) → Reach H' (upd s x none)

/-- the heap memory represents the contents -/
def Holds (H : Heap) (s : Bag) (N : Finset Nat) : Prop :=
  (∀ x, x ∈ N ↔ s x ≠ none) ∧ ∀ x k w, s x = some (k, w) → H.key x = k ∧ H.value x = w

theorem Holds.val {H : Heap} {s : Bag} {N : Finset Nat} (h : Holds H s N) {x : Nat} (hx : x ∈ N) :
    s x = some (H.key x, H.value x) := by
  have := (h.1 x).1 hx
  cases e : s x with
  | none => exact absurd e this
  | some p => obtain ⟨h1, h2⟩ := h.2 x p.1 p.2 e; rw [h1, h2]

theorem Holds.mem {H : Heap} {s : Bag} {N : Finset Nat} (h : Holds H s N) {x : Nat} {p : Nat × ℚ} (hx : s x = some p) :
    x ∈ N := (h.1 x).2 (by rw [hx]; simp)

theorem reach_inv {H : Heap} {s : Bag} (h : Reach H s) :
    ∃ N roots kids, Inv H N roots kids ∧ Holds H s N := by
  induction h with
  | create H => exact ⟨∅, [], _, inv_create H, by simp [Holds]⟩
  | @insert H H' s x k v hr hx hk he ih =>
    obtain ⟨N, roots, kids, I, hh⟩ := ih
    have hxN : x ∉ N := fun h => (hh.1 x).1 h hx
    obtain ⟨H1, kids1, e1, I1, v1, k1⟩ := insert_inv (k := k) (v := v) I hxN
      (fun y hy => hk y _ _ (hh.val hy))
    rw [e1] at he; cases he
    refine ⟨_, _, _, I1, ?_, ?_⟩
    · intro y
      rw [upd_apply, Finset.mem_insert, hh.1]
      split
      · rename_i h; simp [h]
      · rename_i h; simp [h]
    · intro y k' w' hy
      rw [upd_apply] at hy
      rw [v1, k1]
      split at hy
      · rename_i h; simp at hy; simp [h, hy]
      · rename_i h; simp only [h, ↓reduceIte]; exact hh.2 y k' w' hy
  | @decrease H H' s x k w v hr hx he ih =>
    obtain ⟨N, roots, kids, I, hh⟩ := ih
    have hxN : x ∈ N := hh.mem hx
    by_cases hv : v ≤ H.value x
    · obtain ⟨H1, roots1, kids1, e1, I1, v1, k1⟩ := decrease_inv I hxN hv
      rw [e1] at he; cases he
      refine ⟨_, _, _, I1, ?_, ?_⟩
      · intro y
        rw [upd_apply, hh.1]
        split
        · rename_i h; simp [h, hx]
        · rfl
      · intro y k' w' hy
        rw [upd_apply] at hy
        rw [v1, k1, upd_apply]
        split at hy
        · rename_i h; simp at hy; subst h; simp [hy, (hh.2 _ _ _ hx).1]
        · rename_i h; simp only [h, ↓reduceIte]; exact hh.2 y k' w' hy
    · rw [decrease_exit (not_le.1 hv)] at he; cases he
  | @extract H H' s x k w hr he hx ih =>
    obtain ⟨N, roots, kids, I, hh⟩ := ih
    have hxN : x ∈ N := hh.mem hx
    rcases extract_inv I ⟨x, hxN⟩ with ⟨e, _⟩ | ⟨m, H1, roots1, kids1, e1, hm, hmin, I1, v1, k1⟩
    · rw [e] at he; cases he
    · rw [e1] at he; cases he
      have : x = m := I.core.kinj x hxN m hm (hh.2 x _ _ hx).1
      subst this
      refine ⟨_, _, _, I1, ?_, ?_⟩
      · intro y
        rw [upd_apply, Finset.mem_erase, hh.1]
        split
        · rename_i h; simp [h]
        · rename_i h; simp [h]
      · intro y k' w' hy
        rw [upd_apply] at hy
        rw [v1, k1]
        split at hy
        · simp at hy
        · exact hh.2 y k' w' hy

theorem size_of {H : Heap} {s : Bag} {N : Finset Nat} (h : Holds H s N) : s.Size N.card := by
  refine ⟨N.toList, N.nodup_toList, fun x => ?_, by simp⟩
  rw [Finset.mem_toList]; exact h.1 x

theorem size_unique {s : Bag} {m n : Nat} (h1 : s.Size m) (h2 : s.Size n) : m = n := by
  obtain ⟨l1, n1, m1, rfl⟩ := h1
  obtain ⟨l2, n2, m2, rfl⟩ := h2
  exact ((List.perm_ext_iff_of_nodup n1 n2).2 (fun x => by rw [m1, m2])).length_eq

/-- the degree table is large enough for at most 55 nodes -/
theorem good_of_le {N : Finset Nat} {m : Nat} (hm : m ∈ N) (h : N.card ≤ 55) : Good (dimension N.card) (N.erase m) := by
  intro d hd
  rw [Finset.card_erase_of_mem hm] at hd
  have hpos : 0 < N.card := Finset.card_pos.2 ⟨m, hm⟩
  by_contra hge
  have hge := not_lt.1 hge
  have hmono := Nat.fib_mono (show dimension N.card + 2 ≤ d + 2 by omega)
  have : Nat.fib (dimension N.card + 2) ≤ N.card - 1 := le_trans hmono hd
  generalize N.card = n at *
  unfold dimension at this
  have hn : n < 56 := by omega
  revert this
  have key : ∀ n < 56, 0 < n → ¬ Nat.fib (Nat.clog 2 n + 2 + 2) ≤ n - 1 := by decide +kernel
  exact key n hn hpos

/-- C10. In every reachable heap that is not empty, `extract_min` returns the key of a node with minimal value, and
exactly that node leaves the heap (`Reach` fixes keys and values of the remaining nodes, see `C10_contents`).
The only other outcome is an access outside the degree table (C13), which needs at least 56 nodes. -/
theorem C10_extract_min_returns_minimum {H : Heap} {s : Bag} {n : Nat} (h : Reach H s) (hs : s.Size n) (hne : ¬ s.Empty) :
    (extractMin H = .error (.oobAt .degreeList) ∧ 56 ≤ n) ∨
    ∃ x k H', extractMin H = .ok (some k, H') ∧ s.IsMin x k ∧ Reach H' (upd s x none) := by
  obtain ⟨N, roots, kids, I, hh⟩ := reach_inv h
  have hn := size_unique hs (size_of hh)
  have hN : N.Nonempty := by
    by_contra hc
    apply hne
    intro x
    by_contra hx
    exact hc ⟨x, (hh.1 x).2 hx⟩
  rcases extract_inv I hN with ⟨e, m, hm, g⟩ | ⟨m, H1, roots1, kids1, e1, hm, hmin, I1, v1, k1⟩
  · left
    refine ⟨e, ?_⟩
    by_contra hc
    exact g (good_of_le hm (by omega))
  · right
    refine ⟨m, H.key m, H1, e1, ⟨H.value m, hh.val hm, ?_⟩, h.extract e1 (hh.val hm)⟩
    intro y k' w' hy
    rw [← (hh.2 y k' w' hy).2]
    exact hmin y (hh.mem hy)

/-- C10. In every reachable heap the nodes have exactly the keys and values the history gave them. -/
theorem C10_contents {H : Heap} {s : Bag} (h : Reach H s) {x k : Nat} {w : ℚ} (hx : s x = some (k, w)) :
    H.key x = k ∧ H.value x = w := by
  obtain ⟨N, roots, kids, I, hh⟩ := reach_inv h
  exact hh.2 x k w hx

/-- C10. Insertion of a fresh node never fails. -/
theorem C10_insert_succeeds {H : Heap} {s : Bag} (h : Reach H s) {x k : Nat} (v : ℚ) (hx : s x = none) (hk : s.FreshKey k) :
    ∃ H', createInsertNode H x k v = .ok H' ∧ Reach H' (upd s x (some (k, v))) := by
  obtain ⟨N, roots, kids, I, hh⟩ := reach_inv h
  obtain ⟨H1, kids1, e1, -⟩ := insert_inv (k := k) (v := v) I (fun h => (hh.1 x).1 h hx) (fun y hy => hk y _ _ (hh.val hy))
  exact ⟨H1, e1, h.insert hx hk e1⟩

/-- C11. `extract_min` reports the empty heap (-1) exactly when no node is in it, and the node counter is the number of
nodes in the heap. -/
theorem C11_empty_and_counter {H : Heap} {s : Bag} (h : Reach H s) :
    ((∃ H', extractMin H = .ok (none, H')) ↔ s.Empty) ∧ (s.Empty → extractMin H = .ok (none, H)) ∧ s.Size H.numNodes := by
  obtain ⟨N, roots, kids, I, hh⟩ := reach_inv h
  have hem : s.Empty → extractMin H = .ok (none, H) := by
    intro he
    apply extract_empty I
    rw [Finset.eq_empty_iff_forall_notMem]
    intro x hx; exact (hh.1 x).1 hx (he x)
  refine ⟨⟨?_, fun he => ⟨H, hem he⟩⟩, hem, ?_⟩
  · rintro ⟨H', e⟩
    by_contra hne
    rcases C10_extract_min_returns_minimum h (size_of hh) hne with ⟨e', _⟩ | ⟨x, k, H1, e', _⟩
    · rw [e'] at e; cases e
    · rw [e'] at e; cases e
  · rw [I.num]; exact size_of hh

/-- calling `extract_min` until it reports the empty heap; the keys in the order they come out -/
def drain : Nat → Heap → Res (List Nat)
  | 0, _ => .error .fuel
  | f + 1, H => do
    match ← extractMin H with
    | (none, _) => pure []
    | (some k, H') => do
      let ks ← drain f H'
      pure (k :: ks)

/-- C11. Draining a reachable heap returns the key of every node in it exactly once, by non-decreasing value. (With 56
nodes or more the run may stop at an access outside the degree table, C13.) -/
theorem C11_drain_sorts {H : Heap} {s : Bag} {n : Nat} (h : Reach H s) (hs : s.Size n) :
    (drain (n + 1) H = .error (.oobAt .degreeList) ∧ 56 ≤ n) ∨
    ∃ xs : List Nat, xs.Nodup ∧ (∀ x, x ∈ xs ↔ s x ≠ none) ∧ drain (n + 1) H = .ok (xs.map H.key) ∧
      xs.Pairwise (fun a b => H.value a ≤ H.value b) := by
  induction n generalizing H s with
  | zero =>
    obtain ⟨l, _, hl, hz⟩ := hs
    have hl0 : l = [] := List.length_eq_zero_iff.1 hz
    subst hl0
    have hem : s.Empty := fun x => by
      by_contra hx; exact absurd ((hl x).2 hx) (by simp)
    right
    refine ⟨[], List.nodup_nil, hl, ?_, List.Pairwise.nil⟩
    simp [drain, (C11_empty_and_counter h).2.1 hem]
  | succ n ih =>
    have hne : ¬ s.Empty := by
      intro he
      obtain ⟨l, _, hl, hz⟩ := hs
      cases l with
      | nil => simp at hz
      | cons a l => exact (hl a).1 (by simp) (he a)
    rcases C10_extract_min_returns_minimum h hs hne with ⟨e, hg⟩ | ⟨x, k, H', e, ⟨w, hx, hmin⟩, hr⟩
    · left; rw [drain, e]; exact ⟨rfl, hg⟩
    · have hs' : Bag.Size (upd s x none) n := by
        obtain ⟨l, nd, hl, hz⟩ := hs
        have hxl : x ∈ l := (hl x).2 (by rw [hx]; simp)
        refine ⟨l.erase x, nd.erase x, fun y => ?_, by rw [List.length_erase_of_mem hxl]; omega⟩
        rw [nd.mem_erase_iff, hl, upd_apply]
        split
        · rename_i h; simp [h]
        · rename_i h; simp [h]
      rcases ih hr hs' with ⟨e', hg⟩ | ⟨xs, nd, hxs, e', srt⟩
      · left; rw [drain, e]; simp only [ok_bind, e', error_bind]; exact ⟨trivial, by omega⟩
      · right
        have hxn : x ∉ xs := by rw [hxs]; simp
        have old : ∀ y ∈ xs, ∃ k w, s y = some (k, w) ∧ H'.key y = k ∧ H'.value y = w := by
          intro y hy
          have h1 := (hxs y).1 hy
          have hyx : y ≠ x := by rintro rfl; exact hxn hy
          rw [upd_ne _ _ hyx] at h1
          cases hsy : s y with
          | none => exact absurd hsy h1
          | some p => exact ⟨p.1, p.2, rfl, C10_contents hr (by rw [upd_ne _ _ hyx, hsy])⟩
        have same : ∀ y ∈ xs, H'.key y = H.key y ∧ H'.value y = H.value y := by
          intro y hy
          obtain ⟨k', w', h1, h2, h3⟩ := old y hy
          obtain ⟨g1, g2⟩ := C10_contents h h1
          exact ⟨by rw [h2, g1], by rw [h3, g2]⟩
        refine ⟨x :: xs, List.nodup_cons.2 ⟨hxn, nd⟩, ?_, ?_, ?_⟩
        · intro y
          rw [List.mem_cons, hxs, upd_apply]
          split
          · rename_i h; simp [h, hx]
          · rename_i h; simp [h]
        · rw [drain, e]
          simp only [ok_bind, e', pure_eq_ok, List.map_cons]
          rw [(C10_contents h hx).1]
          congr 2
          exact List.map_congr_left (fun y hy => (same y hy).1)
        · refine List.pairwise_cons.2 ⟨?_, ?_⟩
          · intro y hy
            obtain ⟨k', w', h1, h2, h3⟩ := old y hy
            rw [(C10_contents h hx).2, ← (same y hy).2, h3]
            exact hmin y k' w' h1
          · apply srt.imp_of_mem
            intro a b ha hb hab
            rw [← (same a ha).2, ← (same b hb).2]; exact hab

/-- C12. `decrease_value` sets exactly the value of the given node, and rejects an increase by exiting. -/
theorem C12_decrease_value {H : Heap} {s : Bag} (h : Reach H s) {x k : Nat} {w : ℚ} (hx : s x = some (k, w)) (v : ℚ) :
    (v ≤ w → ∃ H', decreaseValue H x v = .ok H' ∧ Reach H' (upd s x (some (k, v))) ∧ H'.numNodes = H.numNodes) ∧
    (w < v → decreaseValue H x v = .error .exit) := by
  obtain ⟨N, roots, kids, I, hh⟩ := reach_inv h
  have hw := (hh.2 x k w hx).2
  constructor
  · intro hv
    obtain ⟨H1, roots1, kids1, e1, I1, v1, k1⟩ := decrease_inv (v := v) I (hh.mem hx) (by rw [hw]; exact hv)
    exact ⟨H1, e1, h.decrease hx e1, by rw [I1.num, I.num]⟩
  · intro hv; exact decrease_exit (by rw [hw]; exact hv)

/-- C13, proved for heaps of at most 55 nodes: `extract_min` stays inside the degree table (and cannot fail in any other
way). Missing: from 56 to 63 nodes it is open (the Fibonacci bound allows a root of degree 8 while the table has `clog 2 56 + 2 = 8`
entries); with 64 nodes it fails (`C13_fails` in TableOverflow.lean). -/
theorem C13_degree_table_partial {H : Heap} {s : Bag} {n : Nat} (h : Reach H s) (hs : s.Size n) (hn : n ≤ 55) :
    ∃ r H', extractMin H = .ok (r, H') := by
  by_cases hne : s.Empty
  · exact ⟨none, H, (C11_empty_and_counter h).2.1 hne⟩
  · rcases C10_extract_min_returns_minimum h hs hne with ⟨_, hg⟩ | ⟨x, k, H', e, _⟩
    · omega
    · exact ⟨_, H', e⟩

/-- The table size formula is too small for the degrees the Fibonacci bound allows: with 56 nodes the table
has 8 entries while a root of degree 8 needs only `fib 10 = 55` nodes below the extracted one. -/
theorem C13_table_below_fibonacci_bound : dimension 56 = 8 ∧ Nat.fib (8 + 2) ≤ 56 - 1 := by decide

/-! ### Non-vacuity: a concrete history -/

/-- memory before the program starts -/
def mem0 : Heap :=
  { key := fun _ => 77, value := fun _ => 5, parent := fun _ => some 3, left := fun _ => 9, right := fun _ => 9,
    headC := fun _ => none, tailC := fun _ => some 2, numC := fun _ => 4, marked := fun _ => true,
    isRoot := fun _ => false, minRoot := some 1, head := some 1, tail := some 1, numNodes := 7, numTrees := 7 }

/-- insert 4 nodes, extract one, decrease the node with key 30, and drain -/
def demo : Res (Option Nat × List Nat) := do
  let H ← createInsertNode (createHeap mem0) 0 10 4
  let H ← createInsertNode H 1 20 1
  let H ← createInsertNode H 2 30 9
  let H ← createInsertNode H 3 40 3
  let (r, H) ← extractMin H
  let H ← decreaseValue H 2 2
  let ks ← drain 4 H
  pure (r, ks)

example : demo = .ok (some 20, [30, 40, 10]) := by decide +kernel

/-- a reachable heap with two nodes, as the theorems require -/
example : ∃ H s, Reach H s ∧ s.Size 2 ∧ ¬ s.Empty ∧ s 0 = some (10, 4) ∧ s 1 = some (20, 1) := by
  have h0 := Reach.create mem0
  obtain ⟨H1, e1, h1⟩ := C10_insert_succeeds (x := 0) (k := 10) h0 4 rfl (by intro y k w hy; simp at hy)
  obtain ⟨H2, e2, h2⟩ := C10_insert_succeeds (x := 1) (k := 20) h1 1 (by simp [upd_apply]) (by
    intro y k w hy; rw [upd_apply] at hy; split at hy
    · simp at hy; omega
    · simp at hy)
  refine ⟨H2, _, h2, ⟨[0, 1], by decide, ?_, rfl⟩, ?_, by simp [upd_apply], by simp [upd_apply]⟩
  · intro x; simp only [upd_apply, List.mem_cons, List.not_mem_nil, or_false]
    by_cases h1 : x = 1
    · simp [h1]
    · by_cases h0 : x = 0
      · simp [h0]
      · simp [h0, h1]
  · intro h; have := h 1; simp at this

end Verif.Fib
