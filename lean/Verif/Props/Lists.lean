import Verif.Proofs.Dll
import Verif.Spec.Seq

/-!
# Properties C01–C05: the two linked lists
-/
namespace Verif.Dll
open Verif Verif.Spec
set_option autoImplicit false
variable {α : Type}

/-- one call of the generic list API -/
def exec (s : DList α) : SeqOp α → Res (DList α)
  | .append v => addBottom s v
  | .insert v i => addIndex s v i
  | .erase i => deleteIndex s i

/-- a history of calls -/
def run (s : DList α) : List (SeqOp α) → Res (DList α)
  | [] => .ok s
  | op :: ops => do run (← exec s op) ops

/-- one call of the open-subproblem-list API -/
def spExec (s : DList α) : SeqOp α → Res (DList α)
  | .append v => spAddBottom s v
  | .insert v i => spAddIndex s v i
  | .erase i => spDeleteIndex s i

def spRun (s : DList α) : List (SeqOp α) → Res (DList α)
  | [] => .ok s
  | op :: ops => do spRun (← spExec s op) ops

theorem exec_rep {s : DList α} {g : List (Nat × α)} (r : Rep s g) (op : SeqOp α)
    (h : okOp (g.map (·.2)) op) :
    ∃ s' g', exec s op = .ok s' ∧ Rep s' g' ∧ g'.map (·.2) = seqStep (g.map (·.2)) op := by
  cases op with
  | append v =>
    obtain ⟨s', h1, h2⟩ := addBottom_rep r v
    exact ⟨s', _, h1, h2, by simp [seqStep]⟩
  | insert v i =>
    simp only [okOp, List.length_map, List.map_eq_nil_iff] at h
    by_cases hi : i ≤ g.length
    · have hg : g = g.take i ++ g.drop i := by simp
      rw [hg] at r
      obtain ⟨s', h1, h2⟩ := addIndex_rep r v (by
        rcases h with h | h
        · left; simp; omega
        · right; simp [h])
      refine ⟨s', _, ?_, h2, ?_⟩
      · rw [List.length_take, Nat.min_eq_left hi] at h1; exact h1
      · simp [seqStep, hi]
    · refine ⟨s, g, ?_, r, ?_⟩
      · simp [exec, addIndex, getSize, r.size]; omega
      · simp only [seqStep, List.length_map, hi, ↓reduceIte]
  | erase i =>
    by_cases hi : i < g.length
    · have hg : g = g.take i ++ g[i] :: g.drop (i+1) := by simp
      rw [hg] at r
      obtain ⟨s', h1, h2⟩ := deleteIndex_rep r
      refine ⟨s', _, ?_, h2, ?_⟩
      · rw [List.length_take, Nat.min_eq_left hi.le] at h1; exact h1
      · simp [seqStep, hi]
    · refine ⟨s, g, ?_, r, ?_⟩
      · simp [exec, deleteIndex, getSize, r.size, hi]
      · simp only [seqStep, List.length_map, hi, ↓reduceIte]

theorem run_rep {s : DList α} {g : List (Nat × α)} (r : Rep s g) (ops : List (SeqOp α))
    (h : okRun (g.map (·.2)) ops) :
    ∃ s' g', run s ops = .ok s' ∧ Rep s' g' ∧ g'.map (·.2) = seqRun (g.map (·.2)) ops := by
  induction ops generalizing s g with
  | nil => exact ⟨s, g, rfl, r, rfl⟩
  | cons op ops ih =>
    obtain ⟨s1, g1, e1, r1, q1⟩ := exec_rep r op h.1
    obtain ⟨s2, g2, e2, r2, q2⟩ := ih r1 (q1 ▸ h.2)
    refine ⟨s2, g2, by simp [run, e1, e2], r2, ?_⟩
    rw [q2, q1]; rfl

theorem spRun_rep {s : DList α} {g : List (Nat × α)} (r : Rep s g) (ops : List (SeqOp α))
    (h : okRun (g.map (·.2)) ops) :
    ∃ s' g', spRun s ops = .ok s' ∧ Rep s' g' ∧ g'.map (·.2) = seqRun (g.map (·.2)) ops := by
  induction ops generalizing s g with
  | nil => exact ⟨s, g, rfl, r, rfl⟩
  | cons op ops ih =>
    obtain ⟨s1, g1, e1, r1, q1⟩ := exec_rep r op h.1
    obtain ⟨s2, g2, e2, r2, q2⟩ := ih r1 (q1 ▸ h.2)
    have e1' : spExec s op = .ok s1 := by
      rw [← e1]
      cases op with
      | append v => exact spAddBottom_eq r v
      | insert v i => rfl
      | erase i => exact spDeleteIndex_eq r i
    refine ⟨s2, g2, by simp [spRun, e1', e2], r2, ?_⟩
    rw [q2, q1]; rfl

/-- **C01.** After any history from `new_list` that never inserts at exactly index = size of a
non-empty list, no call faults (no NULL or freed cell is dereferenced) and `get_list_elem_index`
(for every index; `none` is NULL), `get_list_size` and `is_list_empty` report what the
mathematical sequence subjected to the same operations would. -/
theorem C01_list_is_sequence (ops : List (SeqOp α)) (h : okRun [] ops) :
    ∃ s, run newList ops = .ok s ∧
      (∀ i, getIndex s i = .ok ((seqRun [] ops)[i]?)) ∧
      getSize s = (seqRun [] ops).length ∧
      isEmpty s = (seqRun [] ops).isEmpty := by
  obtain ⟨s, g, e, r, q⟩ := run_rep (rep_new (α := α)) ops h
  have q : g.map (·.2) = seqRun [] ops := q
  refine ⟨s, e, ?_, ?_, ?_⟩
  · intro i; rw [getIndex_rep r, q]
  · rw [getSize, r.size, ← q]; simp
  · rw [isEmpty_rep r, ← q]; cases g <;> rfl

/-- **C01 (release).** After any such history `del_list` frees every cell: it ends without touching
freed memory and no cell survives. -/
theorem C01_del_list_frees_everything (ops : List (SeqOp α)) (h : okRun [] ops) :
    ∃ s s', run newList ops = .ok s ∧ delList s (getSize s) s.head = .ok s' ∧ ∀ a, s'.cells a = none := by
  obtain ⟨s, g, e, r, q⟩ := run_rep (rep_new (α := α)) ops h
  obtain ⟨s', h1, h2⟩ := delList_seg s g none (getSize s) (by rw [getSize, r.size]) r.seg r.nodup
  refine ⟨s, s', e, by rw [r.head]; exact h1, ?_⟩
  intro a
  rw [h2]
  split
  · rfl
  · rename_i hn
    cases hc : s.cells a with
    | none => rfl
    | some c =>
      obtain ⟨v, hv⟩ := r.own a c hc
      exact absurd (List.mem_map_of_mem (f := (·.1)) hv) hn

example : okRun ([] : List Nat) [.append 1, .append 2, .insert 3 1, .erase 0, .insert 4 9] ∧
    seqRun ([] : List Nat) [.append 1, .append 2, .insert 3 1, .erase 0, .insert 4 9] = [3, 2] := by
  simp [okRun, okOp, seqRun, seqStep]

/-- **C02, refuted.** A concrete history: append 1, insert 2 at index 1 = size, append 3. As a
sequence it is `[1, 2, 3]`; the list reports 3 at index 1 and dereferences NULL at index 2. -/
theorem C02_insert_at_size_refuted :
    ∃ s, run (newList : DList Nat) [.append 1, .insert 2 1, .append 3] = .ok s ∧
      seqRun [] [.append 1, .insert 2 1, .append 3] = [1, 2, 3] ∧
      getSize s = 3 ∧ getIndex s 1 = .ok (some 3) ∧ getIndex s 2 = .error .null := by
  refine ⟨_, rfl, rfl, rfl, rfl, rfl⟩

/-- **C02, the part that holds.** Inserting at index = size after any history of C01 does append as far
as all reads go (`get_list_elem_index`, size, emptiness). Missing: later operations –
`C02_insert_at_size_refuted` shows that they fail because `tail` is left stale. -/
theorem C02_insert_at_size_partial (ops : List (SeqOp α)) (h : okRun [] ops) (v : α) :
    ∃ s s', run newList ops = .ok s ∧ addIndex s v (getSize s) = .ok s' ∧
      (∀ i, getIndex s' i = .ok ((seqRun [] ops ++ [v])[i]?)) ∧
      getSize s' = (seqRun [] ops).length + 1 ∧ isEmpty s' = false := by
  obtain ⟨s, g, e, r, q⟩ := run_rep (rep_new (α := α)) ops h
  have q : g.map (·.2) = seqRun [] ops := q
  rcases List.eq_nil_or_concat g with rfl | ⟨g0, ⟨b, w⟩, rfl⟩
  · obtain ⟨s', h1, r'⟩ := addIndex_rep (g := []) (h := []) r v (Or.inr rfl)
    refine ⟨s, s', e, by rw [getSize, r.size]; exact h1, ?_, ?_, ?_⟩
    · intro i; rw [getIndex_rep r', ← q]; simp
    · rw [getSize, r'.size, ← q]; simp
    · rw [isEmpty_rep r']; rfl
  · -- compare with addBottom: only `tail` differs
    obtain ⟨s', h1, r'⟩ := addBottom_rep r v
    have hw := walk_rep (g := g0.concat (b, w)) (h := []) (by simpa using r)
    have ht : s.tail = some b := by rw [r.tail]; simp
    have hhd : s.head ≠ none := by rw [r.head]; cases g0 <;> simp
    have hs : addIndex s v (getSize s) = .ok { s' with tail := s.tail } := by
      unfold addIndex
      unfold addBottom at h1
      rw [isEmpty_rep r] at h1
      have hne : (g0.concat (b, w)).isEmpty = false := by cases g0 <;> rfl
      simp only [hne, Bool.false_eq_true, ↓reduceIte, build, ht] at h1
      rw [getSize, r.size]
      simp only [gt_iff_lt, Nat.lt_irrefl, ↓reduceIte, hw, ok_bind, first_nil, hhd.symm, build, ht]
      generalize hX : setNext _ _ _ = X at h1 ⊢
      cases X with
      | error e => simp at h1
      | ok s2 =>
        simp only [ok_bind, pure_eq_ok, Except.ok.injEq] at h1 ⊢
        subst h1
        have : s2.tail = some b := by
          simp only [setNext, rd] at hX
          simp only [deref_some, ok_bind, pure_eq_ok] at hX
          cases hc : upd s.cells s.fresh (some ⟨v, none, some b⟩) b with
          | none => simp [hc] at hX
          | some c => simp [hc] at hX; subst hX; rfl
        cases s2; simp_all
    refine ⟨s, _, e, hs, ?_, ?_, ?_⟩
    · intro i
      have : getIndex ({ s' with tail := s.tail } : DList α) i = getIndex s' i := by
        have hw : ∀ n p, walk ({ s' with tail := s.tail } : DList α) n p = walk s' n p := by
          intro n
          induction n with
          | zero => intro p; rfl
          | succ n ih => intro p; simp only [walk]; congr 1; funext x; exact ih _
        unfold getIndex; rw [hw]; rfl
      rw [this, getIndex_rep r', ← q]; simp
    · simp only [getSize]; rw [r'.size, ← q]; simp
    · show isEmpty s' = false
      rw [isEmpty_rep r']; cases g0 <;> rfl

/-- **C03, the part that holds.** After any history of C01 whose result does not have exactly one
element, `delete_list_elem_bottom` removes exactly the last element (and does nothing on the empty
list). Missing: the one-element list, on which it dereferences NULL (`C03_delete_single_refuted`). -/
theorem C03_delete_bottom_partial (ops : List (SeqOp α)) (h : okRun [] ops)
    (h1 : (seqRun [] ops).length ≠ 1) :
    ∃ s s', run newList ops = .ok s ∧ deleteBottom s = .ok s' ∧
      (∀ i, getIndex s' i = .ok ((seqRun [] ops).dropLast[i]?)) ∧
      getSize s' = (seqRun [] ops).length - 1 ∧ isEmpty s' = (seqRun [] ops).dropLast.isEmpty := by
  obtain ⟨s, g, e, r, q⟩ := run_rep (rep_new (α := α)) ops h
  have q : g.map (·.2) = seqRun [] ops := q
  rw [← q] at h1 ⊢
  rcases List.eq_nil_or_concat g with rfl | ⟨g0, y, rfl⟩
  · have he := isEmpty_rep r
    refine ⟨s, s, e, by simp [deleteBottom, he], ?_, ?_, ?_⟩
    · intro i; rw [getIndex_rep r]; simp
    · rw [getSize, r.size]; simp
    · rw [he]; rfl
  · rcases List.eq_nil_or_concat g0 with rfl | ⟨g0, x, rfl⟩
    · simp at h1
    · obtain ⟨s', h1, r'⟩ := deleteBottom_rep (g := g0) (x := x) (y := y) (by simpa using r)
      refine ⟨s, s', e, h1, ?_, ?_, ?_⟩
      · intro i; rw [getIndex_rep r']; simp
      · rw [getSize, r'.size]; simp
      · rw [isEmpty_rep r']; simp only [List.concat_eq_append, List.map_append, List.map_cons, List.map_nil, List.dropLast_concat]; cases g0 <;> rfl

/-- **C03, refuted.** On every list of exactly one element `delete_list_elem_bottom` dereferences NULL. -/
theorem C03_delete_single_refuted (ops : List (SeqOp α)) (h : okRun [] ops)
    (h1 : (seqRun [] ops).length = 1) :
    ∃ s, run newList ops = .ok s ∧ deleteBottom s = .error .null := by
  obtain ⟨s, g, e, r, q⟩ := run_rep (rep_new (α := α)) ops h
  have q : g.map (·.2) = seqRun [] ops := q
  rw [← q] at h1
  rcases g with _ | ⟨x, _ | ⟨y, g⟩⟩
  · simp at h1
  · exact ⟨s, e, deleteBottom_single r⟩
  · simp at h1

example : okRun ([] : List Nat) [.append 1] ∧ (seqRun ([] : List Nat) [.append 1]).length = 1 := by
  simp [okRun, okOp, seqRun, seqStep]
example : okRun ([] : List Nat) [.append 1, .append 2] ∧ (seqRun ([] : List Nat) [.append 1, .append 2]).length ≠ 1 := by
  simp [okRun, okOp, seqRun, seqStep]

/-- the state and the results of `k` successive `list_iterator_get_next` calls -/
def iterate (s : DList α) : Nat → Iter → Res (List (Option α) × Iter)
  | 0, it => .ok ([], it)
  | k + 1, it => do
    let (e, it') ← iterGetNext s it
    let (es, it'') ← iterate s k it'
    pure (e :: es, it'')

/-- the iterator has consumed `i` of the elements of the list -/
def IterAt (g : List (Nat × α)) (it : Iter) (i : Nat) : Prop :=
  it.index = i ∧ i ≤ g.length ∧ ∀ x, g[i]? = some x → it.curr = some x.1

theorem iterGetNext_rep {s : DList α} {g : List (Nat × α)} (r : Rep s g) {it : Iter} {i : Nat}
    (h : IterAt g it i) :
    ∃ it', iterGetNext s it = .ok ((g.map (·.2))[i]?, it') ∧ IterAt g it' (min (i + 1) g.length) := by
  obtain ⟨hi, hl, hc⟩ := h
  unfold iterGetNext iterNext iterValid getSize
  rw [r.size, hi]
  by_cases hlt : i < g.length
  · obtain ⟨l, x, t, rfl, rfl, hx⟩ := split_at g i hlt
    have hs := r.seg
    simp only [seg_append, seg_cons] at hs
    have hcur := hc x hx
    simp only [hlt, decide_true, ↓reduceIte, iterCurrent, hcur, rd_some hs.2.1, ok_bind, pure_eq_ok, hi]
    by_cases hlt2 : l.length + 1 < (l ++ x :: t).length
    · simp only [hlt2, decide_true, ↓reduceIte, ok_bind]
      refine ⟨_, by simp; rfl, ?_⟩
      refine ⟨by simp, by simp, ?_⟩
      intro y hy
      rw [Nat.min_eq_left (by omega)] at hy
      rcases t with _ | ⟨z, t⟩
      · simp at hlt2
      · rw [List.getElem?_append_right (by omega)] at hy
        simp at hy
        simp [hy]
    · simp only [hlt2, decide_false, ↓reduceIte, ok_bind, Bool.false_eq_true]
      refine ⟨_, by simp; rfl, ?_⟩
      refine ⟨by simp at hlt2 ⊢; try omega, by simp, ?_⟩
      intro y hy
      have : min (l.length + 1) (l ++ x :: t).length = (l ++ x :: t).length := by omega
      rw [this] at hy; simp at hy
  · have : i = g.length := by omega
    subst this
    refine ⟨it, by simp, ?_⟩
    refine ⟨by simp [hi], by simp, ?_⟩
    intro y hy; simp at hy

theorem iterate_rep {s : DList α} {g : List (Nat × α)} (r : Rep s g) (k : Nat) {it : Iter} {i : Nat}
    (h : IterAt g it i) :
    ∃ it', iterate s k it = .ok ((List.range k).map (fun j => (g.map (·.2))[i + j]?), it') ∧
      IterAt g it' (min (i + k) g.length) := by
  induction k generalizing it i with
  | zero => exact ⟨it, by simp [iterate], by simpa [Nat.min_eq_left h.2.1] using h⟩
  | succ k ih =>
    obtain ⟨it1, e1, h1⟩ := iterGetNext_rep r h
    obtain ⟨it2, e2, h2⟩ := ih h1
    refine ⟨it2, ?_, ?_⟩
    · simp only [iterate, e1, ok_bind, e2, pure_eq_ok, List.range_succ_eq_map, List.map_cons, Nat.add_zero,
        List.map_map]
      congr 3
      apply List.map_congr_left
      intro j _
      simp only [Function.comp]
      by_cases hlt : i + 1 ≤ g.length
      · rw [Nat.min_eq_left hlt]; congr 1; omega
      · rw [List.getElem?_eq_none (by simp; omega), List.getElem?_eq_none (by simp; omega)]
    · have : min (min (i + 1) g.length + k) g.length = min (i + (k + 1)) g.length := by omega
      rw [this] at h2; exact h2

/-- **C04.** For every list reached by a history of C01, an iterator created on it returns, at the
`j`-th successive `list_iterator_get_next` call, the `j`-th element of the sequence (NULL once they
are exhausted, for ever), without any fault; after `k` calls `is_list_iterator_valid` is true exactly
while elements remain. -/
theorem C04_iterator_enumerates (ops : List (SeqOp α)) (h : okRun [] ops) (k : Nat) :
    ∃ s it, run newList ops = .ok s ∧
      iterate s k (createIter s) = .ok ((List.range k).map (fun j => (seqRun [] ops)[j]?), it) ∧
      iterValid s it = decide (k < (seqRun [] ops).length) := by
  obtain ⟨s, g, e, r, q⟩ := run_rep (rep_new (α := α)) ops h
  have q : g.map (·.2) = seqRun [] ops := q
  have h0 : IterAt g (createIter s) 0 := by
    refine ⟨rfl, by simp, ?_⟩
    intro x hx
    simp only [createIter, r.head]
    cases g with
    | nil => simp at hx
    | cons y g => simp at hx; simp [hx]
  obtain ⟨it, e1, h1⟩ := iterate_rep r k h0
  refine ⟨s, it, e, ?_, ?_⟩
  · rw [e1, ← q]; simp
  · simp only [iterValid, getSize, r.size, h1.1, ← q, List.length_map]
    congr 1
    simp only [Nat.zero_add, eq_iff_iff]
    omega

/-- **C05.** The open-subproblem list: after any history of calls (insertions below the size), starting from
`new_SubProblemList`, the stored values, the size and emptiness are those of the mathematical
sequence of the values passed in, an iteration returns them in order, and no NULL or freed cell
is dereferenced. Values are copied (`e->subProblem = *value`), so the sequence is one of values. -/
theorem C05_open_list_is_sequence (ops : List (SeqOp α)) (h : okRun [] ops) (k : Nat) :
    ∃ s it, spRun newList ops = .ok s ∧
      (∀ i, spGetIndex s i = .ok ((seqRun [] ops)[i]?)) ∧
      getSize s = (seqRun [] ops).length ∧
      spIsEmpty s = (seqRun [] ops).isEmpty ∧
      iterate s k (createIter s) = .ok ((List.range k).map (fun j => (seqRun [] ops)[j]?), it) := by
  obtain ⟨s, g, e, r, q⟩ := spRun_rep (rep_new (α := α)) ops h
  have q : g.map (·.2) = seqRun [] ops := q
  have h0 : IterAt g (createIter s) 0 := by
    refine ⟨rfl, by simp, ?_⟩
    intro x hx
    simp only [createIter, r.head]
    cases g with
    | nil => simp at hx
    | cons y g => simp at hx; simp [hx]
  obtain ⟨it, e1, h1⟩ := iterate_rep r k h0
  refine ⟨s, it, e, ?_, ?_, ?_, ?_⟩
  · intro i; rw [spGetIndex, getIndex_rep r, q]
  · rw [getSize, r.size, ← q]; simp
  · rw [spIsEmpty_rep r, isEmpty_rep r, ← q]; cases g <;> rfl
  · rw [e1, ← q]; simp

end Verif.Dll
