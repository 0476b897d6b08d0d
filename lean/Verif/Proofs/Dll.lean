import Verif.Model.Dll

set_option linter.unusedSimpArgs false
namespace Verif.Dll
open Verif
set_option autoImplicit false
variable {α : Type}

/-- address of the first element of a segment, or `n` if it is empty -/
def first (g : List (Nat × α)) (n : Option Nat) : Option Nat :=
  match g with
  | [] => n
  | x :: _ => some x.1

/-- address of the last element of a segment, or `p` if it is empty -/
def last (p : Option Nat) : List (Nat × α) → Option Nat
  | [] => p
  | x :: g => last (some x.1) g

/-- the cells of `g` form a doubly linked segment between `p` and `n` -/
def Seg (c : Nat → Option (Cell α)) (p : Option Nat) : List (Nat × α) → Option Nat → Prop
  | [], _ => True
  | x :: g, n => c x.1 = some ⟨x.2, first g n, p⟩ ∧ Seg c (some x.1) g n

@[simp] theorem first_nil (n : Option Nat) : first ([] : List (Nat × α)) n = n := rfl
@[simp] theorem first_cons (x : Nat × α) (g : List (Nat × α)) (n : Option Nat) :
    first (x :: g) n = some x.1 := rfl
@[simp] theorem last_nil (p : Option Nat) : last p ([] : List (Nat × α)) = p := rfl
@[simp] theorem last_cons (x : Nat × α) (g : List (Nat × α)) (p : Option Nat) :
    last p (x :: g) = last (some x.1) g := rfl
@[simp] theorem seg_nil (c : Nat → Option (Cell α)) (p n : Option Nat) : Seg c p [] n := trivial
@[simp] theorem seg_cons (c : Nat → Option (Cell α)) (p n : Option Nat) (x : Nat × α) (g : List (Nat × α)) :
    Seg c p (x :: g) n ↔ c x.1 = some ⟨x.2, first g n, p⟩ ∧ Seg c (some x.1) g n := Iff.rfl

@[simp] theorem first_append (g h : List (Nat × α)) (n : Option Nat) :
    first (g ++ h) n = first g (first h n) := by cases g <;> simp
@[simp] theorem last_append (g h : List (Nat × α)) (p : Option Nat) :
    last p (g ++ h) = last (last p g) h := by
  induction g generalizing p with
  | nil => simp
  | cons x g ih => simp [ih]
@[simp] theorem seg_append (c : Nat → Option (Cell α)) (p n : Option Nat) (g h : List (Nat × α)) :
    Seg c p (g ++ h) n ↔ Seg c p g (first h n) ∧ Seg c (last p g) h n := by
  induction g generalizing p with
  | nil => simp
  | cons x g ih => simp [ih, and_assoc]

theorem seg_frame {c : Nat → Option (Cell α)} {a : Nat} {o : Option (Cell α)} {g : List (Nat × α)}
    (p n : Option Nat) (h : ∀ x ∈ g, x.1 ≠ a) : Seg (upd c a o) p g n ↔ Seg c p g n := by
  induction g generalizing p with
  | nil => simp
  | cons x g ih =>
    simp only [seg_cons]
    rw [ih _ (fun y hy => h y (by simp [hy])), upd_ne _ _ (h x (by simp))]

/-- The memory represents the sequence of (address, value) pairs `g`. -/
structure Rep (s : DList α) (g : List (Nat × α)) : Prop where
  seg : Seg s.cells none g none
  nodup : (g.map (·.1)).Nodup
  bound : ∀ x ∈ g, x.1 < s.fresh
  head : s.head = first g none
  tail : s.tail = last none g
  size : s.size = g.length
  own : ∀ a c, s.cells a = some c → ∃ v, (a, v) ∈ g

theorem rep_new : Rep (newList : DList α) [] := by
  constructor <;> simp [newList]

theorem rd_some {s : DList α} {a : Nat} {c : Cell α} (h : s.cells a = some c) :
    rd s (some a) = .ok (a, c) := by simp [rd, h]

theorem walk_seg (s : DList α) (g h : List (Nat × α)) (p n : Option Nat)
    (hs : Seg s.cells p (g ++ h) n) : walk s g.length (first (g ++ h) n) = .ok (first h n) := by
  induction g generalizing p with
  | nil => simp [walk]
  | cons x g ih =>
    simp only [List.cons_append, seg_cons] at hs
    have := ih _ hs.2
    simp only [List.length_cons, walk, List.cons_append, first_cons, rd_some hs.1, ok_bind, this]

theorem walk_rep {s : DList α} {g h : List (Nat × α)} (r : Rep s (g ++ h)) :
    walk s g.length s.head = .ok (first h none) := by
  rw [r.head]; exact walk_seg _ _ _ _ _ r.seg

theorem split_at {β : Type} (g : List β) (i : Nat) (h : i < g.length) :
    ∃ l x r, g = l ++ x :: r ∧ l.length = i ∧ g[i]? = some x :=
  ⟨g.take i, g[i], g.drop (i+1), by simp, by simp; omega, by simp [h]⟩

theorem getIndex_rep {s : DList α} {g : List (Nat × α)} (r : Rep s g) (n : Nat) :
    getIndex s n = .ok ((g.map (·.2))[n]?) := by
  unfold getIndex getSize
  rw [r.size]
  by_cases h : n ≥ g.length
  · simp [h]
  · obtain ⟨l, x, t, rfl, hl, hx⟩ := split_at g n (by omega)
    have hs := r.seg
    simp only [seg_append, seg_cons] at hs
    subst hl
    simp only [h, ↓reduceIte, walk_rep r, ok_bind, first_cons, rd_some hs.2.1, pure_eq_ok]
    simp

theorem isEmpty_rep {s : DList α} {g : List (Nat × α)} (r : Rep s g) : isEmpty s = g.isEmpty := by
  unfold isEmpty; rw [r.head]; cases g <;> simp

theorem setNext_eq {s : DList α} {a : Nat} {c : Cell α} (h : s.cells a = some c) (v : Option Nat) :
    setNext s (some a) v = .ok (wr s a { c with next := v }) := by
  simp [setNext, rd_some h]

theorem setPrev_eq {s : DList α} {a : Nat} {c : Cell α} (h : s.cells a = some c) (v : Option Nat) :
    setPrev s (some a) v = .ok (wr s a { c with prev := v }) := by
  simp [setPrev, rd_some h]

/-- appending -/
theorem addBottom_rep {s : DList α} {g : List (Nat × α)} (r : Rep s g) (v : α) :
    ∃ s', addBottom s v = .ok s' ∧ Rep s' (g ++ [(s.fresh, v)]) := by
  unfold addBottom isEmpty build
  rcases List.eq_nil_or_concat g with rfl | ⟨g0, ⟨b, w⟩, rfl⟩
  · obtain ⟨seg, nodup, bound, head, tail, size, own⟩ := r
    simp at head tail size own
    simp only [head, Option.isNone_none, ↓reduceIte, pure_eq_ok, ok_bind]
    refine ⟨_, rfl, ?_⟩
    constructor <;> simp [tail, size]
    intro a c h
    simp only [upd_apply] at h
    split at h
    · assumption
    · exact absurd h (by simp [Option.eq_none_iff_forall_ne_some.2 (own a)])
  · obtain ⟨seg, nodup, bound, head, tail, size, own⟩ := r
    simp only [List.concat_eq_append, seg_append, seg_cons, first_cons, first_nil, seg_nil, and_true,
      last_append, last_cons, last_nil, first_append] at seg bound head tail own
    have hb : b < s.fresh := bound (b, w) (by simp)
    have hne : b ≠ s.fresh := by omega
    have hh : s.head.isNone = false := by rw [head]; cases g0 <;> rfl
    simp only [hh, Bool.false_eq_true, ↓reduceIte, tail]
    rw [setNext_eq (c := ⟨w, none, last none g0⟩) (by simp only [upd_ne _ _ hne]; exact seg.2)]
    simp only [ok_bind, pure_eq_ok]
    refine ⟨_, rfl, ?_⟩
    have n1 : ∀ x ∈ g0, x.1 ≠ b := by
      intro x hx hxb
      simp only [List.concat_eq_append, List.map_append, List.nodup_append] at nodup
      exact nodup.2.2 x.1 (List.mem_map_of_mem hx) b (by simp) hxb
    have n2 : ∀ x ∈ g0, x.1 ≠ s.fresh := by
      intro x hx h; have := bound x (by simp [hx]); omega
    constructor
    · simp only [List.concat_eq_append, wr, seg_append, seg_cons, first_cons, first_nil, seg_nil, and_true,
        last_append, last_cons, last_nil]
      rw [seg_frame _ _ n1, seg_frame _ _ n2]
      simp [seg.1, upd_ne _ _ hne.symm]
    · simp only [List.map_append, List.nodup_append]
      refine ⟨nodup, by simp, ?_⟩
      intro a ha c hc
      obtain ⟨x, hx, rfl⟩ := List.mem_map.1 ha
      simp at hc hx
      rcases hx with hx | rfl
      · have := n2 x hx; omega
      · simp; omega
    · intro x hx
      simp [wr] at hx ⊢
      rcases hx with hx | rfl | rfl
      · have := bound x (by simp [hx]); omega
      · simp; omega
      · simp
    · simp [wr, head]
    · simp [wr]
    · simp [wr, size]
    · intro a c h
      simp only [wr, upd_apply] at h
      split at h
      · rename_i h1; subst h1; exact ⟨w, by simp⟩
      · split at h
        · rename_i h1; subst h1; exact ⟨v, by simp⟩
        · obtain ⟨x, hx⟩ := own a c h
          exact ⟨x, by simpa using Or.elim (by simpa using hx) (fun h => Or.inl h) (fun h => Or.inr (Or.inl h))⟩

/-- inserting at an index below the size, or at index 0 of the empty list -/
theorem addIndex_rep {s : DList α} {g h : List (Nat × α)} (r : Rep s (g ++ h)) (v : α)
    (hh : h ≠ [] ∨ g = []) :
    ∃ s', addIndex s v g.length = .ok s' ∧ Rep s' (g ++ (s.fresh, v) :: h) := by
  unfold addIndex getSize
  have hw := walk_rep r
  have hsz : ¬ g.length > s.size := by rw [r.size]; simp
  simp only [hsz, ↓reduceIte, hw, ok_bind]
  obtain ⟨seg, nodup, bound, head, tail, size, own⟩ := r
  rcases List.eq_nil_or_concat g with rfl | ⟨g0, ⟨b, w⟩, rfl⟩
  · simp only [List.nil_append] at *
    rw [← head]
    simp only [↓reduceIte, build]
    cases h with
    | nil =>
      simp at head tail size own
      simp only [head, pure_eq_ok, ok_bind]
      refine ⟨_, rfl, ?_⟩
      constructor <;> simp [size]
      intro a c h
      simp only [upd_apply] at h
      split at h
      · assumption
      · exact absurd h (by simp [Option.eq_none_iff_forall_ne_some.2 (own a)])
    | cons x h =>
      obtain ⟨b, w⟩ := x
      simp only [seg_cons, first_cons, last_cons] at seg head tail
      have hb : b < s.fresh := bound (b, w) (by simp)
      have hne : b ≠ s.fresh := by omega
      simp only [head]
      rw [setPrev_eq (c := ⟨w, first h none, none⟩) (by simp only [upd_ne _ _ hne]; exact seg.1)]
      simp only [ok_bind, pure_eq_ok]
      refine ⟨_, rfl, ?_⟩
      have n1 : ∀ x ∈ h, x.1 ≠ b := by
        intro x hx hxb
        simp only [List.map_cons, List.nodup_cons] at nodup
        exact nodup.1 (hxb ▸ List.mem_map_of_mem hx)
      have n2 : ∀ x ∈ h, x.1 ≠ s.fresh := by
        intro x hx h; have := bound x (by simp [hx]); omega
      constructor
      · simp only [wr, seg_cons, first_cons]
        rw [seg_frame _ _ n1, seg_frame _ _ n2]
        simp [seg.2, upd_ne _ _ hne.symm]
      · simp only [List.map_cons, List.nodup_cons] at nodup ⊢
        refine ⟨?_, nodup⟩
        intro hm
        rcases List.mem_cons.1 hm with hm | hm
        · exact hne hm.symm
        · obtain ⟨y, hy, hye⟩ := List.mem_map.1 hm
          exact n2 y hy hye
      · intro x hx
        simp [wr] at hx ⊢
        rcases hx with rfl | hx
        · simp
        · have := bound x (by simpa using hx); omega
      · simp [wr]
      · simp [wr, tail]
      · simp [wr, size]
      · intro a c hc
        simp only [wr, upd_apply] at hc
        split at hc
        · rename_i h1; subst h1; exact ⟨w, by simp⟩
        · split at hc
          · rename_i h1; subst h1; exact ⟨v, by simp⟩
          · obtain ⟨y, hy⟩ := own a c hc
            exact ⟨y, List.mem_cons_of_mem _ hy⟩
  · rcases h with _ | ⟨⟨d, x⟩, h⟩
    · simp at hh
    simp only [List.concat_eq_append, List.append_assoc, List.cons_append, List.nil_append, seg_append, seg_cons,
      first_cons, last_append, last_cons, first_append] at *
    obtain ⟨sg0, sb, sd, sh⟩ := seg
    simp only [List.map_append, List.map_cons, List.nodup_append, List.nodup_cons, List.mem_cons, List.mem_map,
      not_or, not_exists, not_and] at nodup
    obtain ⟨nd0, ⟨⟨nbd, nbh⟩, ndh, ndd⟩, n0⟩ := nodup
    have hb : b < s.fresh := bound (b, w) (by simp)
    have hd : d < s.fresh := bound (d, x) (by simp)
    have hbf : b ≠ s.fresh := by omega
    have hdf : d ≠ s.fresh := by omega
    have hsh : ¬ (some d = s.head) := by
      rw [head]; cases g0 with
      | nil => simpa using fun h => nbd h.symm
      | cons y g0 =>
        simp only [first_cons, Option.some.injEq]
        intro e
        exact n0 d (by simp [e]) d (by simp) rfl
    simp only [hsh, ↓reduceIte, build, rd_some sd, ok_bind, last_nil]
    rw [setPrev_eq (c := ⟨x, first h none, some b⟩) (by simp only [upd_ne _ _ hdf]; exact sd)]
    simp only [ok_bind, wr]
    rw [rd_some (c := ⟨v, some d, some b⟩) (by simp only [upd_ne _ _ hdf.symm]; simp)]
    simp only [ok_bind]
    rw [setNext_eq (c := ⟨w, some d, last none g0⟩) (by
      simp only [upd_ne _ _ nbd, upd_ne _ _ hbf]; exact sb)]
    simp only [ok_bind, wr, pure_eq_ok]
    refine ⟨_, rfl, ?_⟩
    have f0 : ∀ y ∈ g0, y.1 ≠ b ∧ y.1 ≠ d ∧ y.1 ≠ s.fresh := by
      intro y hy
      refine ⟨?_, ?_, ?_⟩
      · exact fun e => n0 y.1 ⟨y, hy, rfl⟩ b (by simp) e
      · exact fun e => n0 y.1 ⟨y, hy, rfl⟩ d (by simp) e
      · have := bound y (by simp [hy]); omega
    have f1 : ∀ y ∈ h, y.1 ≠ b ∧ y.1 ≠ d ∧ y.1 ≠ s.fresh := by
      intro y hy
      refine ⟨nbh y hy, ndh y hy, ?_⟩
      have := bound y (by simp [hy]); omega
    constructor
    · simp only [seg_append, seg_cons, first_cons, last_cons]
      rw [seg_frame _ _ (fun y hy => (f0 y hy).1), seg_frame _ _ (fun y hy => (f0 y hy).2.1),
        seg_frame _ _ (fun y hy => (f0 y hy).2.2), seg_frame _ _ (fun y hy => (f1 y hy).1),
        seg_frame _ _ (fun y hy => (f1 y hy).2.1), seg_frame _ _ (fun y hy => (f1 y hy).2.2)]
      simp [sg0, sh, upd_ne _ _ hdf.symm, upd_ne _ _ hbf.symm, upd_ne _ _ (Ne.symm nbd)]
    · simp only [List.map_append, List.map_cons, List.nodup_append, List.nodup_cons, List.mem_cons, List.mem_map,
        not_or, not_exists, not_and]
      refine ⟨nd0, ⟨⟨hbf, nbd, nbh⟩, ⟨hdf.symm, ?_⟩, ndh, ndd⟩, ?_⟩
      · exact fun y hy => (f1 y hy).2.2
      · rintro a ha c (rfl | rfl | rfl | hc)
        · exact n0 a ha _ (by simp)
        · obtain ⟨y, hy, rfl⟩ := ha; exact (f0 y hy).2.2
        · exact n0 a ha _ (by simp)
        · exact n0 a ha _ (by simp [hc])
    · intro y hy
      simp only [List.mem_append, List.mem_cons] at hy
      rcases hy with hy | rfl | rfl | rfl | hy
      · have := bound y (by simp [hy]); simp; omega
      · simp; omega
      · simp
      · simp; omega
      · have := bound y (by simp [hy]); simp; omega
    · simp [head]
    · simp [tail]
    · simp [size]; omega
    · intro a c hc
      simp only [upd_apply] at hc
      split at hc
      · rename_i h1; subst h1; exact ⟨w, by simp⟩
      · split at hc
        · rename_i h1; subst h1; exact ⟨x, by simp⟩
        · split at hc
          · rename_i h1; subst h1; exact ⟨v, by simp⟩
          · obtain ⟨y, hy⟩ := own a c hc
            refine ⟨y, ?_⟩
            simp only [List.mem_append, List.mem_cons] at hy ⊢
            tauto

/-- erasing at an index below the size -/
theorem deleteIndex_rep {s : DList α} {g h : List (Nat × α)} {x : Nat × α} (r : Rep s (g ++ x :: h)) :
    ∃ s', deleteIndex s g.length = .ok s' ∧ Rep s' (g ++ h) := by
  unfold deleteIndex getSize
  have hw := walk_rep r
  have he := isEmpty_rep r
  have hsz : ¬ g.length ≥ s.size := by rw [r.size]; simp
  have he' : isEmpty s = false := by rw [he]; cases g <;> rfl
  simp only [he', hsz, decide_false, Bool.or_self, Bool.false_eq_true, ↓reduceIte, hw, ok_bind, first_cons]
  obtain ⟨seg, nodup, bound, head, tail, size, own⟩ := r
  obtain ⟨d, x⟩ := x
  rcases List.eq_nil_or_concat g with rfl | ⟨g0, ⟨b, w⟩, rfl⟩
  · simp only [List.nil_append, seg_cons, first_cons, last_cons] at *
    simp only [List.map_cons, List.nodup_cons, List.mem_map, not_exists, not_and] at nodup
    obtain ⟨nd, ndh⟩ := nodup
    simp only [rd_some seg.1, ok_bind, head]
    cases h with
    | nil =>
      simp only [last_nil] at tail
      simp only [tail, ne_eq, not_true_eq_false, ↓reduceIte, pure_eq_ok, ok_bind, free]
      refine ⟨_, rfl, ?_⟩
      constructor <;> simp [size]
      intro a
      simp only [upd_apply]
      split
      · simp
      · rename_i hne
        intro c hc
        obtain ⟨y, hy⟩ := own a c hc
        simp at hy; exact hne hy.1
    | cons y h =>
      obtain ⟨b, w⟩ := y
      have hbd : b ≠ d := nd (b, w) (by simp)
      simp only [seg_cons, first_cons, last_cons] at seg tail
      have ht : ¬ (some d = s.tail) := by
        rw [tail]
        rcases List.eq_nil_or_concat h with rfl | ⟨h0, z, rfl⟩
        · simpa using hbd.symm
        · simp only [List.concat_eq_append, last_append, last_cons, last_nil, Option.some.injEq]
          exact fun e => nd z (by simp) e.symm
      simp only [ne_eq, not_true_eq_false, ↓reduceIte, ht, rd_some seg.1, ok_bind, first_cons]
      rw [setPrev_eq (c := ⟨w, first h none, some d⟩) (by exact seg.2.1)]
      simp only [ok_bind, pure_eq_ok, free, wr]
      refine ⟨_, rfl, ?_⟩
      have f1 : ∀ y ∈ h, y.1 ≠ b ∧ y.1 ≠ d := by
        intro y hy
        refine ⟨?_, nd y (by simp [hy])⟩
        intro e
        simp only [List.map_cons, List.nodup_cons] at ndh
        exact ndh.1 (e ▸ List.mem_map_of_mem hy)
      constructor
      · simp only [seg_cons]
        rw [seg_frame _ _ (fun y hy => (f1 y hy).2), seg_frame _ _ (fun y hy => (f1 y hy).1)]
        simp [upd_ne _ _ hbd, seg.2.2]
      · exact ndh
      · intro y hy; exact bound y (by simp only [List.mem_cons] at hy ⊢; tauto)
      · simp
      · simp [tail]
      · simp [size]
      · intro a c hc
        simp only [upd_apply] at hc
        split at hc
        · simp at hc
        · rename_i h1
          split at hc
          · rename_i h2; subst h2; exact ⟨w, by simp⟩
          · obtain ⟨y, hy⟩ := own a c hc
            refine ⟨y, ?_⟩
            simp only [List.mem_cons, Prod.mk.injEq] at hy ⊢
            tauto
  · simp only [List.concat_eq_append, List.append_assoc, List.cons_append, List.nil_append, seg_append, seg_cons,
      first_cons, last_append, last_cons, last_nil, first_append] at *
    obtain ⟨sg0, sb, sd, sh⟩ := seg
    simp only [List.map_append, List.map_cons, List.nodup_append, List.nodup_cons, List.mem_cons, List.mem_map,
      not_or, not_exists, not_and] at nodup
    obtain ⟨nd0, ⟨⟨nbd, nbh⟩, ndh, ndd⟩, n0⟩ := nodup
    have hsh : ¬ (some d = s.head) := by
      rw [head]; cases g0 with
      | nil => simpa using fun h => nbd h.symm
      | cons y g0 =>
        simp only [first_cons, Option.some.injEq]
        intro e
        exact n0 d (by simp [e]) d (by simp) rfl
    have f0 : ∀ y ∈ g0, y.1 ≠ b ∧ y.1 ≠ d := by
      intro y hy
      exact ⟨fun e => n0 y.1 ⟨y, hy, rfl⟩ b (by simp) e, fun e => n0 y.1 ⟨y, hy, rfl⟩ d (by simp) e⟩
    simp only [rd_some sd, ok_bind, ne_eq, hsh, not_false_eq_true, ↓reduceIte]
    rw [setNext_eq (c := ⟨w, some d, last none g0⟩) sb]
    simp only [ok_bind, wr]
    cases h with
    | nil =>
      simp only [first_nil, last_nil] at *
      simp only [pure_eq_ok, ok_bind, free]
      refine ⟨_, rfl, ?_⟩
      constructor
      · simp only [seg_append, seg_cons, first_cons, first_nil, seg_nil, and_true]
        rw [seg_frame _ _ (fun y hy => (f0 y hy).2), seg_frame _ _ (fun y hy => (f0 y hy).1)]
        simp [sg0, upd_ne _ _ nbd]
      · simp only [List.map_append, List.map_cons, List.nodup_append]
        exact ⟨nd0, by simp, fun a ha c hc => n0 a (by simpa using ha) c (by simp at hc; simp [hc])⟩
      · intro y hy; exact bound y (by simp only [List.mem_append, List.mem_cons] at hy ⊢; tauto)
      · simp [head]
      · simp
      · simp [size]
      · intro a c hc
        simp only [upd_apply] at hc
        split at hc
        · simp at hc
        · rename_i h1
          split at hc
          · rename_i h2; subst h2; exact ⟨w, by simp⟩
          · obtain ⟨y, hy⟩ := own a c hc
            refine ⟨y, ?_⟩
            simp only [List.mem_append, List.mem_cons, Prod.mk.injEq] at hy ⊢
            tauto
    | cons z h =>
      obtain ⟨e, z⟩ := z
      simp only [first_cons, seg_cons, last_cons] at *
      simp only [List.map_cons, List.nodup_cons] at ndd
      have hed : e ≠ d := ndh (e, z) (by simp)
      have heb : e ≠ b := nbh (e, z) (by simp)
      rw [setPrev_eq (c := ⟨z, first h none, some d⟩) (by simp only [upd_ne _ _ heb]; exact sh.1)]
      simp only [ok_bind, pure_eq_ok, free, wr]
      refine ⟨_, rfl, ?_⟩
      have f1 : ∀ y ∈ h, y.1 ≠ b ∧ y.1 ≠ d ∧ y.1 ≠ e := by
        intro y hy
        refine ⟨nbh y (by simp [hy]), ndh y (by simp [hy]), ?_⟩
        intro e'
        exact ndd.1 (e' ▸ List.mem_map_of_mem hy)
      have f2 : ∀ y ∈ g0, y.1 ≠ e := fun y hy ee => n0 y.1 ⟨y, hy, rfl⟩ e (by simp) ee
      constructor
      · simp only [seg_append, seg_cons, first_cons, last_cons]
        rw [seg_frame _ _ (fun y hy => (f0 y hy).2), seg_frame _ _ f2,
          seg_frame _ _ (fun y hy => (f0 y hy).1),
          seg_frame _ _ (fun y hy => (f1 y hy).2.1), seg_frame _ _ (fun y hy => (f1 y hy).2.2),
          seg_frame _ _ (fun y hy => (f1 y hy).1)]
        simp [sg0, upd_ne _ _ nbd, upd_ne _ _ hed, upd_ne _ _ heb.symm, sh.2]
      · simp only [List.map_append, List.map_cons, List.nodup_append, List.nodup_cons, List.mem_cons, List.mem_map,
          not_or, not_exists, not_and]
        refine ⟨nd0, ⟨⟨heb.symm, fun y hy => (f1 y hy).1⟩, fun y hy => (f1 y hy).2.2, ndd.2⟩, ?_⟩
        rintro a ha c (rfl | rfl | hc)
        · exact n0 a ha _ (by simp)
        · exact n0 a ha _ (by simp)
        · exact n0 a ha _ (by simp [hc])
      · intro y hy; exact bound y (by simp only [List.mem_append, List.mem_cons] at hy ⊢; tauto)
      · simp [head]
      · simp [tail]
      · simp [size]
      · intro a c hc
        simp only [upd_apply] at hc
        split at hc
        · simp at hc
        · rename_i h1
          split at hc
          · rename_i h2; subst h2; exact ⟨z, by simp⟩
          · split at hc
            · rename_i h2; subst h2; exact ⟨w, by simp⟩
            · obtain ⟨y, hy⟩ := own a c hc
              refine ⟨y, ?_⟩
              simp only [List.mem_append, List.mem_cons, Prod.mk.injEq] at hy ⊢
              tauto

theorem deleteBottom_rep {s : DList α} {g : List (Nat × α)} {x y : Nat × α} (r : Rep s (g ++ [x, y])) :
    ∃ s', deleteBottom s = .ok s' ∧ Rep s' (g ++ [x]) := by
  -- same effect as deleteIndex at the last index
  obtain ⟨s', h, r'⟩ := deleteIndex_rep (g := g ++ [x]) (h := []) (x := y) (by simpa using r)
  refine ⟨s', ?_, by simpa using r'⟩
  rw [← h]
  have hw := walk_rep (g := g ++ [x]) (h := [y]) (by simpa using r)
  have he := isEmpty_rep r
  unfold deleteBottom deleteIndex getSize
  have hsz : ¬ (g ++ [x]).length ≥ s.size := by rw [r.size]; simp
  have he' : isEmpty s = false := by rw [he]; cases g <;> rfl
  simp only [he', hsz, decide_false, Bool.or_self, Bool.false_eq_true, ↓reduceIte, hw, ok_bind, first_cons]
  have hs := r.seg
  simp only [seg_append, seg_cons, first_cons, first_nil, seg_nil, and_true] at hs
  have ht : s.tail = some y.1 := by rw [r.tail]; simp
  have hn := r.nodup
  simp only [List.map_append, List.map_cons, List.nodup_append, List.map_nil] at hn
  have hh : ¬ some y.1 = s.head := by
    rw [r.head]
    cases g with
    | nil => simp at hn ⊢; exact fun e => hn e.symm
    | cons z g =>
      simp only [List.cons_append, first_cons, Option.some.injEq]
      exact fun e => hn.2.2 z.1 (by simp) y.1 (by simp) e.symm
  simp only [ht, rd_some hs.2.2, ok_bind, ne_eq, hh, not_false_eq_true, ↓reduceIte]
  rw [setNext_eq (s := s) (c := ⟨x.2, some y.1, last none g⟩) hs.2.1,
    setNext_eq (s := { s with tail := some x.1 }) (c := ⟨x.2, some y.1, last none g⟩) hs.2.1]
  rfl

/-- `delete_list_elem_bottom` on a one-element list dereferences NULL. -/
theorem deleteBottom_single {s : DList α} {x : Nat × α} (r : Rep s [x]) :
    deleteBottom s = .error .null := by
  have hs := r.seg
  simp only [seg_cons, first_nil, seg_nil, and_true] at hs
  have ht : s.tail = some x.1 := by rw [r.tail]; simp
  have he : isEmpty s = false := by rw [isEmpty_rep r]; rfl
  simp [deleteBottom, he, ht, hs, setNext, rd]

theorem delList_seg (s : DList α) (g : List (Nat × α)) (p : Option Nat) (n : Nat) (hn : g.length ≤ n)
    (hs : Seg s.cells p g none) (nd : (g.map (·.1)).Nodup) :
    ∃ s', delList s n (first g none) = .ok s' ∧ ∀ a, s'.cells a = if a ∈ g.map (·.1) then none else s.cells a := by
  induction g generalizing s p n with
  | nil => exact ⟨s, by cases n <;> simp [delList], by simp⟩
  | cons x g ih =>
    simp only [seg_cons, List.map_cons, List.nodup_cons] at hs nd
    cases n with
    | zero => simp at hn
    | succ n =>
      simp only [first_cons, delList, rd_some hs.1, ok_bind]
      have hx : ∀ y ∈ g, y.1 ≠ x.1 := fun y hy e => nd.1 (e ▸ List.mem_map_of_mem hy)
      obtain ⟨s', h1, h2⟩ := ih (free s x.1) (some x.1) n (by simpa using hn)
        (by simpa only [free, seg_frame _ _ hx] using hs.2) nd.2
      refine ⟨s', h1, ?_⟩
      intro a
      rw [h2]
      simp only [free, upd_apply, List.map_cons, List.mem_cons]
      by_cases ha : a = x.1
      · simp [ha]
      · simp only [ha, ↓reduceIte, false_or]

theorem spIsEmpty_rep {s : DList α} {g : List (Nat × α)} (r : Rep s g) : spIsEmpty s = isEmpty s := by
  rw [isEmpty_rep r, spIsEmpty, r.size]; cases g <;> simp

theorem spAddBottom_eq {s : DList α} {g : List (Nat × α)} (r : Rep s g) (v : α) :
    spAddBottom s v = addBottom s v := by
  unfold spAddBottom addBottom; rw [spIsEmpty_rep r]

theorem spDeleteIndex_eq {s : DList α} {g : List (Nat × α)} (r : Rep s g) (i : Nat) :
    spDeleteIndex s i = deleteIndex s i := by
  unfold spDeleteIndex deleteIndex; rw [spIsEmpty_rep r]

end Verif.Dll
