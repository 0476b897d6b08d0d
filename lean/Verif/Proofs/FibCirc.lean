import Verif.Base

/-! Circular doubly linked lists, for the Fibonacci heap proofs. -/
namespace Verif.Fib
open Verif
set_option autoImplicit false

/-- `a → L → b` is a doubly linked path -/
def Seg (R Lf : Nat → Nat) (a : Nat) : List Nat → Nat → Prop
  | [], b => R a = b ∧ Lf b = a
  | x :: L, b => R a = x ∧ Lf x = a ∧ Seg R Lf x L b

/-- `L` is a circular doubly linked list -/
def Circ (R Lf : Nat → Nat) : List Nat → Prop
  | [] => True
  | a :: t => Seg R Lf a t a

variable {R Lf : Nat → Nat}

@[simp] theorem seg_nil (a b : Nat) : Seg R Lf a [] b ↔ R a = b ∧ Lf b = a := Iff.rfl
@[simp] theorem seg_cons (a b x : Nat) (L : List Nat) :
    Seg R Lf a (x :: L) b ↔ R a = x ∧ Lf x = a ∧ Seg R Lf x L b := Iff.rfl
@[simp] theorem circ_nil : Circ R Lf [] := trivial
@[simp] theorem circ_cons (a : Nat) (t : List Nat) : Circ R Lf (a :: t) ↔ Seg R Lf a t a := Iff.rfl

@[simp] theorem seg_append (a b x : Nat) (L M : List Nat) :
    Seg R Lf a (L ++ x :: M) b ↔ Seg R Lf a L x ∧ Seg R Lf x M b := by
  induction L generalizing a with
  | nil => simp [and_assoc]
  | cons y L ih => simp [ih, and_assoc]

theorem seg_frameR {p v a b : Nat} {L : List Nat} (h : p ∉ a :: L) :
    Seg (upd R p v) Lf a L b ↔ Seg R Lf a L b := by
  induction L generalizing a with
  | nil => simp at h; simp [upd_ne _ _ (Ne.symm h)]
  | cons x L ih =>
    simp only [List.mem_cons, not_or] at h
    simp only [seg_cons, upd_ne _ _ (Ne.symm h.1)]
    rw [ih (by simp [h.2])]

theorem seg_frameL {p v a b : Nat} {L : List Nat} (h : p ∉ L) (hb : p ≠ b) :
    Seg R (upd Lf p v) a L b ↔ Seg R Lf a L b := by
  induction L generalizing a with
  | nil => simp [upd_ne _ _ (Ne.symm hb)]
  | cons x L ih =>
    simp only [List.mem_cons, not_or] at h
    simp only [seg_cons, upd_ne _ _ (Ne.symm h.1)]
    rw [ih h.2]

theorem circ_frameR {p v : Nat} {L : List Nat} (h : p ∉ L) : Circ (upd R p v) Lf L ↔ Circ R Lf L := by
  cases L with
  | nil => simp
  | cons a t => simp only [circ_cons]; exact seg_frameR h

theorem circ_frameL {p v : Nat} {L : List Nat} (h : p ∉ L) : Circ R (upd Lf p v) L ↔ Circ R Lf L := by
  cases L with
  | nil => simp
  | cons a t =>
    simp only [List.mem_cons, not_or] at h
    simp only [circ_cons]; exact seg_frameL h.2 h.1

theorem circ_rotate (A B : List Nat) : Circ R Lf (A ++ B) ↔ Circ R Lf (B ++ A) := by
  cases A with
  | nil => simp
  | cons a A =>
    cases B with
    | nil => simp
    | cons b B => simp only [List.cons_append, circ_cons, seg_append]; exact And.comm

theorem circ_append {L : List Nat} {c h t : Nat} (nd : L.Nodup) (hc : c ∉ L)
    (hL : Circ R Lf L ∨ L.length = 1) (hh : L.head? = some h) (ht : L.getLast? = some t) :
    Circ (upd (upd R t c) c h) (upd (upd Lf h c) c t) (L ++ [c]) := by
  cases L with
  | nil => simp at hh
  | cons a M =>
    simp at hh; subst hh
    rcases List.eq_nil_or_concat M with rfl | ⟨M0, t', rfl⟩
    · simp at ht; subst ht
      simp at hc
      simp [upd_apply, Ne.symm hc]
    · have : t' = t := by
        rw [List.concat_eq_append, ← List.cons_append, List.getLast?_append] at ht; simpa using ht
      subst this
      simp at hL
      simp only [List.concat_eq_append, List.nodup_cons, List.nodup_append, List.mem_append, List.mem_cons,
        List.not_mem_nil, or_false, not_or] at nd hc
      obtain ⟨hca, hcM, hct⟩ := hc
      obtain ⟨⟨haM, hat⟩, _, _, hMt⟩ := nd
      have htM : t' ∉ M0 := fun h => hMt t' h t' (by simp) rfl
      simp only [List.concat_eq_append, List.append_assoc, List.cons_append, List.nil_append, circ_cons, seg_append,
        seg_cons, seg_nil]
      refine ⟨?_, ?_, ?_, ?_, ?_⟩
      · rw [seg_frameR (by simp [hca, hcM]), seg_frameR (by simp [Ne.symm hat, htM]),
          seg_frameL hcM hct, seg_frameL haM hat]
        exact hL.1
      · rw [upd_ne _ _ (Ne.symm hct)]; simp
      · simp
      · simp
      · rw [upd_ne _ _ (Ne.symm hca)]; simp

theorem circ_remove {A B : List Nat} {x : Nat} (nd : (A ++ x :: B).Nodup) (hc : Circ R Lf (A ++ x :: B))
    (hne : A ++ B ≠ []) :
    Circ (upd R (Lf x) (R x)) (upd Lf (R x) (Lf x)) (A ++ B) ∧ R x ∈ A ++ B ∧ Lf x ∈ A ++ B := by
  have nd' : (x :: (B ++ A)).Nodup := by
    have : (x :: (B ++ A)).Perm (A ++ x :: B) := by
      have := List.perm_append_comm (l₁ := A) (l₂ := x :: B)
      simpa using this.symm
    exact this.nodup_iff.2 nd
  rw [circ_rotate] at hc
  rw [circ_rotate A B]
  simp only [List.cons_append] at hc
  have hm : ∀ z, z ∈ A ++ B ↔ z ∈ B ++ A := by intro z; simp [or_comm]
  rw [hm, hm]
  have hne' : B ++ A ≠ [] := by intro h; apply hne; simp at h ⊢; exact h.symm
  generalize B ++ A = K at *
  cases K with
  | nil => simp at hne'
  | cons c M =>
    simp only [circ_cons, seg_cons] at hc
    obtain ⟨h1, h2, h3⟩ := hc
    simp only [List.nodup_cons, List.mem_cons, not_or] at nd'
    obtain ⟨⟨hxc, hxM⟩, hcM, ndM⟩ := nd'
    rcases List.eq_nil_or_concat M with rfl | ⟨M0, l, rfl⟩
    · simp at h3
      simp [h1, h3.2]
    · simp only [List.concat_eq_append, seg_append, seg_nil, List.mem_append, List.mem_cons, List.not_mem_nil, or_false,
        not_or, List.nodup_append] at *
      obtain ⟨h3, h4, h5⟩ := h3
      rw [h1, h5]
      have hlM : l ∉ M0 := fun h => ndM.2.2 l h l (by simp) rfl
      refine ⟨?_, by simp, by simp⟩
      simp only [circ_cons, seg_append, seg_nil]
      refine ⟨?_, by simp, by simp⟩
      rw [seg_frameR (by simp [Ne.symm hcM.2, hlM]), seg_frameL hcM.1 hcM.2]
      exact h3

theorem circ_next {A B : List Nat} {x y : Nat} (hc : Circ R Lf (A ++ x :: y :: B)) : R x = y ∧ Lf y = x := by
  rw [circ_rotate] at hc
  simp only [List.cons_append, circ_cons, seg_cons] at hc
  exact ⟨hc.1, hc.2.1⟩

theorem circ_head_next {x y : Nat} {B : List Nat} (hc : Circ R Lf (x :: y :: B)) : R x = y :=
  (circ_next (A := []) hc).1

theorem circ_last_prev {A : List Nat} {x y : Nat} (hc : Circ R Lf (A ++ [x, y])) : Lf y = x :=
  (circ_next hc).2

theorem circ_single {x : Nat} (hc : Circ R Lf [x]) : R x = x ∧ Lf x = x := by simpa using hc

end Verif.Fib
