import Verif.Proofs.Tree
import Mathlib.Tactic.Linarith
import Mathlib.Algebra.BigOperators.Group.Finset.Piecewise
import Mathlib.Algebra.Order.BigOperators.Group.Finset

/-!
# Swapping edges of spanning sets; forced edges
-/
namespace Verif.Spec
set_option autoImplicit false

variable {V : Finset Nat} {E F S T M : EdgeSet}

/-- a spanning set keeps spanning when an edge `xy`, on the way from `u` to `v`, is replaced by `uv` -/
theorem Span.swap (hS : Span V E S) {u v x y : Nat} (he : s(u, v) ∈ E) (hn : s(u, v) ∉ S) (hxy : s(x, y) ∈ S)
    (h1 : Conn (S.erase s(x, y)) u x) (h2 : Conn (S.erase s(x, y)) y v) :
    Span V E (insert s(u, v) (S.erase s(x, y))) ∧ ∀ w : Sym2 Nat → ℚ, total w (insert s(u, v) (S.erase s(x, y))) = total w S + w s(u, v) - w s(x, y) := by
  have hne : s(u, v) ∉ S.erase s(x, y) := fun h => hn (Finset.mem_of_mem_erase h)
  have hsub : S.erase s(x, y) ⊆ insert s(u, v) (S.erase s(x, y)) := Finset.subset_insert _ _
  have hxy' : Conn (insert s(u, v) (S.erase s(x, y))) x y :=
    (h1.mono hsub).symm'.trans' ((Conn.edge (Finset.mem_insert_self _ _)).trans' (h2.mono hsub).symm')
  refine ⟨⟨?_, ?_, ?_⟩, ?_⟩
  · exact Finset.insert_subset he ((Finset.erase_subset _ _).trans hS.sub)
  · intro a ha b hb
    refine Conn.lift ?_ (hS.conn a ha b hb)
    intro p q hpq
    by_cases h : s(p, q) = s(x, y)
    · rw [Sym2.eq_iff] at h
      rcases h with ⟨rfl, rfl⟩ | ⟨rfl, rfl⟩
      · exact hxy'
      · exact hxy'.symm'
    · exact Conn.edge (hsub (Finset.mem_erase.2 ⟨h, hpq⟩))
  · have := hS.card
    rw [Finset.card_insert_of_notMem hne, Finset.card_erase_of_mem hxy]
    have := Finset.card_pos.2 ⟨_, hxy⟩; omega
  · intro w
    unfold total
    rw [Finset.sum_insert hne]
    have := Finset.sum_erase_add S w hxy
    linarith

/-- across any cut separating `u` from `v` there is an edge of `S` that `uv` can replace -/
theorem Span.swap_cut (hS : Span V E S) (C : Nat → Prop) {u v : Nat} (huV : u ∈ V) (hvV : v ∈ V) (hu : C u) (hv : ¬ C v)
    (he : s(u, v) ∈ E) (hn : s(u, v) ∉ S) :
    ∃ x y, s(x, y) ∈ S ∧ C x ∧ ¬ C y ∧ Span V E (insert s(u, v) (S.erase s(x, y))) ∧
      ∀ w : Sym2 Nat → ℚ, total w (insert s(u, v) (S.erase s(x, y))) = total w S + w s(u, v) - w s(x, y) := by
  obtain ⟨x, y, hxy, hx, hy, h1, h2⟩ := crossing C _ S rfl u v hu hv (hS.conn u huV v hvV)
  have := hS.swap he hn hxy h1 h2
  exact ⟨x, y, hxy, hx, hy, this.1, this.2⟩

/-- the weights with the edges of `M` set to `low` -/
def forced (w : Sym2 Nat → ℚ) (M : EdgeSet) (low : ℚ) (e : Sym2 Nat) : ℚ := if e ∈ M then low else w e

theorem total_forced (w : Sym2 Nat → ℚ) (M : EdgeSet) (low : ℚ) (S : EdgeSet) :
    total (forced w M low) S = total w S - ∑ e ∈ S ∩ M, (w e - low) := by
  unfold total forced
  rw [Finset.sum_ite, Finset.sum_sub_distrib]
  have h1 : S.filter (fun e => e ∈ M) = S ∩ M := by ext; simp
  have h2 := Finset.sum_filter_add_sum_filter_not S (fun e => e ∈ M) w
  rw [h1] at h2 ⊢
  linarith

/-- a cheapest spanning set for the forced weights contains the forced edges, if these have no cycle and the others are
heavier -/
theorem Span.contains_forced {w : Sym2 Nat → ℚ} {low : ℚ} (hE : Within V E) (hT : Span V E T)
    (hmin : ∀ S, Span V E S → total (forced w M low) T ≤ total (forced w M low) S) (hM : M ⊆ E) (hac : Acyclic M)
    (hlow : ∀ e ∈ E, e ∉ M → low < w e) : M ⊆ T := by
  intro m hm
  by_contra hmT
  induction m using Sym2.ind with
  | _ u v =>
    have hV := hE u v (hM hm)
    obtain ⟨x, y, hxy, hx, hy, hsp, htot⟩ := hT.swap_cut (fun z => Conn (M.erase s(u, v)) u z) hV.1 hV.2 (Conn.refl' _ _)
      (hac u v hm) (hM hm) hmT
    have hxyM : s(x, y) ∉ M := by
      intro h
      have hne : s(x, y) ≠ s(u, v) := by intro h'; rw [h'] at hxy; exact hmT hxy
      exact hy (hx.trans' (Conn.edge (Finset.mem_erase.2 ⟨hne, h⟩)))
    have h1 := hmin _ hsp
    rw [htot] at h1
    have h2 : forced w M low s(u, v) = low := if_pos hm
    have h3 : forced w M low s(x, y) = w s(x, y) := if_neg hxyM
    have := hlow _ (hT.sub hxy) hxyM
    linarith

/-- and is then cheapest for the true weights among those that contain them -/
theorem forced_minimum {w : Sym2 Nat → ℚ} {low : ℚ} {S : EdgeSet} (hM : M ⊆ T) (hS : M ⊆ S)
    (h : total (forced w M low) T ≤ total (forced w M low) S) : total w T ≤ total w S := by
  rw [total_forced, total_forced, Finset.inter_eq_right.2 hM, Finset.inter_eq_right.2 hS] at h
  linarith

/-- even with cycles: cheaper than any spanning set that contains the forced edges, if these do not weigh less than `low` -/
theorem forced_lower {w : Sym2 Nat → ℚ} {low : ℚ} {S : EdgeSet} (hS : M ⊆ S) (hlow : ∀ e ∈ M, low ≤ w e)
    (h : total (forced w M low) T ≤ total (forced w M low) S) : total w T ≤ total w S := by
  rw [total_forced, total_forced, Finset.inter_eq_right.2 hS] at h
  have hle : ∑ e ∈ T ∩ M, (w e - low) ≤ ∑ e ∈ M, (w e - low) := by
    apply Finset.sum_le_sum_of_subset_of_nonneg Finset.inter_subset_right
    intro e he _
    have := hlow e he; linarith
  linarith

end Verif.Spec
