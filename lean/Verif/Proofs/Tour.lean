import Verif.Spec.Tour
import Verif.Proofs.Constrained

/-!
# Facts about tours
-/
namespace Verif.Spec
set_option autoImplicit false

/-- consecutive pairs of a path -/
def pathE : List Nat → List (Sym2 Nat)
  | [] => []
  | [_] => []
  | a :: b :: l => s(a, b) :: pathE (b :: l)

theorem steps_cons (a : Nat) (p : List Nat) : steps (a :: p) = pathE (a :: p) ++ [s((a :: p).getLast (by simp), a)] := by
  unfold steps
  rw [List.rotate_cons_succ, List.rotate_zero]
  have key : ∀ (p : List Nat) (x : Nat), List.zipWith (fun a b => s(a, b)) (x :: p) (p ++ [a]) = pathE (x :: p) ++ [s((x :: p).getLast (by simp), a)] := by
    intro p
    induction p with
    | nil => intro x; simp [pathE]
    | cons y p ih =>
      intro x
      rw [List.cons_append, List.zipWith_cons_cons, ih y, pathE]
      simp
  exact key p a

theorem steps_rotate (t : List Nat) (k : Nat) : steps (t.rotate k) = (steps t).rotate k := by
  unfold steps
  rw [List.zipWith_rotate_distrib _ _ _ _ (by simp)]
  congr 1
  rw [List.rotate_rotate, List.rotate_rotate, Nat.add_comm]

theorem tourEdges_rotate (t : List Nat) (k : Nat) : tourEdges (t.rotate k) = tourEdges t := by
  unfold tourEdges
  rw [steps_rotate]
  ext e; simp

theorem tourCost_rotate (w : Sym2 Nat → ℚ) (t : List Nat) (k : Nat) : tourCost w (t.rotate k) = tourCost w t := by
  unfold tourCost
  rw [steps_rotate]
  exact List.Perm.sum_eq ((List.rotate_perm _ _).map w)

theorem IsTour.nodup {n : Nat} {t : List Nat} (h : IsTour n t) : t.Nodup := h.nodup_iff.2 List.nodup_range
theorem IsTour.length {n : Nat} {t : List Nat} (h : IsTour n t) : t.length = n := by rw [h.length_eq, List.length_range]
theorem IsTour.mem {n : Nat} {t : List Nat} (h : IsTour n t) {i : Nat} : i ∈ t ↔ i < n := by rw [h.mem_iff, List.mem_range]

theorem isTour_of {n : Nat} {t : List Nat} (nd : t.Nodup) (hl : t.length = n) (hlt : ∀ i ∈ t, i < n) : IsTour n t := by
  have hsub : t ⊆ List.range n := fun i hi => List.mem_range.2 (hlt i hi)
  exact (List.subperm_of_subset nd hsub).perm_of_length_le (by simp [hl])

/-- start the tour anywhere -/
theorem IsTour.from {n : Nat} {t : List Nat} (h : IsTour n t) {u : Nat} (hu : u < n) :
    ∃ p, IsTour n (u :: p) ∧ tourEdges (u :: p) = tourEdges t ∧ ∀ w, tourCost w (u :: p) = tourCost w t := by
  have hmem : u ∈ t := h.mem.2 hu
  obtain ⟨a, b, rfl⟩ := List.append_of_mem hmem
  refine ⟨b ++ a, ?_, ?_, ?_⟩
  · have : (u :: (b ++ a)) = (a ++ u :: b).rotate a.length := by rw [List.rotate_append_length_eq]; rfl
    rw [this]; exact (List.rotate_perm _ _).trans h
  · have : (u :: (b ++ a)) = (a ++ u :: b).rotate a.length := by rw [List.rotate_append_length_eq]; rfl
    rw [this, tourEdges_rotate]
  · intro w
    have : (u :: (b ++ a)) = (a ++ u :: b).rotate a.length := by rw [List.rotate_append_length_eq]; rfl
    rw [this, tourCost_rotate]

theorem pathE_mem {p : List Nat} {e : Sym2 Nat} (h : e ∈ pathE p) : ∀ x ∈ e, x ∈ p := by
  induction p with
  | nil => simp [pathE] at h
  | cons a p ih =>
    cases p with
    | nil => simp [pathE] at h
    | cons b p =>
      rw [pathE, List.mem_cons] at h
      intro x hx
      rcases h with rfl | h
      · rw [Sym2.mem_iff] at hx; rcases hx with rfl | rfl <;> simp
      · exact List.mem_cons_of_mem _ (ih h x hx)

theorem pathE_loopless {p : List Nat} (nd : p.Nodup) {u : Nat} : s(u, u) ∉ pathE p := by
  induction p with
  | nil => simp [pathE]
  | cons a p ih =>
    cases p with
    | nil => simp [pathE]
    | cons b p =>
      rw [pathE, List.mem_cons]
      rintro (h | h)
      · rw [Sym2.eq_iff] at h
        have : a = b := by omega
        subst this; simp at nd
      · exact ih (List.nodup_cons.1 nd).2 h

theorem pathE_nodup {p : List Nat} (nd : p.Nodup) : (pathE p).Nodup := by
  induction p with
  | nil => simp [pathE]
  | cons a p ih =>
    cases p with
    | nil => simp [pathE]
    | cons b p =>
      rw [pathE, List.nodup_cons]
      refine ⟨fun h => ?_, ih (List.nodup_cons.1 nd).2⟩
      exact (List.nodup_cons.1 nd).1 (pathE_mem h a (by simp))

theorem pathE_length {p : List Nat} : (pathE p).length = p.length - 1 := by
  induction p with
  | nil => rfl
  | cons a p ih =>
    cases p with
    | nil => rfl
    | cons b p => rw [pathE, List.length_cons, ih]; simp

theorem pathE_conn {p : List Nat} : ∀ a, p.head? = some a → ∀ b ∈ p, Conn (pathE p).toFinset a b := by
  induction p with
  | nil => intro a h; simp at h
  | cons x p ih =>
    intro a h b hb
    simp at h; subst h
    cases p with
    | nil => simp at hb; subst hb; exact Conn.refl' _ _
    | cons y p =>
      rcases List.mem_cons.1 hb with rfl | hb
      · exact Conn.refl' _ _
      · have h1 : Conn (pathE (x :: y :: p)).toFinset x y := Conn.edge (by simp [pathE])
        refine h1.trans' ((ih y rfl b hb).mono ?_)
        intro e he; simp [pathE] at he ⊢; exact Or.inr he

/-- what a set of edges must satisfy to be treated as a tour -/
structure TourSet (n : Nat) (S : EdgeSet) : Prop where
  card : S.card = n
  within : Within (Finset.range n) S
  loopless : ∀ u, s(u, u) ∉ S
  deg : ∀ u < n, (S.filter (u ∈ ·)).card = 2
  conn : ∀ u < n, Connected ((Finset.range n).erase u) (away u S)

theorem away_card {u : Nat} {S : EdgeSet} : (away u S).card + (S.filter (u ∈ ·)).card = S.card := by
  unfold away; rw [Nat.add_comm]; exact Finset.card_filter_add_card_filter_not (s := S) (fun e => u ∈ e)

theorem steps_nodup {a : Nat} {p : List Nat} (nd : (a :: p).Nodup) (hl : 2 ≤ p.length) : (steps (a :: p)).Nodup := by
  rw [steps_cons, List.nodup_append]
  refine ⟨pathE_nodup nd, by simp, ?_⟩
  intro e he f hf hef
  rw [List.mem_singleton] at hf
  subst hf hef
  match p, hl, nd with
  | b :: c :: p, _, nd =>
    rw [pathE, List.mem_cons] at he
    rcases he with he | he
    · rw [Sym2.eq_iff] at he
      have hlast : (a :: b :: c :: p).getLast (by simp) ∈ c :: p := by
        rw [List.getLast_cons (by simp), List.getLast_cons (by simp)]; exact List.getLast_mem _
      have hna : a ∉ c :: p := fun h => (List.nodup_cons.1 nd).1 (List.mem_cons_of_mem _ h)
      have hnb : b ∉ c :: p := (List.nodup_cons.1 (List.nodup_cons.1 nd).2).1
      rcases he with ⟨h1, _⟩ | ⟨h1, _⟩
      · rw [h1] at hlast; exact hna hlast
      · rw [h1] at hlast; exact hnb hlast
    · exact (List.nodup_cons.1 nd).1 (pathE_mem he a (by simp))

/-- edges at the start, and the rest -/
theorem tour_split {n a : Nat} {p : List Nat} (h : IsTour n (a :: p)) (hn : 3 ≤ n) :
    away a (tourEdges (a :: p)) = (pathE p).toFinset ∧
    ∃ b d, b ∈ p ∧ d ∈ p ∧ b ≠ d ∧ (tourEdges (a :: p)).filter (a ∈ ·) = {s(a, b), s(a, d)} := by
  have nd := h.nodup
  have hlen := h.length
  simp only [List.length_cons] at hlen
  match p, hlen, nd with
  | [], hlen, _ => simp at hlen; omega
  | [_], hlen, _ => simp at hlen; omega
  | b :: c :: p, hlen, nd =>
    have hst : steps (a :: b :: c :: p) = s(a, b) :: pathE (b :: c :: p) ++ [s(a, (c :: p).getLast (by simp))] := by
      rw [steps_cons, pathE, List.getLast_cons (by simp), List.getLast_cons (by simp), Sym2.eq_swap (a := (c :: p).getLast _)]
    have hna : a ∉ b :: c :: p := (List.nodup_cons.1 nd).1
    have hpa : ∀ e ∈ pathE (b :: c :: p), a ∉ e := fun e he ha => hna (pathE_mem he a ha)
    have hmem : ∀ e, e ∈ tourEdges (a :: b :: c :: p) ↔ e = s(a, b) ∨ e ∈ pathE (b :: c :: p) ∨ e = s(a, (c :: p).getLast (by simp)) := by
      intro e; unfold tourEdges; rw [hst]; simp; tauto
    refine ⟨?_, b, (c :: p).getLast (by simp), by simp, List.mem_cons_of_mem _ (List.getLast_mem _), ?_, ?_⟩
    · ext e
      rw [mem_away, hmem, List.mem_toFinset]
      constructor
      · rintro ⟨rfl | he | rfl, ha⟩
        · simp at ha
        · exact he
        · simp at ha
      · intro he; exact ⟨Or.inr (Or.inl he), hpa e he⟩
    · intro heq
      have := (List.nodup_cons.1 (List.nodup_cons.1 nd).2).1
      apply this; rw [heq]; exact List.getLast_mem _
    · ext e
      rw [Finset.mem_filter, hmem, Finset.mem_insert, Finset.mem_singleton]
      constructor
      · rintro ⟨rfl | he | rfl, ha⟩
        · exact Or.inl rfl
        · exact absurd ha (hpa e he)
        · exact Or.inr rfl
      · rintro (rfl | rfl)
        · exact ⟨Or.inl rfl, by simp⟩
        · exact ⟨Or.inr (Or.inr rfl), by simp⟩

theorem IsTour.set {n : Nat} {t : List Nat} (h : IsTour n t) (hn : 3 ≤ n) : TourSet n (tourEdges t) := by
  have two : ∀ u < n, ((tourEdges t).filter (u ∈ ·)).card = 2 := by
    intro u hu
    obtain ⟨p, hp, he, -⟩ := h.from hu
    obtain ⟨-, b, d, -, -, hbd, hf⟩ := tour_split hp hn
    rw [← he, hf, Finset.card_pair]
    intro hh; rw [Sym2.eq_iff] at hh; omega
  have hcard : (tourEdges t).card = n := by
    obtain ⟨p, hp, he, -⟩ := h.from (u := 0) (by omega)
    have hl := hp.length
    simp at hl
    rw [← he]; unfold tourEdges
    rw [List.toFinset_card_of_nodup (steps_nodup hp.nodup (by omega)), steps_cons, List.length_append, pathE_length]
    simp; omega
  refine ⟨hcard, ?_, ?_, two, ?_⟩
  · intro u v huv
    obtain ⟨p, hp, he, -⟩ := h.from (u := 0) (by omega)
    rw [← he] at huv
    unfold tourEdges at huv
    rw [List.mem_toFinset, steps_cons, List.mem_append] at huv
    simp only [Finset.mem_range]
    rcases huv with huv | huv
    · exact ⟨hp.mem.1 (pathE_mem huv u (by simp)), hp.mem.1 (pathE_mem huv v (by simp))⟩
    · rw [List.mem_singleton, Sym2.eq_iff] at huv
      have h1 : (0 :: p).getLast (by simp) < n := hp.mem.1 (List.getLast_mem _)
      rcases huv with ⟨rfl, rfl⟩ | ⟨rfl, rfl⟩
      · exact ⟨h1, by omega⟩
      · exact ⟨by omega, h1⟩
  · intro u hu
    by_cases hun : u < n
    · obtain ⟨p, hp, he, -⟩ := h.from hun
      obtain ⟨-, b, d, hb, hd, -, hf⟩ := tour_split hp hn
      have : s(u, u) ∈ (tourEdges (u :: p)).filter (u ∈ ·) := Finset.mem_filter.2 ⟨by rw [he]; exact hu, by simp⟩
      rw [hf, Finset.mem_insert, Finset.mem_singleton, Sym2.eq_iff, Sym2.eq_iff] at this
      have hna := (List.nodup_cons.1 hp.nodup).1
      have : u = b ∨ u = d := by omega
      rcases this with rfl | rfl
      · exact hna hb
      · exact hna hd
    · obtain ⟨p, hp, he, -⟩ := h.from (u := 0) (by omega)
      rw [← he] at hu
      unfold tourEdges at hu
      rw [List.mem_toFinset, steps_cons, List.mem_append] at hu
      rcases hu with hu | hu
      · exact hun (hp.mem.1 (pathE_mem hu u (by simp)))
      · rw [List.mem_singleton, Sym2.eq_iff] at hu; omega
  · intro u hu
    obtain ⟨p, hp, he, -⟩ := h.from hu
    obtain ⟨ha, -⟩ := tour_split hp hn
    rw [← he, ha]
    have hl := hp.length
    simp at hl
    match p, hl, hp with
    | [], hl, _ => simp at hl; omega
    | b :: p, hl, hp =>
      have hall : ∀ x ∈ (Finset.range n).erase u, Conn (pathE (b :: p)).toFinset b x := by
        intro x hx
        rw [Finset.mem_erase, Finset.mem_range] at hx
        refine pathE_conn b rfl x ?_
        have := hp.mem.2 hx.2
        rcases List.mem_cons.1 this with rfl | h'
        · exact absurd rfl hx.1
        · exact h'
      exact fun x hx y hy => (hall x hx).symm'.trans' (hall y hy)

theorem IsTour.cost {n : Nat} {t : List Nat} (h : IsTour n t) (hn : 3 ≤ n) (w : Sym2 Nat → ℚ) : tourCost w t = total w (tourEdges t) := by
  obtain ⟨p, hp, he, hc⟩ := h.from (u := 0) (by omega)
  have hl := hp.length
  simp at hl
  rw [← hc, ← he]
  unfold tourCost total tourEdges
  rw [List.sum_toFinset _ (steps_nodup hp.nodup (by omega))]

theorem TourSet.span {n : Nat} {S : EdgeSet} (h : TourSet n S) {u : Nat} (hu : u < n) {E : EdgeSet} (hE : away u S ⊆ E) :
    Span ((Finset.range n).erase u) E (away u S) := by
  refine ⟨hE, h.conn u hu, ?_⟩
  have h1 := away_card (u := u) (S := S)
  rw [h.deg u hu, h.card] at h1
  rw [Finset.card_erase_of_mem (Finset.mem_range.2 hu), Finset.card_range]; omega

theorem total_split (w : Sym2 Nat → ℚ) (u : Nat) (S : EdgeSet) : total w S = total w (away u S) + total w (S.filter (u ∈ ·)) := by
  unfold total away
  rw [add_comm]; exact (Finset.sum_filter_add_sum_filter_not S (fun e => u ∈ e) w).symm

end Verif.Spec
