import Verif.Proofs.TourUtils
import Verif.Proofs.Constrained

/-!
# Lemmas about the lines of the data files
-/
namespace Verif
open Verif.Spec
set_option autoImplicit false

theorem inter_cons2 (a b : List Char) (l : List (List Char)) : [' '].intercalate (a :: b :: l) = a ++ ' ' :: [' '].intercalate (b :: l) := by
  simp [List.intercalate]

theorem inter_append {l₁ l₂ : List (List Char)} (h1 : l₁ ≠ []) (h2 : l₂ ≠ []) : [' '].intercalate (l₁ ++ l₂) = [' '].intercalate l₁ ++ ' ' :: [' '].intercalate l₂ := by
  induction l₁ with
  | nil => exact absurd rfl h1
  | cons a l₁ ih =>
    cases l₁ with
    | nil =>
      obtain ⟨b, l, rfl⟩ := List.exists_cons_of_ne_nil h2
      rw [List.cons_append, List.nil_append, inter_cons2]
      simp [List.intercalate]
    | cons b l₁ =>
      have := ih (by simp)
      rw [List.cons_append, List.cons_append, inter_cons2, ← List.cons_append, this, inter_cons2]
      simp

/-- the fields of the cities -/
def cityFields (ct : List (List Char × List Char)) : List (List Char) := ct.flatMap fun p => [p.1, p.2]

theorem inter_cities : ∀ (ct : List (List Char × List Char)), [' '].intercalate (ct.map fun p => p.1 ++ [' '] ++ p.2) = [' '].intercalate (cityFields ct)
  | [] => rfl
  | [p] => by simp [cityFields, List.intercalate]
  | p :: q :: ct => by
    have ih := inter_cities (q :: ct)
    simp only [List.map_cons] at ih ⊢
    rw [inter_cons2, ih]
    have : cityFields (p :: q :: ct) = [p.1, p.2] ++ cityFields (q :: ct) := rfl
    rw [this, inter_append (by simp) (by simp [cityFields])]
    simp [List.intercalate]

theorem cityFields_ne {ct : List (List Char × List Char)} (h : ct ≠ []) : cityFields ct ≠ [] := by
  obtain ⟨p, l, rfl⟩ := List.exists_cons_of_ne_nil h
  simp [cityFields]

theorem genLine_inter (digits : Nat → List Char) {ct : List (List Char × List Char)} (hc : ct ≠ []) {t : List Nat} (ht : t ≠ []) :
    genLine digits ct t = [' '].intercalate (cityFields ct ++ ("output".toList :: (t.map fun i => digits (i + 1)) ++ [digits (t.headD 0 + 1)] ++ [['\n']])) := by
  have h1 : (t.map fun i => digits (i + 1)) ≠ [] := by simpa using ht
  have h2 : ("output".toList :: (t.map fun i => digits (i + 1)) ++ [digits (t.headD 0 + 1)] ++ [['\n']]) = ["output".toList] ++ ((t.map fun i => digits (i + 1)) ++ ([digits (t.headD 0 + 1)] ++ [['\n']])) := by simp
  rw [h2, inter_append (cityFields_ne hc) (by simp), inter_append (by simp) (by simp), inter_append h1 (by simp), inter_append (by simp) (by simp), genLine, inter_cities]
  congr 1
  have : " output ".toList = ' ' :: ("output".toList ++ [' ']) := by decide
  rw [this]
  simp [List.intercalate]

theorem genLine_split {digits : Nat → List Char} {ct : List (List Char × List Char)} (hc : ct ≠ []) {t : List Nat} (ht : t ≠ []) (hct : ∀ p ∈ ct, ' ' ∉ p.1 ∧ ' ' ∉ p.2) (hd : ∀ k, ' ' ∉ digits k) :
    (genLine digits ct t).splitOn ' ' = cityFields ct ++ ("output".toList :: (t.map fun i => digits (i + 1)) ++ [digits (t.headD 0 + 1)] ++ [['\n']]) := by
  rw [genLine_inter digits hc ht, List.splitOn_intercalate]
  · intro l hl
    simp only [List.mem_append, List.mem_cons, List.mem_map, List.not_mem_nil, or_false, cityFields, List.mem_flatMap] at hl
    rcases hl with ⟨p, hp, rfl | rfl⟩ | ((rfl | ⟨i, _, rfl⟩) | rfl) | rfl
    · exact (hct p hp).1
    · exact (hct p hp).2
    · decide
    · exact hd _
    · exact hd _
    · decide
  · simp

theorem readCoords_ok {float : List Char → Option ℚ} : ∀ {ct : List (List Char × List Char)} {xs : List (ℚ × ℚ)} (rest : List (List Char)),
    List.Forall₂ (fun p x => float p.1 = some x.1 ∧ float p.2 = some x.2) ct xs → readCoords float (cityFields ct ++ rest) xs.length = .ok xs
  | [], [], rest, _ => by rw [readCoords.eq_def]; rfl
  | p :: ct, x :: xs, rest, h => by
    obtain ⟨⟨h1, h2⟩, hr⟩ := List.forall₂_cons.1 h
    have : cityFields (p :: ct) ++ rest = p.1 :: p.2 :: (cityFields ct ++ rest) := rfl
    rw [this, List.length_cons, readCoords, h1, h2]
    simp only [readCoords_ok rest hr]
    rfl

theorem readNodes_ok {int : List Char → Option Nat} {digits : Nat → List Char} (hd : ∀ k, int (digits k) = some k) : ∀ t : List Nat, readNodes int (t.map fun i => digits (i + 1)) = .ok t
  | [] => rfl
  | a :: t => by
    rw [List.map_cons, readNodes, hd]
    simp only [readNodes_ok hd t]
    rfl

theorem idxOf_append_not {l : List (List Char)} {x : List Char} {r : List (List Char)} (h : x ∉ l) : (l ++ x :: r).idxOf x = l.length := by
  rw [List.idxOf_append_of_notMem h]
  simp

theorem readTour_eq {int : List Char → Option Nat} {cf tail : List (List Char)} (h : "output".toList ∉ cf) (hne : tail ≠ []) :
    readTour int (cf ++ "output".toList :: tail) = (do let t ← readNodes int tail.dropLast; pure t.dropLast) := by
  unfold readTour
  rw [if_pos (by simp), idxOf_append_not h]
  congr 2
  rw [List.dropLast_append_of_ne_nil (by simp), List.dropLast_cons_of_ne_nil hne, List.drop_append]
  simp

theorem forList_sample {n : Nat} {wv : Nat → Nat → ℚ} : ∀ (L : List (Nat × (Nat × Nat))) (s : (Nat → ℚ) × (Nat → Nat → ℚ) × ℚ), (∀ a ∈ L, a.2.1 < n ∧ a.2.2 < n) →
    forList (sampleStep n wv) L s = .ok (L.foldl (fun f a => upd f a.2.1 (a.1 : ℚ)) s.1,
      fun a b => if (a, b) ∈ L.map Prod.snd ∨ (b, a) ∈ L.map Prod.snd then 1 else s.2.1 a b, s.2.2 + ((L.map Prod.snd).map fun p => wv p.1 p.2).sum)
  | [], s, _ => by simp [forList]
  | x :: L, s, h => by
    have hx := h x (by simp)
    have hm := forList_mark (n := n) (x.2 :: L.map Prod.snd) s.2.1 (by
      intro p hp
      rcases List.mem_cons.1 hp with rfl | hp
      · exact hx
      · obtain ⟨a, ha, rfl⟩ := List.mem_map.1 hp; exact h a (by simp [ha]))
    rw [forList] at hm ⊢
    unfold sampleStep
    rw [markEdge, if_pos hx] at hm ⊢
    rw [ok_bind] at hm
    rw [ok_bind, readAt, if_pos hx, ok_bind, pure_eq_ok, ok_bind]
    have ih := forList_sample (n := n) (wv := wv) L (upd s.1 x.2.1 (x.1 : ℚ), upd2 (upd2 s.2.1 x.2.1 x.2.2 1) x.2.2 x.2.1 1, s.2.2 + wv x.2.1 x.2.2) fun a ha => h a (by simp [ha])
    unfold sampleStep at ih
    rw [ih]
    rw [forList_mark _ _ (by
      intro p hp
      obtain ⟨a, ha, rfl⟩ := List.mem_map.1 hp; exact h a (by simp [ha]))] at hm
    simp only [Except.ok.injEq] at hm
    simp only [List.foldl_cons, List.map_cons, List.sum_cons, Except.ok.injEq, Prod.mk.injEq]
    refine ⟨trivial, ?_, by ring⟩
    rw [hm]

theorem upd_fold_notMem {L : List (Nat × (Nat × Nat))} {f : Nat → ℚ} {v : Nat} (h : ∀ a ∈ L, a.2.1 ≠ v) : L.foldl (fun f a => upd f a.2.1 (a.1 : ℚ)) f v = f v := by
  induction L generalizing f with
  | nil => rfl
  | cons x L ih =>
    rw [List.foldl_cons, ih fun a ha => h a (by simp [ha])]
    simp [upd, Ne.symm (h x (by simp))]

theorem upd_fold {L : List (Nat × (Nat × Nat))} (hnd : (L.map fun a => a.2.1).Nodup) {f : Nat → ℚ} {a : Nat × (Nat × Nat)} (ha : a ∈ L) :
    L.foldl (fun f a => upd f a.2.1 (a.1 : ℚ)) f a.2.1 = (a.1 : ℚ) := by
  induction L generalizing f with
  | nil => simp at ha
  | cons x L ih =>
    rw [List.map_cons, List.nodup_cons] at hnd
    rw [List.foldl_cons]
    rcases List.mem_cons.1 ha with rfl | ha
    · rw [upd_fold_notMem]
      · simp [upd]
      · intro b hb e
        exact hnd.1 (List.mem_map.2 ⟨b, hb, e⟩)
    · exact ih hnd.2 ha

/-- what the loops of `process_batch` compute from a list of distinct nodes -/
theorem sample_loops {n : Nat} {wv : Nat → Nat → ℚ} {t : List Nat} (h2 : 2 ≤ t.length) (hlt : ∀ i ∈ t, i < n) (hnd : t.Nodup) :
    ∃ s : (Nat → ℚ) × (Nat → Nat → ℚ) × ℚ, forList (sampleStep n wv) ((List.range (t.length - 1)).zip (consecutive t)) (fun _ => 0, fun _ _ => 0, 0) = .ok s ∧
      lastNode t = .ok (t[t.length - 1]) ∧
      markEdge n s.2.1 (t[t.length - 1], t.headD 0) = .ok (fun a b => if (a, b) ∈ legs t ∨ (b, a) ∈ legs t then 1 else 0) ∧
      (∃ x, readAt n wv (t[t.length - 1], t.headD 0) = .ok x ∧ s.2.2 + x = legCost wv t) ∧
      (∀ (k : Nat) (hk : k < t.length), upd s.1 (t[t.length - 1]) ((t.length - 1 : Nat) : ℚ) t[k] = k) ∧
      ∀ v, v ∉ t → upd s.1 (t[t.length - 1]) ((t.length - 1 : Nat) : ℚ) v = 0 := by
  have hl := legs_mem_lt hlt
  have hsnd : ((List.range (t.length - 1)).zip (consecutive t)).map Prod.snd = consecutive t := by
    rw [List.map_snd_zip]; simp [consecutive_length]
  have hmem : ∀ a ∈ (List.range (t.length - 1)).zip (consecutive t), ∃ h : a.1 < t.length - 1, a.2 = (t[a.1], t[a.1 + 1]) := by
    intro a ha
    obtain ⟨m, hm, rfl⟩ := List.getElem_of_mem ha
    have hm' : m < t.length - 1 := by simpa [consecutive_length] using hm
    rw [List.getElem_zip]
    exact ⟨by simpa using hm', by simp [consecutive_getElem]⟩
  have hb : ∀ a ∈ (List.range (t.length - 1)).zip (consecutive t), a.2.1 < n ∧ a.2.2 < n := by
    intro a ha
    obtain ⟨h, e⟩ := hmem a ha
    rw [e]
    exact ⟨hlt _ (List.getElem_mem _), hlt _ (List.getElem_mem _)⟩
  have hkeys : (((List.range (t.length - 1)).zip (consecutive t)).map fun a => a.2.1) = t.dropLast := by
    apply List.ext_getElem
    · simp [consecutive_length]
    · intro m h1 h2
      simp [consecutive_getElem]
  refine ⟨_, forList_sample _ _ hb, lastNode_ok h2, ?_, ?_, ?_, ?_⟩
  · have hall := forList_mark (n := n) (legs t) (fun _ _ => 0) hl
    have hcons := forList_mark (n := n) (consecutive t) (fun _ _ => 0) fun p hp => hl p (by rw [legs_consecutive h2]; simp [hp])
    rw [hsnd]
    rw [← hall, legs_consecutive h2, forList_append, hcons, ok_bind]
    simp only [forList]
    generalize markEdge n _ _ = r
    cases r <;> rfl
  · have h1 := hl (t[t.length - 1], t.headD 0) (by rw [legs_consecutive h2]; simp)
    refine ⟨_, by rw [readAt, if_pos h1], ?_⟩
    simp only [hsnd, legCost, legs_consecutive h2, List.map_append, List.sum_append, List.map_cons, List.map_nil, List.sum_cons, List.sum_nil]
    ring
  · intro k hk
    by_cases hkl : k = t.length - 1
    · subst hkl; simp [upd]
    · have hne : t[k] ≠ t[t.length - 1] := fun e => hkl ((hnd.getElem_inj_iff).1 e)
      have hk' : k < t.length - 1 := by omega
      simp only [upd, if_neg hne]
      have ha : (k, (t[k], t[k + 1])) ∈ (List.range (t.length - 1)).zip (consecutive t) := by
        rw [List.mem_iff_getElem]
        refine ⟨k, by simpa [consecutive_length] using hk', ?_⟩
        simp [consecutive_getElem]
      exact upd_fold (L := (List.range (t.length - 1)).zip (consecutive t)) (by rw [hkeys]; exact hnd.sublist (List.dropLast_sublist t)) ha
  · intro v hv
    have hne : v ≠ t[t.length - 1] := fun e => hv (e ▸ List.getElem_mem _)
    simp only [upd, if_neg hne]
    rw [upd_fold_notMem]
    intro a ha e
    obtain ⟨h, e'⟩ := hmem a ha
    rw [e'] at e
    exact hv (e ▸ List.getElem_mem _)

end Verif
