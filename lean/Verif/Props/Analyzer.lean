import Verif.Model.Analyzer
import Mathlib.Tactic.Linarith
import Mathlib.Tactic.Ring
import Mathlib.Tactic.NormNum
import Mathlib.Algebra.Order.Field.Basic

/-!
# C77–C79: the profiles and statistics of `analyzer.py`
-/
namespace Verif
set_option autoImplicit false

/-! ### Specification -/

/-- the time at which the last best value of an instance was found -/
def Spec.foundBy (r : RunLog) (t : ℚ) : Prop := ∃ s, r.sols.getLast? = some s ∧ s.2 ≤ t

/-- the number of instances of `d` that are also in `e`, were resolved, and whose last best value was found by time `t` -/
noncomputable def Spec.doneBy (d e : List (Nat × RunLog)) (t : ℚ) : Nat := by
  classical exact d.countP fun p => decide (p.1 ∈ e.map Prod.fst ∧ p.2.resolved = true ∧ Spec.foundBy p.2 t)

/-- the number of instances of `d` that are also in `e` -/
def Spec.shared (d e : List (Nat × RunLog)) : Nat := d.countP fun p => decide (p.1 ∈ e.map Prod.fst)

/-- the number of those that were resolved -/
def Spec.sharedDone (d e : List (Nat × RunLog)) : Nat := d.countP fun p => decide (p.1 ∈ e.map Prod.fst ∧ p.2.resolved = true)

/-- the value `v` was found by time `t`, and no better one -/
def Spec.IsBest (r : RunLog) (t v : ℚ) : Prop := (∃ s ∈ r.sols, s.2 ≤ t ∧ s.1 = v) ∧ ∀ s ∈ r.sols, s.2 ≤ t → v ≤ s.1

/-- no solution was found by time `t` -/
def Spec.Nothing (r : RunLog) (t : ℚ) : Prop := ∀ s ∈ r.sols, t < s.2

/-- `a` has at time `t` a solution that is better than the one of `b` by at least `ub`, or `b` has none -/
def Spec.Better (ub : ℚ) (a b : RunLog) (t : ℚ) : Prop := ∃ v, Spec.IsBest a t v ∧ (Spec.Nothing b t ∨ ∃ w, Spec.IsBest b t w ∧ v + ub ≤ w)

/-- the partial solutions of a run: later ones are better -/
def Spec.Improving (r : RunLog) : Prop := r.sols.Pairwise fun a b => a.2 ≤ b.2 ∧ b.1 ≤ a.1

/-! ### Sorted times -/

theorem sortTimes_sorted (l : List ℚ) : (sortTimes l).Pairwise (· < ·) := by
  have h1 : (sortTimes l).Pairwise (· ≤ ·) := List.pairwise_insertionSort (· ≤ ·) l.dedup
  have h2 : (sortTimes l).Nodup := (List.perm_insertionSort (· ≤ ·) l.dedup).nodup_iff.2 (List.nodup_dedup l)
  exact (h1.and h2).imp fun h => lt_of_le_of_ne h.1 h.2

theorem mem_sortTimes {l : List ℚ} {t : ℚ} : t ∈ sortTimes l ↔ t ∈ l := by
  unfold sortTimes
  rw [(List.perm_insertionSort (· ≤ ·) l.dedup).mem_iff, List.mem_dedup]

theorem mapRes_ok {A B : Type} {f : A → Res B} {g : A → B} {l : List A} (h : ∀ a ∈ l, f a = .ok (g a)) : mapRes f l = .ok (l.map g) := by
  induction l with
  | nil => rfl
  | cons a l ih =>
    simp only [mapRes]
    rw [h a List.mem_cons_self, ih fun b hb => h b (List.mem_cons_of_mem a hb)]
    rfl

/-! ### C77 -/

theorem lastTime_ok {r : RunLog} (h : r.sols ≠ []) : ∃ s, r.sols.getLast? = some s ∧ lastTime r = .ok s.2 := by
  refine ⟨r.sols.getLast h, List.getLast?_eq_some_getLast h, ?_⟩
  unfold lastTime; rw [List.getLast?_eq_some_getLast h]

theorem solvedTimes_ok {d : List (Nat × RunLog)} (h : ∀ p ∈ d, p.2.sols ≠ []) :
    ∃ l, solvedTimes d = .ok l ∧ ∀ t, t ∈ l ↔ ∃ p ∈ d, p.2.resolved = true ∧ ∃ s, p.2.sols.getLast? = some s ∧ s.2 = t := by
  induction d with
  | nil => exact ⟨[], rfl, fun t => by simp⟩
  | cons p d ih =>
    obtain ⟨l, hl, hm⟩ := ih fun q hq => h q (List.mem_cons_of_mem p hq)
    obtain ⟨s, hs, ht⟩ := lastTime_ok (h p List.mem_cons_self)
    by_cases hr : p.2.resolved = true
    · refine ⟨s.2 :: l, by simp only [solvedTimes, hr, if_true, ht, hl]; rfl, fun t => ?_⟩
      rw [List.mem_cons, hm]
      constructor
      · rintro (rfl | ⟨q, hq, hx⟩)
        · exact ⟨p, List.mem_cons_self, hr, s, hs, rfl⟩
        · exact ⟨q, List.mem_cons_of_mem p hq, hx⟩
      · rintro ⟨q, hq, hx, u, hu, rfl⟩
        rcases List.mem_cons.1 hq with rfl | hq
        · rw [hs] at hu; injection hu with hu; left; rw [hu]
        · exact Or.inr ⟨q, hq, hx, u, hu, rfl⟩
    · refine ⟨l, by simp only [solvedTimes, if_neg hr, hl], fun t => ?_⟩
      rw [hm]
      constructor
      · rintro ⟨q, hq, hx⟩; exact ⟨q, List.mem_cons_of_mem p hq, hx⟩
      · rintro ⟨q, hq, hx, hy⟩
        rcases List.mem_cons.1 hq with rfl | hq
        · exact absurd hx hr
        · exact ⟨q, hq, hx, hy⟩

open Classical in
theorem solvedCount_ok {d : List (Nat × RunLog)} (h : ∀ p ∈ d, p.2.sols ≠ []) (t : ℚ) :
    solvedCount t d = .ok (d.countP fun p => decide (p.2.resolved = true ∧ Spec.foundBy p.2 t)) := by
  induction d with
  | nil => rfl
  | cons p d ih =>
    have ih := ih fun q hq => h q (List.mem_cons_of_mem p hq)
    obtain ⟨s, hs, ht⟩ := lastTime_ok (h p List.mem_cons_self)
    have hf : Spec.foundBy p.2 t ↔ s.2 ≤ t := by
      unfold Spec.foundBy
      rw [hs]
      exact ⟨fun ⟨u, hu, hle⟩ => by injection hu with hu; rw [hu]; exact hle, fun hle => ⟨s, rfl, hle⟩⟩
    by_cases hr : p.2.resolved = true
    · simp only [solvedCount, hr, if_true, ht, ih, List.countP_cons, hf, true_and]
      by_cases hle : s.2 ≤ t
      · simp [hle, bind, Except.bind, pure, Except.pure]
      · simp [hle, bind, Except.bind, pure, Except.pure]
    · simp only [solvedCount, hr, ih, List.countP_cons]
      simp

/-- **C77** (exact). For two sets of runs with at least one common instance, the table of `cumulative_profile` has one row for each time at which the last best value of a resolved common run was found, in
increasing order; the two numbers of the row are the fractions of the common instances that were resolved and whose last best value was found by then. -/
theorem C77_cumulative {hyb cla : List (Nat × RunLog)} (hc : 0 < Spec.shared hyb cla) (hh : ∀ p ∈ hyb, p.2.sols ≠ []) (hl : ∀ p ∈ cla, p.2.sols ≠ []) :
    ∃ times : List ℚ, cumulativeProfile hyb cla = .ok (times.map fun t => (t, (Spec.doneBy hyb cla t : ℚ) / Spec.shared hyb cla, (Spec.doneBy cla hyb t : ℚ) / Spec.shared hyb cla)) ∧
      times.Pairwise (· < ·) ∧
      ∀ t, t ∈ times ↔ ∃ i h c, (i, h) ∈ hyb ∧ (i, c) ∈ cla ∧
        ((h.resolved = true ∧ ∃ s, h.sols.getLast? = some s ∧ s.2 = t) ∨ (c.resolved = true ∧ ∃ s, c.sols.getLast? = some s ∧ s.2 = t)) := by
  classical
  let same := (hyb.map Prod.fst).filter fun k => decide (k ∈ cla.map Prod.fst)
  let h := hyb.filter fun p => decide (p.1 ∈ same)
  let c := cla.filter fun p => decide (p.1 ∈ same)
  have hsame : ∀ k, k ∈ same ↔ k ∈ hyb.map Prod.fst ∧ k ∈ cla.map Prod.fst := fun k => by simp only [same, List.mem_filter, decide_eq_true_eq]
  have hlen : same.length = Spec.shared hyb cla := by
    simp only [same, Spec.shared]
    rw [← List.countP_eq_length_filter, List.countP_map]
    rfl
  have hmh : ∀ p, p ∈ h ↔ p ∈ hyb ∧ p.1 ∈ cla.map Prod.fst := fun p => by
    simp only [h, List.mem_filter, decide_eq_true_eq, hsame]
    exact ⟨fun x => ⟨x.1, x.2.2⟩, fun x => ⟨x.1, List.mem_map_of_mem x.1, x.2⟩⟩
  have hmc : ∀ p, p ∈ c ↔ p ∈ cla ∧ p.1 ∈ hyb.map Prod.fst := fun p => by
    simp only [c, List.mem_filter, decide_eq_true_eq, hsame]
    exact ⟨fun x => ⟨x.1, x.2.1⟩, fun x => ⟨x.1, x.2, List.mem_map_of_mem x.1⟩⟩
  have hh' : ∀ p ∈ h, p.2.sols ≠ [] := fun p hp => hh p ((hmh p).1 hp).1
  have hl' : ∀ p ∈ c, p.2.sols ≠ [] := fun p hp => hl p ((hmc p).1 hp).1
  obtain ⟨t1, e1, m1⟩ := solvedTimes_ok hh'
  obtain ⟨t2, e2, m2⟩ := solvedTimes_ok hl'
  have c1 : ∀ t, solvedCount t h = .ok (Spec.doneBy hyb cla t) := fun t => by
    rw [solvedCount_ok hh', Spec.doneBy, List.countP_filter]
    refine congrArg _ (List.countP_congr fun p hp => ?_)
    simp only [Bool.and_eq_true, decide_eq_true_eq, hsame]
    exact ⟨fun x => ⟨x.2.2, x.1⟩, fun x => ⟨x.2, List.mem_map_of_mem hp, x.1⟩⟩
  have c2 : ∀ t, solvedCount t c = .ok (Spec.doneBy cla hyb t) := fun t => by
    rw [solvedCount_ok hl', Spec.doneBy, List.countP_filter]
    refine congrArg _ (List.countP_congr fun p hp => ?_)
    simp only [Bool.and_eq_true, decide_eq_true_eq, hsame]
    exact ⟨fun x => ⟨x.2.1, x.1⟩, fun x => ⟨x.2, x.1, List.mem_map_of_mem hp⟩⟩
  refine ⟨sortTimes (t1 ++ t2), ?_, sortTimes_sorted _, fun t => ?_⟩
  · show (do
      let t1 ← solvedTimes h
      let t2 ← solvedTimes c
      mapRes (fun time => do
        let a ← solvedCount time h
        let b ← solvedCount time c
        if same.length = 0 then .error .exit else pure (time, (a : ℚ) / same.length, (b : ℚ) / same.length)) (sortTimes (t1 ++ t2))) = _
    rw [e1, e2]
    refine mapRes_ok fun t _ => ?_
    simp only [c1, c2, hlen]
    have : Spec.shared hyb cla ≠ 0 := by omega
    simp [this, bind, Except.bind, pure, Except.pure]
  · rw [mem_sortTimes, List.mem_append, m1, m2]
    constructor
    · rintro (⟨p, hp, hr, hs⟩ | ⟨p, hp, hr, hs⟩)
      · obtain ⟨h1, h2⟩ := (hmh p).1 hp
        obtain ⟨q, hq, he⟩ := List.mem_map.1 h2
        exact ⟨p.1, p.2, q.2, h1, by rw [← he]; exact hq, Or.inl ⟨hr, hs⟩⟩
      · obtain ⟨h1, h2⟩ := (hmc p).1 hp
        obtain ⟨q, hq, he⟩ := List.mem_map.1 h2
        exact ⟨p.1, q.2, p.2, by rw [← he]; exact hq, h1, Or.inr ⟨hr, hs⟩⟩
    · rintro ⟨i, a, b, ha, hb, (⟨hr, hs⟩ | ⟨hr, hs⟩)⟩
      · exact Or.inl ⟨(i, a), (hmh _).2 ⟨ha, List.mem_map.2 ⟨(i, b), hb, rfl⟩⟩, hr, hs⟩
      · exact Or.inr ⟨(i, b), (hmc _).2 ⟨hb, List.mem_map.2 ⟨(i, a), ha, rfl⟩⟩, hr, hs⟩

theorem Spec.doneBy_mono (d e : List (Nat × RunLog)) {t u : ℚ} (h : t ≤ u) : Spec.doneBy d e t ≤ Spec.doneBy d e u := by
  classical
  unfold Spec.doneBy
  refine List.countP_mono_left fun p _ hp => ?_
  simp only [decide_eq_true_eq] at hp ⊢
  obtain ⟨a, b, s, hs, hle⟩ := hp
  exact ⟨a, b, s, hs, hle.trans h⟩

theorem Spec.doneBy_le (d e : List (Nat × RunLog)) (t : ℚ) : Spec.doneBy d e t ≤ Spec.sharedDone d e := by
  classical
  unfold Spec.doneBy Spec.sharedDone
  refine List.countP_mono_left fun p _ hp => ?_
  simp only [decide_eq_true_eq] at hp ⊢
  exact ⟨hp.1, hp.2.1⟩

theorem Spec.sharedDone_le (d e : List (Nat × RunLog)) : Spec.sharedDone d e ≤ Spec.shared d e := by
  unfold Spec.sharedDone Spec.shared
  refine List.countP_mono_left fun p _ hp => ?_
  simp only [decide_eq_true_eq] at hp ⊢
  exact hp.1

/-- the number of common instances does not depend on the side when no instance occurs twice -/
theorem Spec.shared_comm {d e : List (Nat × RunLog)} (hd : (d.map Prod.fst).Nodup) (he : (e.map Prod.fst).Nodup) : Spec.shared d e = Spec.shared e d := by
  have key : ∀ (a b : List (Nat × RunLog)), Spec.shared a b = ((a.map Prod.fst).filter fun k => decide (k ∈ b.map Prod.fst)).length := fun a b => by
    unfold Spec.shared
    rw [← List.countP_eq_length_filter, List.countP_map]; rfl
  rw [key, key]
  refine List.Perm.length_eq ((List.perm_ext_iff_of_nodup (hd.filter _) (he.filter _)).2 fun k => ?_)
  simp only [List.mem_filter, decide_eq_true_eq]
  exact and_comm

/-- **C77** (shape). Both curves of the cumulative profile are between 0 and 1 and never decrease, and in the last row they are the fractions of the common instances that were resolved. -/
theorem C77_shape {hyb cla : List (Nat × RunLog)} (hd : (hyb.map Prod.fst).Nodup) (he : (cla.map Prod.fst).Nodup) (hc : 0 < Spec.shared hyb cla)
    (hh : ∀ p ∈ hyb, p.2.sols ≠ []) (hl : ∀ p ∈ cla, p.2.sols ≠ []) {rows : List (ℚ × ℚ × ℚ)} (hr : cumulativeProfile hyb cla = .ok rows) :
    (∀ r ∈ rows, 0 ≤ r.2.1 ∧ r.2.1 ≤ 1 ∧ 0 ≤ r.2.2 ∧ r.2.2 ≤ 1) ∧ rows.Pairwise (fun r s => r.1 < s.1 ∧ r.2.1 ≤ s.2.1 ∧ r.2.2 ≤ s.2.2) ∧
      ∀ r, rows.getLast? = some r → r.2.1 = (Spec.sharedDone hyb cla : ℚ) / Spec.shared hyb cla ∧ r.2.2 = (Spec.sharedDone cla hyb : ℚ) / Spec.shared hyb cla := by
  classical
  obtain ⟨times, h1, h2, h3⟩ := C77_cumulative hc hh hl
  rw [h1] at hr
  injection hr with hr
  subst hr
  have hpos : (0 : ℚ) < (Spec.shared hyb cla : ℚ) := by exact_mod_cast hc
  have bnd : ∀ t, (Spec.doneBy hyb cla t : ℚ) ≤ (Spec.shared hyb cla : ℚ) ∧ (Spec.doneBy cla hyb t : ℚ) ≤ (Spec.shared hyb cla : ℚ) := fun t => by
    constructor
    · exact_mod_cast (Spec.doneBy_le hyb cla t).trans (Spec.sharedDone_le hyb cla)
    · rw [Spec.shared_comm hd he]
      exact_mod_cast (Spec.doneBy_le cla hyb t).trans (Spec.sharedDone_le cla hyb)
  refine ⟨fun r hr => ?_, ?_, fun r hr => ?_⟩
  · obtain ⟨t, -, rfl⟩ := List.mem_map.1 hr
    refine ⟨by positivity, ?_, by positivity, ?_⟩
    · exact (div_le_one hpos).2 (bnd t).1
    · exact (div_le_one hpos).2 (bnd t).2
  · rw [List.pairwise_map]
    refine h2.imp fun {t u} htu => ⟨htu, ?_, ?_⟩
    · exact div_le_div_of_nonneg_right (by exact_mod_cast Spec.doneBy_mono hyb cla htu.le) hpos.le
    · exact div_le_div_of_nonneg_right (by exact_mod_cast Spec.doneBy_mono cla hyb htu.le) hpos.le
  · rw [List.getLast?_map] at hr
    obtain ⟨t, ht, rfl⟩ := Option.map_eq_some_iff.1 hr
    have hmax : ∀ u ∈ times, u ≤ t := fun u hu => by
      obtain ⟨l, rfl⟩ := List.getLast?_eq_some_iff.1 ht
      rcases List.mem_append.1 hu with hu | hu
      · exact ((List.pairwise_append.1 h2).2.2 u hu t (by simp)).le
      · simp at hu; exact hu.le
    constructor
    · refine congrArg (fun x : Nat => (x : ℚ) / _) ?_
      unfold Spec.doneBy Spec.sharedDone
      refine List.countP_congr fun p hp => ?_
      simp only [decide_eq_true_eq]
      refine ⟨fun x => ⟨x.1, x.2.1⟩, fun x => ⟨x.1, x.2, ?_⟩⟩
      obtain ⟨q, hq, he⟩ := List.mem_map.1 x.1
      obtain ⟨s, hs, -⟩ := lastTime_ok (hh p hp)
      exact ⟨s, hs, hmax _ ((h3 _).2 ⟨p.1, p.2, q.2, hp, by rw [← he]; exact hq, Or.inl ⟨x.2, s, hs, rfl⟩⟩)⟩
    · refine congrArg (fun x : Nat => (x : ℚ) / _) ?_
      unfold Spec.doneBy Spec.sharedDone
      refine List.countP_congr fun p hp => ?_
      simp only [decide_eq_true_eq]
      refine ⟨fun x => ⟨x.1, x.2.1⟩, fun x => ⟨x.1, x.2, ?_⟩⟩
      obtain ⟨q, hq, he⟩ := List.mem_map.1 x.1
      obtain ⟨s, hs, -⟩ := lastTime_ok (hl p hp)
      exact ⟨s, hs, hmax _ ((h3 _).2 ⟨p.1, q.2, p.2, by rw [← he]; exact hq, hp, Or.inr ⟨x.2, s, hs, rfl⟩⟩)⟩

/-! ### C78 -/

theorem bestAt_none {t : ℚ} {l : List (ℚ × ℚ)} (h : ∀ s ∈ l, t < s.2) (o : Option ℚ) : bestAt t l o = o := by
  cases l with
  | nil => rfl
  | cons s l => simp only [bestAt, if_neg (not_le.2 (h s List.mem_cons_self))]

theorem bestAt_some {t : ℚ} {l : List (ℚ × ℚ)} (hl : l.Pairwise fun a b => a.2 ≤ b.2 ∧ b.1 ≤ a.1) {o : Option ℚ} {v : ℚ} (h : bestAt t l o = some v) :
    (o = some v ∧ ∀ s ∈ l, t < s.2) ∨ ((∃ s ∈ l, s.2 ≤ t ∧ s.1 = v) ∧ ∀ s ∈ l, s.2 ≤ t → v ≤ s.1) := by
  induction l generalizing o with
  | nil => left; exact ⟨h, fun s hs => by simp at hs⟩
  | cons a l ih =>
    obtain ⟨ha, hl⟩ := List.pairwise_cons.1 hl
    simp only [bestAt] at h
    split at h
    · rename_i hle
      right
      rcases ih hl h with ⟨h1, h2⟩ | ⟨⟨s, hs, hst, hsv⟩, h2⟩
      · injection h1 with h1
        refine ⟨⟨a, List.mem_cons_self, hle, h1⟩, fun s hs hst => ?_⟩
        rcases List.mem_cons.1 hs with rfl | hs
        · exact h1.ge
        · exact absurd hst (not_le.2 (h2 s hs))
      · refine ⟨⟨s, List.mem_cons_of_mem a hs, hst, hsv⟩, fun u hu hut => ?_⟩
        rcases List.mem_cons.1 hu with rfl | hu
        · rw [← hsv]; exact (ha s hs).2
        · exact h2 u hu hut
    · rename_i hle
      left
      refine ⟨h, fun s hs => ?_⟩
      rcases List.mem_cons.1 hs with rfl | hs
      · exact not_le.1 hle
      · exact (not_le.1 hle).trans_le (ha s hs).1

theorem bestAt_isSome {t : ℚ} {l : List (ℚ × ℚ)} {v : ℚ} : bestAt t l (some v) ≠ none := by
  induction l generalizing v with
  | nil => simp [bestAt]
  | cons a l ih =>
    simp only [bestAt]
    split
    · exact ih
    · simp

theorem bestAt_eq_none {t : ℚ} {r : RunLog} (hr : Spec.Improving r) : bestAt t r.sols none = none ↔ Spec.Nothing r t := by
  constructor
  · intro h
    unfold Spec.Nothing
    unfold Spec.Improving at hr
    revert h hr
    cases r.sols with
    | nil => intro _ _ s hs; simp at hs
    | cons a l =>
      intro hr h
      simp only [bestAt] at h
      split at h
      · exact absurd h bestAt_isSome
      · rename_i hle
        intro s hs
        rcases List.mem_cons.1 hs with rfl | hs
        · exact not_le.1 hle
        · exact (not_le.1 hle).trans_le ((List.pairwise_cons.1 hr).1 s hs).1
  · exact fun h => bestAt_none h none

theorem bestAt_eq_some {t v : ℚ} {r : RunLog} (hr : Spec.Improving r) : bestAt t r.sols none = some v ↔ Spec.IsBest r t v := by
  constructor
  · intro h
    rcases bestAt_some hr h with ⟨h, -⟩ | h
    · exact absurd h (by simp)
    · exact h
  · rintro ⟨⟨s, hs, hst, rfl⟩, hmin⟩
    cases hb : bestAt t r.sols none with
    | none => exact absurd ((bestAt_eq_none hr).1 hb s hs) (not_lt.2 hst)
    | some w =>
      rcases bestAt_some hr hb with ⟨h, -⟩ | ⟨⟨u, hu, hut, rfl⟩, h2⟩
      · exact absurd h (by simp)
      · rw [le_antisymm (hmin u hu hut) (h2 s hs hst)]

theorem lookupKey_ok {V : Type} {d : List (Nat × V)} (hd : (d.map Prod.fst).Nodup) {k : Nat} {v : V} (h : (k, v) ∈ d) : lookupKey d k = .ok v := by
  induction d with
  | nil => simp at h
  | cons p d ih =>
    simp only [List.map_cons, List.nodup_cons] at hd
    unfold lookupKey
    by_cases hp : p.1 = k
    · simp only [List.find?_cons, hp, beq_self_eq_true]
      rcases List.mem_cons.1 h with h | h
      · rw [← h]
      · exact absurd (List.mem_map_of_mem (f := Prod.fst) h) (by rw [← hp] ; exact hd.1)
    · have : (p.1 == k) = false := by simpa using hp
      simp only [List.find?_cons, this]
      rcases List.mem_cons.1 h with h | h
      · exact absurd (by rw [← h]) hp
      · exact ih hd.2 h

theorem lookupKey_missing {V : Type} {d : List (Nat × V)} {k : Nat} (h : k ∉ d.map Prod.fst) : lookupKey d k = .error .oob := by
  unfold lookupKey
  have : (d.find? fun p => p.1 == k) = none := by
    rw [List.find?_eq_none]
    intro p hp hk
    exact h (List.mem_map.2 ⟨p, hp, by simpa using hk⟩)
  rw [this]

theorem valuesAt_ok {cla : List (Nat × RunLog)} (f : Nat → RunLog) {t : ℚ} {hyb : List (Nat × RunLog)} (h : ∀ p ∈ hyb, lookupKey cla p.1 = .ok (f p.1)) :
    valuesAt cla t hyb = .ok (hyb.map fun p => (bestAt t p.2.sols none, bestAt t (f p.1).sols none)) := by
  induction hyb with
  | nil => rfl
  | cons p l ih =>
    simp only [valuesAt, h p List.mem_cons_self, ih fun q hq => h q (List.mem_cons_of_mem p hq)]
    rfl

theorem fold_counts (ub : ℚ) (v : List (Option ℚ × Option ℚ)) (a b : Nat) :
    v.foldl (fun (s : Nat × Nat) p => if notClose ub p.1 p.2 then (if lessInf p.1 p.2 then (s.1 + 1, s.2) else (s.1, s.2 + 1)) else s) (a, b) =
      (a + v.countP (fun p => notClose ub p.1 p.2 && lessInf p.1 p.2), b + v.countP fun p => notClose ub p.1 p.2 && !lessInf p.1 p.2) := by
  induction v generalizing a b with
  | nil => simp
  | cons p v ih =>
    simp only [List.foldl_cons, List.countP_cons]
    cases h1 : notClose ub p.1 p.2 <;> cases h2 : lessInf p.1 p.2 <;> simp [ih] <;> omega

theorem better_iff {ub : ℚ} (hub : 0 < ub) {a b : RunLog} (ha : Spec.Improving a) (hb : Spec.Improving b) (t : ℚ) :
    (notClose ub (bestAt t a.sols none) (bestAt t b.sols none) && lessInf (bestAt t a.sols none) (bestAt t b.sols none)) = true ↔ Spec.Better ub a b t := by
  unfold Spec.Better
  cases h1 : bestAt t a.sols none with
  | none =>
    have n1 := (bestAt_eq_none ha).1 h1
    simp only [lessInf, Bool.and_false, Bool.false_eq_true, false_iff, not_exists, not_and]
    rintro v ⟨⟨s, hs, hst, -⟩, -⟩
    exact absurd (n1 s hs) (not_lt.2 hst)
  | some v =>
    have b1 := (bestAt_eq_some ha).1 h1
    have u1 : ∀ w, Spec.IsBest a t w → w = v := fun w hw => by
      have := (bestAt_eq_some ha).2 hw
      rw [h1] at this; injection this with this; exact this.symm
    cases h2 : bestAt t b.sols none with
    | none =>
      have n2 := (bestAt_eq_none hb).1 h2
      simp only [notClose, lessInf, Bool.and_self, true_iff]
      exact ⟨v, b1, Or.inl n2⟩
    | some w =>
      have b2 := (bestAt_eq_some hb).1 h2
      have u2 : ∀ x, Spec.IsBest b t x → x = w := fun x hx => by
        have := (bestAt_eq_some hb).2 hx
        rw [h2] at this; injection this with this; exact this.symm
      simp only [notClose, lessInf, Bool.and_eq_true, Bool.not_eq_true', decide_eq_false_iff_not, not_lt, decide_eq_true_eq]
      constructor
      · rintro ⟨h3, h4⟩
        rw [abs_of_neg (by linarith)] at h3
        exact ⟨v, b1, Or.inr ⟨w, b2, by linarith⟩⟩
      · rintro ⟨x, hx, hy⟩
        rw [u1 x hx] at hy
        rcases hy with hy | ⟨y, hy, hle⟩
        · obtain ⟨⟨s, hs, hst, -⟩, -⟩ := b2
          exact absurd (hy s hs) (not_lt.2 hst)
        · rw [u2 y hy] at hle
          refine ⟨?_, by linarith⟩
          rw [abs_of_neg (by linarith)]; linarith

theorem worse_iff {ub : ℚ} (hub : 0 < ub) {a b : RunLog} (ha : Spec.Improving a) (hb : Spec.Improving b) (t : ℚ) :
    (notClose ub (bestAt t a.sols none) (bestAt t b.sols none) && !lessInf (bestAt t a.sols none) (bestAt t b.sols none)) = true ↔
      Spec.Better ub b a t ∨ (Spec.Nothing a t ∧ Spec.Nothing b t) := by
  rw [← better_iff hub hb ha]
  cases h1 : bestAt t a.sols none with
  | none =>
    have n1 := (bestAt_eq_none ha).1 h1
    cases h2 : bestAt t b.sols none with
    | none => simp [notClose, lessInf, n1, (bestAt_eq_none hb).1 h2]
    | some w => simp [notClose, lessInf]
  | some v =>
    have n1 : ¬ Spec.Nothing a t := fun h => by rw [(bestAt_eq_none ha).2 h] at h1; exact absurd h1 (by simp)
    cases h2 : bestAt t b.sols none with
    | none => simp [notClose, lessInf, n1]
    | some w =>
      simp only [notClose, lessInf, n1, false_and, or_false, Bool.and_eq_true, Bool.not_eq_true', decide_eq_false_iff_not, not_lt, decide_eq_true_eq]
      rw [abs_sub_comm w v]
      constructor
      · rintro ⟨h3, h4⟩
        refine ⟨h3, lt_of_le_of_ne h4 fun h => ?_⟩
        subst h
        simp at h3; linarith
      · rintro ⟨h3, h4⟩
        exact ⟨h3, h4.le⟩

open Classical in
/-- **C78** (exact). When every instance of the hybrid runs is also among the classic runs, the table of `improvement_profile` has one row for each time at which a solution was found; its first number is the
fraction of the instances on which the hybrid solver then has a better solution, and its second number is the fraction on which the classic solver has a better one *or neither solver has a solution*. -/
theorem C78_exact {ub : ℚ} (hub : 0 < ub) {hyb cla : List (Nat × RunLog)} (hd : (cla.map Prod.fst).Nodup) (hne : hyb ≠ []) (f : Nat → RunLog) (hf : ∀ p ∈ hyb, (p.1, f p.1) ∈ cla)
    (hi : ∀ p ∈ hyb, Spec.Improving p.2) (hj : ∀ p ∈ cla, Spec.Improving p.2) :
    ∃ times : List ℚ, improvementProfile ub hyb cla = .ok (times.map fun t =>
        (t, (hyb.countP (fun p => decide (Spec.Better ub p.2 (f p.1) t)) : ℚ) / hyb.length,
          (hyb.countP (fun p => decide (Spec.Better ub (f p.1) p.2 t ∨ (Spec.Nothing p.2 t ∧ Spec.Nothing (f p.1) t))) : ℚ) / hyb.length)) ∧
      times.Pairwise (· < ·) ∧ ∀ t, t ∈ times ↔ ∃ p, (p ∈ hyb ∨ p ∈ cla) ∧ ∃ s ∈ p.2.sols, s.2 = t := by
  refine ⟨sortTimes ((hyb.flatMap fun h => h.2.sols.map Prod.snd) ++ cla.flatMap fun h => h.2.sols.map Prod.snd), ?_, sortTimes_sorted _, fun t => ?_⟩
  rotate_left
  · rw [mem_sortTimes, List.mem_append, List.mem_flatMap, List.mem_flatMap]
    simp only [List.mem_map]
    constructor
    · rintro (⟨p, hp, s, hs, rfl⟩ | ⟨p, hp, s, hs, rfl⟩)
      · exact ⟨p, Or.inl hp, s, hs, rfl⟩
      · exact ⟨p, Or.inr hp, s, hs, rfl⟩
    · rintro ⟨p, hp | hp, s, hs, rfl⟩
      · exact Or.inl ⟨p, hp, s, hs, rfl⟩
      · exact Or.inr ⟨p, hp, s, hs, rfl⟩
  · refine mapRes_ok fun t _ => ?_
    have hv := valuesAt_ok f (t := t) fun p hp => lookupKey_ok hd (hf p hp)
    have hlen : hyb.length ≠ 0 := by simpa using hne
    unfold improvementAt
    rw [hv]
    simp only [bind, Except.bind, fold_counts, List.length_map, hlen, if_false, pure, Except.pure, zero_add, List.countP_map]
    refine congrArg _ (Prod.ext rfl (Prod.ext ?_ ?_))
    · refine congrArg (fun x : Nat => (x : ℚ) / _) (List.countP_congr fun p hp => ?_)
      simp only [Function.comp_apply, decide_eq_true_eq]
      exact better_iff hub (hi p hp) (hj _ (hf p hp)) t
    · refine congrArg (fun x : Nat => (x : ℚ) / _) (List.countP_congr fun p hp => ?_)
      simp only [Function.comp_apply, decide_eq_true_eq]
      exact worse_iff hub (hi p hp) (hj _ (hf p hp)) t

theorem Spec.Better.not_swap {ub : ℚ} (hub : 0 < ub) {a b : RunLog} {t : ℚ} (h : Spec.Better ub a b t) : ¬ Spec.Better ub b a t := by
  rintro ⟨w, ⟨⟨s, hs, hst, rfl⟩, hmin⟩, h2⟩
  obtain ⟨v, ⟨⟨u, hu, hut, rfl⟩, hmin'⟩, h1⟩ := h
  rcases h2 with h2 | ⟨x, ⟨⟨s', hs', hst', rfl⟩, hx⟩, h2⟩
  · exact absurd (h2 u hu) (not_lt.2 hut)
  · rcases h1 with h1 | ⟨y, ⟨⟨u', hu', hut', rfl⟩, hy⟩, h1⟩
    · exact absurd (h1 s hs) (not_lt.2 hst)
    · have := hx u hu hut
      have := hy s hs hst
      linarith

open Classical in
/-- **C78** (partial: at the times when on every instance at least one solver has a solution). The second number of a row is the fraction of the instances on which the classic solver has a better solution, and
the two numbers sum to at most 1. Missing: the earlier times, for which it is false (`C78_fails`). -/
theorem C78_better_partial {ub : ℚ} (hub : 0 < ub) {hyb cla : List (Nat × RunLog)} (hd : (cla.map Prod.fst).Nodup) (hne : hyb ≠ []) (f : Nat → RunLog) (hf : ∀ p ∈ hyb, (p.1, f p.1) ∈ cla)
    (hi : ∀ p ∈ hyb, Spec.Improving p.2) (hj : ∀ p ∈ cla, Spec.Improving p.2) {rows : List (ℚ × ℚ × ℚ)} (hr : improvementProfile ub hyb cla = .ok rows) {r : ℚ × ℚ × ℚ} (hm : r ∈ rows)
    (hs : ∀ p ∈ hyb, ¬ (Spec.Nothing p.2 r.1 ∧ Spec.Nothing (f p.1) r.1)) :
    r.2.1 = (hyb.countP (fun p => decide (Spec.Better ub p.2 (f p.1) r.1)) : ℚ) / hyb.length ∧
      r.2.2 = (hyb.countP (fun p => decide (Spec.Better ub (f p.1) p.2 r.1)) : ℚ) / hyb.length ∧ r.2.1 + r.2.2 ≤ 1 := by
  obtain ⟨times, h1, -, -⟩ := C78_exact hub hd hne f hf hi hj
  rw [h1] at hr
  injection hr with hr
  subst hr
  obtain ⟨t, -, rfl⟩ := List.mem_map.1 hm
  have h2 : hyb.countP (fun p => decide (Spec.Better ub (f p.1) p.2 t ∨ (Spec.Nothing p.2 t ∧ Spec.Nothing (f p.1) t))) = hyb.countP fun p => decide (Spec.Better ub (f p.1) p.2 t) := by
    refine List.countP_congr fun p hp => ?_
    simp only [decide_eq_true_eq]
    exact ⟨fun h => h.resolve_right (hs p hp), Or.inl⟩
  have hpos : (0 : ℚ) < (hyb.length : ℚ) := by
    have := List.length_pos_iff.2 hne
    exact_mod_cast this
  refine ⟨rfl, by simp only [h2], ?_⟩
  simp only [h2]
  rw [← add_div, div_le_one hpos]
  have h3 : ∀ l : List (Nat × RunLog), l.countP (fun p => decide (Spec.Better ub p.2 (f p.1) t)) + l.countP (fun p => decide (Spec.Better ub (f p.1) p.2 t)) ≤ l.length := by
    intro l
    induction l with
    | nil => simp
    | cons p l ih =>
      simp only [List.countP_cons, List.length_cons]
      by_cases hb : Spec.Better ub p.2 (f p.1) t
      · simp only [hb, Spec.Better.not_swap hub hb, decide_true, decide_false, if_true, Bool.false_eq_true, if_false]; omega
      · simp only [hb, decide_false, Bool.false_eq_true, if_false]
        split <;> omega
  exact_mod_cast h3 hyb

/-- the instances of the example: on the first both solvers find their first solution at time 10, on the second one of them at time 1 -/
def Ex.hybRuns : List (Nat × RunLog) := [(1, ⟨true, [(5, 10)]⟩), (2, ⟨true, [(7, 1), (6, 3)]⟩)]
def Ex.claRuns : List (Nat × RunLog) := [(1, ⟨true, [(5, 10)]⟩), (2, ⟨true, [(9, 2), (6, 4)]⟩)]

/-- **C78** fails at early times: on instance 1 both solvers find the same value at the same time, but until then the instance is counted as one on which the classic solver has a better solution
(`inf - inf` is not a number, so `abs(…) < ub` is false and so is `inf < inf`). -/
theorem C78_fails : improvementProfile (1 / 100) Ex.hybRuns Ex.claRuns =
    .ok [(1, 1 / 2, 1 / 2), (2, 1 / 2, 1 / 2), (3, 1 / 2, 1 / 2), (4, 0, 1 / 2), (10, 0, 0)] := by decide +kernel

/-- **C78**, missing instances: if the first hybrid instance has no classic run, the function fails with an exception as soon as there is a solution. -/
theorem C78_missing (ub : ℚ) (p : Nat × RunLog) (hyb cla : List (Nat × RunLog)) (h : p.1 ∉ cla.map Prod.fst) (hs : p.2.sols ≠ []) : improvementProfile ub (p :: hyb) cla = .error .oob := by
  unfold improvementProfile
  obtain ⟨s, l, hl⟩ := List.exists_cons_of_ne_nil hs
  have hm : s.2 ∈ sortTimes (((p :: hyb).flatMap fun h => h.2.sols.map Prod.snd) ++ cla.flatMap fun h => h.2.sols.map Prod.snd) := by
    rw [mem_sortTimes]; simp [hl]
  cases ht : sortTimes (((p :: hyb).flatMap fun h => h.2.sols.map Prod.snd) ++ cla.flatMap fun h => h.2.sols.map Prod.snd) with
  | nil => rw [ht] at hm; simp at hm
  | cons t r =>
    simp only [mapRes, improvementAt, valuesAt, lookupKey_missing h]
    rfl

/-! ### C79 -/

/-- the result files that report an uninterrupted search with a solution of a type -/
def Spec.ofType (files : List ResultFile) (y : SolType) : Nat := files.countP fun f => decide (f.interrupted = false ∧ f.type = y)

theorem mem_setKey {V : Type} {d : List (Nat × V)} {k : Nat} {v : V} {p : Nat × V} (h : p ∈ setKey d k v) : p = (k, v) ∨ p ∈ d ∧ p.1 ≠ k := by
  unfold setKey at h
  split at h
  · obtain ⟨q, hq, he⟩ := List.mem_map.1 h
    by_cases hk : q.1 = k
    · rw [if_pos hk] at he; exact Or.inl he.symm
    · rw [if_neg hk] at he; subst he; exact Or.inr ⟨hq, hk⟩
  · rename_i hk
    rcases List.mem_append.1 h with h | h
    · exact Or.inr ⟨h, fun he => hk (List.mem_map.2 ⟨p, h, he⟩)⟩
    · simp at h; exact Or.inl h

theorem setKey_mem {V : Type} {d : List (Nat × V)} {k : Nat} {v : V} : (k, v) ∈ setKey d k v := by
  unfold setKey
  split
  · rename_i h
    obtain ⟨q, hq, he⟩ := List.mem_map.1 h
    exact List.mem_map.2 ⟨q, hq, by rw [if_pos he]⟩
  · simp

theorem setKey_keep {V : Type} {d : List (Nat × V)} {k : Nat} {v : V} {p : Nat × V} (h : p ∈ d) (hp : p.1 ≠ k) : p ∈ setKey d k v := by
  unfold setKey
  split
  · exact List.mem_map.2 ⟨p, h, by rw [if_neg hp]⟩
  · exact List.mem_append_left _ h

theorem setKey_keys {V : Type} {d : List (Nat × V)} {k : Nat} {v : V} (h : (d.map Prod.fst).Nodup) : ((setKey d k v).map Prod.fst).Nodup := by
  unfold setKey
  split
  · have : (d.map fun p => if p.1 = k then (k, v) else p).map Prod.fst = d.map Prod.fst := by
      rw [List.map_map]
      refine List.map_congr_left fun p _ => ?_
      simp only [Function.comp_apply]
      split <;> simp_all
    rw [this]; exact h
  · rename_i hk
    rw [List.map_append, List.nodup_append]
    refine ⟨h, by simp, fun a ha b hb => ?_⟩
    simp at hb
    rintro rfl
    subst hb
    exact hk ha

/-- the statistics after some files -/
structure StatsOk (files : List ResultFile) (s : Stats) : Prop where
  res : s.resolved = files.countP fun f => !f.interrupted
  not : s.notResolved = (files.filter fun f => f.interrupted).map ResultFile.inst
  nn : s.nn = Spec.ofType files .nearest
  nnh : s.nnHybrid = Spec.ofType files .nearestHybrid
  one : s.oneTree = Spec.ofType files .oneTree
  sub : s.subgradient = Spec.ofType files .other
  keys : (s.partials.map Prod.fst).Nodup
  part : (files.map ResultFile.inst).Nodup → ∀ p, p ∈ s.partials ↔ ∃ f ∈ files, p = (f.inst, runLog f)
  ne : ∀ p ∈ s.partials, p.2.sols ≠ []

theorem runLog_ne (f : ResultFile) : (runLog f).sols ≠ [] := by
  unfold runLog
  simp only
  split
  · simp
  · rename_i h; intro h'; rw [h'] at h; simp at h

theorem readFile_ok {files : List ResultFile} {s : Stats} (h : StatsOk files s) (f : ResultFile) : StatsOk (files ++ [f]) (readFile s f) := by
  have hpart : ((files ++ [f]).map ResultFile.inst).Nodup → ∀ p, p ∈ setKey s.partials f.inst (runLog f) ↔ ∃ g ∈ files ++ [f], p = (g.inst, runLog g) := by
    intro hn p
    rw [List.map_append, List.nodup_append] at hn
    have h0 := h.part hn.1
    constructor
    · intro hp
      rcases mem_setKey hp with rfl | ⟨hp, -⟩
      · exact ⟨f, by simp, rfl⟩
      · obtain ⟨g, hg, rfl⟩ := (h0 p).1 hp
        exact ⟨g, by simp [hg], rfl⟩
    · rintro ⟨g, hg, rfl⟩
      rcases List.mem_append.1 hg with hg | hg
      · refine setKey_keep ((h0 _).2 ⟨g, hg, rfl⟩) fun he => ?_
        exact hn.2.2 g.inst (List.mem_map_of_mem hg) f.inst (by simp) he
      · simp at hg; subst hg; exact setKey_mem
  have hne : ∀ p ∈ setKey s.partials f.inst (runLog f), p.2.sols ≠ [] := fun p hp => by
    rcases mem_setKey hp with rfl | ⟨hp, -⟩
    · exact runLog_ne f
    · exact h.ne p hp
  have hkeys := setKey_keys (k := f.inst) (v := runLog f) h.keys
  have e : ∀ y, Spec.ofType (files ++ [f]) y = Spec.ofType files y + if f.interrupted = false ∧ f.type = y then 1 else 0 := fun y => by
    unfold Spec.ofType
    rw [List.countP_append, List.countP_cons, List.countP_nil]; simp
  unfold readFile
  by_cases hi : f.interrupted = true
  · simp only [hi, if_true]
    refine ⟨?_, ?_, ?_, ?_, ?_, ?_, hkeys, hpart, hne⟩
    · simp [h.res, hi]
    · simp [h.not, hi, List.filter_append]
    all_goals simp [e, hi, h.nn, h.nnh, h.one, h.sub]
  · have hi' : f.interrupted = false := by simpa using hi
    simp only [hi, if_false]
    cases hy : f.type <;>
    · refine ⟨?_, ?_, ?_, ?_, ?_, ?_, hkeys, hpart, hne⟩
      · simp [h.res, hi']
      · simp [h.not, hi', List.filter_append]
      all_goals simp [e, hi', hy, h.nn, h.nnh, h.one, h.sub]

theorem readAll_ok (files : List ResultFile) : StatsOk files (files.foldl readFile {}) := by
  have key : ∀ (l pre : List ResultFile) (s : Stats), StatsOk pre s → StatsOk (pre ++ l) (l.foldl readFile s) := by
    intro l
    induction l with
    | nil => intro pre s h; simpa using h
    | cons f l ih =>
      intro pre s h
      have := ih (pre ++ [f]) (readFile s f) (readFile_ok h f)
      simpa using this
  refine key files [] {} ⟨rfl, rfl, rfl, rfl, rfl, rfl, by simp, fun _ p => by simp, by simp⟩

theorem types_sum (files : List ResultFile) : Spec.ofType files .nearest + Spec.ofType files .nearestHybrid + Spec.ofType files .oneTree + Spec.ofType files .other = files.countP fun f => !f.interrupted := by
  unfold Spec.ofType
  induction files with
  | nil => rfl
  | cons f l ih =>
    simp only [List.countP_cons]
    rw [← ih]
    cases hi : f.interrupted <;> cases hy : f.type <;> simp <;> omega

theorem resolved_sum (files : List ResultFile) : (files.countP fun f => !f.interrupted) + (files.filter fun f => f.interrupted).length = files.length := by
  induction files with
  | nil => rfl
  | cons f l ih =>
    simp only [List.countP_cons, List.filter_cons, List.length_cons]
    cases hi : f.interrupted <;> simp <;> omega

/-- **C79** (statistics). For a directory of result files with at least one uninterrupted run, `read_values` reports the fraction of the files with an uninterrupted run, the fractions of these whose solution is
of each type, which sum to 1, the list of the interrupted instances, and one log for each instance, with at least one partial solution. -/
theorem C79_statistics {files : List ResultFile} {f : ResultFile} (hf : f ∈ files) (hi : f.interrupted = false) :
    ∃ s fr, readValues files = .ok (s, fr) ∧
      fr = [((files.countP fun f => !f.interrupted : Nat) : ℚ) / files.length, (Spec.ofType files .nearest : ℚ) / (files.countP fun f => !f.interrupted : Nat),
        (Spec.ofType files .nearestHybrid : ℚ) / (files.countP fun f => !f.interrupted : Nat), (Spec.ofType files .oneTree : ℚ) / (files.countP fun f => !f.interrupted : Nat),
        (Spec.ofType files .other : ℚ) / (files.countP fun f => !f.interrupted : Nat)] ∧ fr.tail.sum = 1 ∧
      s.notResolved = (files.filter fun f => f.interrupted).map ResultFile.inst ∧ (s.partials.map Prod.fst).Nodup ∧ (∀ p ∈ s.partials, p.2.sols ≠ []) ∧
      ((files.map ResultFile.inst).Nodup → ∀ p, p ∈ s.partials ↔ ∃ g ∈ files, p = (g.inst, runLog g)) := by
  have h := readAll_ok files
  have hpos : 0 < files.countP fun f => !f.interrupted := List.countP_pos_iff.2 ⟨f, hf, by simp [hi]⟩
  have hsum : (List.foldl readFile {} files).resolved + (List.foldl readFile {} files).notResolved.length = files.length := by
    rw [h.res, h.not, List.length_map, resolved_sum]
  have hq : (0 : ℚ) < ((files.countP fun f => !f.interrupted : Nat) : ℚ) := by exact_mod_cast hpos
  refine ⟨_, _, ?_, rfl, ?_, h.not, h.keys, h.ne, h.part⟩
  · unfold readValues
    simp only [hsum]
    rw [if_neg (by have := List.length_pos_of_mem hf; omega), if_neg (by rw [h.res]; omega), h.res, h.nn, h.nnh, h.one, h.sub]
  · simp only [List.tail_cons, List.sum_cons, List.sum_nil, add_zero, ← add_div]
    rw [div_eq_one_iff_eq hq.ne', ← types_sum files]
    push_cast
    ring

/-- **C79** (logs). The log of an instance says whether the run was uninterrupted, and its partial solutions are the reported updates with the time before the search added; a run without updates has its final cost
as the only partial solution. -/
theorem C79_log (f : ResultFile) : ((runLog f).resolved = true ↔ f.interrupted = false) ∧ (f.updates ≠ [] → (runLog f).sols = f.updates.map fun u => (u.1, f.timeTaken - f.elapsed + u.2)) ∧
    (f.updates = [] → (runLog f).sols = [(f.cost, f.timeTaken - f.elapsed + f.timeToObtain)]) := by
  refine ⟨by simp [runLog], fun h => ?_, fun h => by simp [runLog, h]⟩
  have : f.updates.length ≠ 0 := by simpa using h
  simp [runLog, h]

/-- **C79** (no uninterrupted run). If every run of the directory was interrupted, `read_values` fails with a division by zero and reports nothing. -/
theorem C79_all_interrupted {files : List ResultFile} (h : ∀ f ∈ files, f.interrupted = true) : readValues files = .error .exit := by
  have h0 := (readAll_ok files).res
  have : (files.countP fun f => !f.interrupted) = 0 := by
    rw [List.countP_eq_zero]; intro f hf; simp [h f hf]
  unfold readValues
  rw [this] at h0
  simp only [h0]
  split <;> simp

/-- **C79** (profiles). For two directories with a common instance and an uninterrupted run each, the cumulative profile of the logs that `read_values` reports is computed without an exception. -/
theorem C79_profile {fh fc : List ResultFile} {g : ResultFile} {g' : ResultFile} (hn : (fh.map ResultFile.inst).Nodup) (hn' : (fc.map ResultFile.inst).Nodup) (hg : g ∈ fh) (hg' : g' ∈ fc) (he : g.inst = g'.inst)
    {s s' : Stats} {fr fr' : List ℚ} (h : readValues fh = .ok (s, fr)) (h' : readValues fc = .ok (s', fr')) : ∃ rows, cumulativeProfile s.partials s'.partials = .ok rows := by
  have key : ∀ {files : List ResultFile} {s : Stats} {fr : List ℚ}, readValues files = .ok (s, fr) → s = files.foldl readFile {} := fun {files s fr} h => by
    unfold readValues at h
    simp only at h
    split at h
    · simp at h
    · split at h
      · simp at h
      · injection h with h; injection h with h _; exact h.symm
  have o := readAll_ok fh
  have o' := readAll_ok fc
  rw [← key h] at o
  rw [← key h'] at o'
  have hc : 0 < Spec.shared s.partials s'.partials := by
    unfold Spec.shared
    refine List.countP_pos_iff.2 ⟨(g.inst, runLog g), (o.part hn _).2 ⟨g, hg, rfl⟩, ?_⟩
    simp only [decide_eq_true_eq, he]
    exact List.mem_map_of_mem (f := Prod.fst) ((o'.part hn' _).2 ⟨g', hg', rfl⟩)
  obtain ⟨times, ht, -⟩ := C77_cumulative hc o.ne o'.ne
  exact ⟨_, ht⟩

/-! ### Examples -/

/-- C77 on the runs of the example -/
example : cumulativeProfile Ex.hybRuns Ex.claRuns = .ok [(3, 1 / 2, 0), (4, 1 / 2, 1 / 2), (10, 1, 1)] := by decide +kernel

example : 0 < Spec.shared Ex.hybRuns Ex.claRuns ∧ (Ex.hybRuns.map Prod.fst).Nodup := by decide +kernel

/-- the runs of the example meet the hypotheses of C78 -/
example : (∀ p ∈ Ex.hybRuns, Spec.Improving p.2) ∧ (∀ p ∈ Ex.claRuns, Spec.Improving p.2) ∧ ∀ p ∈ Ex.hybRuns, (p.1, if p.1 = 1 then ⟨true, [(5, 10)]⟩ else ⟨true, [(9, 2), (6, 4)]⟩) ∈ Ex.claRuns := by
  refine ⟨?_, ?_, ?_⟩ <;> intro p hp <;> simp only [Ex.hybRuns, Ex.claRuns, List.mem_cons, List.not_mem_nil, or_false] at hp ⊢ <;> rcases hp with rfl | rfl <;> simp [Spec.Improving] <;> norm_num

/-- **C77**, reading: the time of a run in the profile is the time at which its best value was found, not the time at which it was proved optimal. The run takes 100 seconds and is shown as solved after 2. -/
theorem C77_early : ∃ f : ResultFile, f.interrupted = false ∧ f.timeTaken = 100 ∧ cumulativeProfile [(1, runLog f)] [(1, runLog f)] = .ok [(2, 1, 1)] :=
  ⟨{ inst := 1, interrupted := false, type := .oneTree, cost := 5, timeTaken := 100, elapsed := 99, timeToObtain := 1, updates := [(5, 1)] }, rfl, rfl, by decide +kernel⟩

end Verif
