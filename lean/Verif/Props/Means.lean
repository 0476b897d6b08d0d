import Verif.Model.Means
import Verif.Props.ResultFile

/-!
# C98: the means compare the two solvers on the same instances
-/
namespace Verif
open Verif.Spec
set_option autoImplicit false

/-- `v` is what the result file of the run says about the metric: counters exactly, times and values with six decimals (the time of the driver exactly) -/
def Spec.ValueOf : Metric → Report → ℚ → Prop
  | .totalTime, r, v => v = r.wall
  | .timeBb, r, v => SixDecimals r.elapsed v
  | .timeToBest, r, v => SixDecimals r.reach v
  | .generated, r, v => v = r.problem.generated
  | .explored, r, v => v = r.problem.explored
  | .beforeBest, r, v => v = r.problem.best.id
  | .treeLevel, r, v => v = r.problem.totLevels
  | .bestLevel, r, v => v = r.problem.best.treeLevel
  | .prob, r, v => SixDecimals r.problem.best.prob v
  | .bestValue, r, v => SixDecimals r.problem.best.value v

/-- the pairs of a hybrid and a classic run that solved the same instance, each pair once -/
structure Spec.SameInstances (hyb cla : List Report) (ps : List (Report × Report)) : Prop where
  nodup : ps.Nodup
  pairs : ∀ q : Report × Report, q ∈ ps ↔ q.1 ∈ hyb ∧ q.2 ∈ cla ∧ q.1.inst = q.2.inst ∧ q.1.problem.interrupted = false ∧ q.2.problem.interrupted = false

/-- an order of the instances that are solved in both modes -/
structure Spec.SetOrder (order : List Nat) (hyb cla : List Report) : Prop where
  nodup : order.Nodup
  mem : ∀ k, k ∈ order ↔ (∃ r ∈ hyb, r.inst = k ∧ r.problem.interrupted = false) ∧ ∃ r ∈ cla, r.inst = k ∧ r.problem.interrupted = false

/-- the mean of some numbers; nothing if there are none -/
def Spec.IsMean (l : List ℚ) (m : Option ℚ) : Prop := match m with
  | none => l = []
  | some m => l ≠ [] ∧ m * l.length = l.sum

/-- the half width of the 95 % interval of a mean: 1.96 standard deviations (of the population) divided by the root of the number of values -/
def Spec.IsInterval (l : List ℚ) (x : Option ℝ) : Prop := match x with
  | none => l = []
  | some x => l ≠ [] ∧ 0 ≤ x ∧ ∀ m : ℚ, m * l.length = l.sum → x ^ 2 * l.length ^ 2 = (196 / 100) ^ 2 * (l.map fun y : ℚ => ((y : ℝ) - m) ^ 2).sum

theorem npMean_spec (l : List ℚ) : IsMean l (npMean l) := by
  unfold npMean
  split
  · next h => exact List.length_eq_zero_iff.1 h
  · next h =>
    refine ⟨fun e => h (by rw [e]; rfl), ?_⟩
    have : (l.length : ℚ) ≠ 0 := by exact_mod_cast h
    field_simp

theorem cast_squares (l : List ℚ) (m : ℚ) : (((l.map fun x => (x - m) ^ 2).sum : ℚ) : ℝ) = (l.map fun y : ℚ => ((y : ℝ) - m) ^ 2).sum := by
  induction l with
  | nil => simp
  | cons a l ih =>
    rw [List.map_cons, List.sum_cons, List.map_cons, List.sum_cons, ← ih]
    push_cast
    rfl

theorem confInt_spec (l : List ℚ) : IsInterval l (confInt l) := by
  unfold confInt npVar npMean
  split
  · next h => exact List.length_eq_zero_iff.1 h
  · next h =>
    have hq : (l.length : ℚ) ≠ 0 := by exact_mod_cast h
    have hp : (0 : ℝ) < (l.length : ℝ) := by exact_mod_cast Nat.pos_of_ne_zero h
    refine ⟨fun e => h (by rw [e]; rfl), by positivity, ?_⟩
    intro m hm
    have e : l.sum / l.length = m := by rw [← hm]; field_simp
    rw [e]
    have hs : (((l.map fun x => (x - m) ^ 2).sum / l.length : ℚ) : ℝ) = (l.map fun y : ℚ => ((y : ℝ) - m) ^ 2).sum / l.length := by
      push_cast
      congr 1
      exact cast_squares l m
    have h0 : (0 : ℝ) ≤ (l.map fun y : ℚ => ((y : ℝ) - m) ^ 2).sum := List.sum_nonneg (by
      intro x hx
      obtain ⟨y, -, rfl⟩ := List.mem_map.1 hx
      positivity)
    rw [hs, div_pow, mul_pow, Real.sq_sqrt (div_nonneg h0 hp.le), Real.sq_sqrt hp.le]
    field_simp

/-! ### The dictionaries -/

/-- the entry of a file -/
def entryOf (m : Metric) (x : ResultFile × Option FileRow) : Option (Nat × ℚ) := x.2.map fun row => (x.1.inst, m.read x.1 row)

theorem dict_fold (m : Metric) : ∀ (l : List (ResultFile × Option FileRow)) (d : List (Nat × ℚ)), (d.map Prod.fst ++ (l.filterMap (entryOf m)).map Prod.fst).Nodup →
    l.foldl (fun d x => match x.2 with | some row => setKey d x.1.inst (m.read x.1 row) | none => d) d = d ++ l.filterMap (entryOf m) := by
  intro l
  induction l with
  | nil => intro d _; simp
  | cons x l ih =>
    intro d hd
    obtain ⟨f, o⟩ := x
    rw [List.foldl_cons]
    cases o with
    | none => exact ih d hd
    | some row =>
      have e : (((f, some row) :: l : List (ResultFile × Option FileRow)).filterMap (entryOf m)) = (f.inst, m.read f row) :: l.filterMap (entryOf m) := rfl
      rw [e] at hd ⊢
      have hn : f.inst ∉ d.map Prod.fst := by
        intro h
        exact (List.disjoint_of_nodup_append hd) h (by simp)
      have e2 : setKey d f.inst (m.read f row) = d ++ [(f.inst, m.read f row)] := by unfold setKey; rw [if_neg hn]
      show l.foldl _ (setKey d f.inst (m.read f row)) = _
      rw [e2, ih]
      · simp
      · simpa using hd

/-- the runs that were not interrupted -/
def solvedOf (rs : List Report) : List Report := rs.filter fun r => !r.problem.interrupted

/-- the value of a run -/
def valueOf (m : Metric) (r : Report) : ℚ := match (recordOf r).2 with
  | some row => m.read (recordOf r).1 row
  | none => 0

theorem entries_of (m : Metric) (rs : List Report) : (rs.map recordOf).filterMap (entryOf m) = (solvedOf rs).map fun r => (r.inst, valueOf m r) := by
  induction rs with
  | nil => rfl
  | cons r rs ih =>
    unfold solvedOf at ih ⊢
    by_cases h : r.problem.interrupted = true
    · have e : entryOf m (recordOf r) = none := by unfold entryOf recordOf; simp [h]
      rw [List.map_cons, List.filterMap_cons, e, List.filter_cons_of_neg (by simp [h])]
      exact ih
    · have e : entryOf m (recordOf r) = some (r.inst, valueOf m r) := by unfold entryOf valueOf recordOf; simp [h]
      rw [List.map_cons, List.filterMap_cons, e, List.filter_cons_of_pos (by simpa using h), List.map_cons]
      simp only [ih]

theorem solved_nodup {rs : List Report} (h : (rs.map Report.inst).Nodup) : ((solvedOf rs).map Report.inst).Nodup := (List.Sublist.map _ List.filter_sublist).nodup h

theorem dict_perm (m : Metric) {rs : List Report} (h : (rs.map Report.inst).Nodup) : (metricDict m (rs.map recordOf)).Perm ((solvedOf rs).map fun r => (r.inst, valueOf m r)) := by
  unfold metricDict
  refine (List.perm_insertionSort _ _).trans ?_
  have := dict_fold m (rs.map recordOf) [] (by
    rw [entries_of, List.map_nil, List.nil_append, List.map_map]
    exact solved_nodup h)
  rw [List.nil_append, entries_of] at this
  exact List.Perm.of_eq this

theorem dict_lookup (m : Metric) {rs : List Report} (h : (rs.map Report.inst).Nodup) {r : Report} (hr : r ∈ rs) (hi : r.problem.interrupted = false) : lookupKey (metricDict m (rs.map recordOf)) r.inst = .ok (valueOf m r) := by
  have hp := dict_perm m h
  apply lookupKey_ok
  · refine ((hp.map Prod.fst).nodup_iff).2 ?_
    rw [List.map_map]
    exact solved_nodup h
  · rw [hp.mem_iff]
    exact List.mem_map.2 ⟨r, List.mem_filter.2 ⟨hr, by simp [hi]⟩, rfl⟩

theorem valueOf_spec (m : Metric) {r : Report} (hi : r.problem.interrupted = false) : ValueOf m r (valueOf m r) := by
  unfold valueOf recordOf
  rw [hi]
  cases m <;> first | exact rfl | exact printed_six _

/-! ### The rows -/

theorem mapRes_mapOk {A B : Type} {f : A → Res B} {g : A → B} : ∀ {l : List A}, (∀ a ∈ l, f a = .ok (g a)) → mapRes f l = .ok (l.map g) := by
  intro l
  induction l with
  | nil => intro _; rfl
  | cons a l ih =>
    intro h
    rw [mapRes, h a (by simp), ok_bind, ih fun b hb => h b (by simp [hb]), ok_bind]
    rfl

/-- the run of an instance -/
noncomputable def runOf (rs : List Report) (d : Report) (k : Nat) : Report := (rs.find? fun r => r.inst == k).getD d

theorem runOf_eq {rs : List Report} (h : (rs.map Report.inst).Nodup) {r : Report} (hr : r ∈ rs) (d : Report) : runOf rs d r.inst = r := by
  unfold runOf
  cases e : rs.find? fun q => q.inst == r.inst with
  | none =>
    rw [List.find?_eq_none] at e
    have := e r hr
    simp at this
  | some q =>
    have h1 := List.mem_of_find?_eq_some e
    have h2 : q.inst = r.inst := by simpa using List.find?_some e
    exact List.inj_on_of_nodup_map h h1 hr h2

/-- the pairs in a given order -/
noncomputable def pairsOf (order : List Nat) (hyb cla : List Report) (d : Report) : List (Report × Report) := order.map fun k => (runOf hyb d k, runOf cla d k)

theorem order_run {order : List Nat} {hyb cla : List Report} (ho : SetOrder order hyb cla) (hh : (hyb.map Report.inst).Nodup) (hc : (cla.map Report.inst).Nodup) (d : Report) {k : Nat} (hk : k ∈ order) :
    (runOf hyb d k ∈ hyb ∧ (runOf hyb d k).inst = k ∧ (runOf hyb d k).problem.interrupted = false) ∧ runOf cla d k ∈ cla ∧ (runOf cla d k).inst = k ∧ (runOf cla d k).problem.interrupted = false := by
  obtain ⟨⟨a, a1, rfl, a3⟩, ⟨b, b1, b2, b3⟩⟩ := (ho.mem k).1 hk
  rw [runOf_eq hh a1]
  have e : runOf cla d a.inst = b := by rw [← b2, runOf_eq hc b1]
  rw [e]
  exact ⟨⟨a1, rfl, a3⟩, b1, b2, b3⟩

theorem pairs_same {order : List Nat} {hyb cla : List Report} (ho : SetOrder order hyb cla) (hh : (hyb.map Report.inst).Nodup) (hc : (cla.map Report.inst).Nodup) (d : Report) : SameInstances hyb cla (pairsOf order hyb cla d) := by
  have hr := fun {k} => order_run ho hh hc d (k := k)
  refine ⟨?_, ?_⟩
  · refine (List.nodup_map_iff_inj_on ho.nodup).2 ?_
    intro a ha b hb e
    rw [← (hr ha).1.2.1, ← (hr hb).1.2.1, (Prod.mk.inj e).1]
  · intro q
    constructor
    · intro hq
      obtain ⟨k, hk, rfl⟩ := List.mem_map.1 hq
      obtain ⟨⟨a1, a2, a3⟩, b1, b2, b3⟩ := hr hk
      exact ⟨a1, b1, a2.trans b2.symm, a3, b3⟩
    · rintro ⟨a1, b1, e, a3, b3⟩
      have hk : q.1.inst ∈ order := (ho.mem _).2 ⟨⟨q.1, a1, rfl, a3⟩, ⟨q.2, b1, e.symm, b3⟩⟩
      refine List.mem_map.2 ⟨q.1.inst, hk, ?_⟩
      rw [runOf_eq hh a1]
      rw [e, runOf_eq hc b1]

theorem test_eq {test : List ℚ → List ℚ → Res (Option ℚ)} {order : List Nat} {hyb cla : List Report} (ho : SetOrder order hyb cla) (hh : (hyb.map Report.inst).Nodup) (hc : (cla.map Report.inst).Nodup) (d : Report) (m : Metric) :
    significanceTest test order (metricDict m (hyb.map recordOf)) (metricDict m (cla.map recordOf)) = (do
      let p ← test ((pairsOf order hyb cla d).map fun q => valueOf m q.1) ((pairsOf order hyb cla d).map fun q => valueOf m q.2)
      pure { hybMean := npMean ((pairsOf order hyb cla d).map fun q => valueOf m q.1), claMean := npMean ((pairsOf order hyb cla d).map fun q => valueOf m q.2),
             hybInt := confInt ((pairsOf order hyb cla d).map fun q => valueOf m q.1), claInt := confInt ((pairsOf order hyb cla d).map fun q => valueOf m q.2), p := p }) := by
  have e1 : mapRes (lookupKey (metricDict m (hyb.map recordOf))) order = .ok (order.map fun k => valueOf m (runOf hyb d k)) := mapRes_mapOk (fun k hk => by
    obtain ⟨⟨a1, a2, a3⟩, -⟩ := order_run ho hh hc d hk
    have := dict_lookup m hh a1 a3
    rwa [a2] at this)
  have e2 : mapRes (lookupKey (metricDict m (cla.map recordOf))) order = .ok (order.map fun k => valueOf m (runOf cla d k)) := mapRes_mapOk (fun k hk => by
    obtain ⟨-, b1, b2, b3⟩ := order_run ho hh hc d hk
    have := dict_lookup m hc b1 b3
    rwa [b2] at this)
  unfold significanceTest pairsOf
  rw [e1, ok_bind, e2, ok_bind, List.map_map, List.map_map]
  rfl

theorem readValues_run {rs : List Report} {r : Report} (hr : r ∈ rs) (hi : r.problem.interrupted = false) : ∃ s, readValues ((rs.map recordOf).map Prod.fst) = .ok s := by
  have hm : (recordOf r).1 ∈ (rs.map recordOf).map Prod.fst := List.mem_map_of_mem (f := Prod.fst) (List.mem_map_of_mem hr)
  obtain ⟨s, fr, e1, -⟩ := C79_statistics hm (by simpa [recordOf] using hi)
  exact ⟨_, e1⟩

/-- two directories of result files, with different instances in each and a run that was not interrupted in each -/
structure Spec.BothModes (c c' : Cfg) (hyb cla : List Report) (dirH dirC : List (List Char × List Char)) : Prop where
  hybDir : Directory c hyb dirH
  claDir : Directory c' cla dirC
  hybPlain : ∀ r ∈ hyb, r.Plain
  claPlain : ∀ r ∈ cla, r.Plain
  hybInst : (hyb.map Report.inst).Nodup
  claInst : (cla.map Report.inst).Nodup
  hybSome : ∃ r ∈ hyb, r.problem.interrupted = false
  claSome : ∃ r ∈ cla, r.problem.interrupted = false

theorem meanRows_eq {c c' : Cfg} {hyb cla : List Report} {dirH dirC : List (List Char × List Char)} (h : BothModes c c' hyb cla dirH dirC) {test : List ℚ → List ℚ → Res (Option ℚ)} {order : Metric → List Nat} :
    meanRows test order dirH dirC = mapRes (fun m => do let r ← significanceTest test (order m) (metricDict m (hyb.map recordOf)) (metricDict m (cla.map recordOf)); pure (m, r)) Metric.all := by
  obtain ⟨a, a1, a2⟩ := h.hybSome
  obtain ⟨b, b1, b2⟩ := h.claSome
  obtain ⟨s, e1⟩ := readValues_run a1 a2
  obtain ⟨s', e2⟩ := readValues_run b1 b2
  unfold meanRows
  rw [readFiles_dir h.hybDir h.hybPlain, ok_bind, e1, ok_bind, readFiles_dir h.claDir h.claPlain, ok_bind, e2, ok_bind]

theorem mapRes_each {A B : Type} {f : A → Res B} : ∀ {l : List A} {r : List B}, mapRes f l = .ok r → List.Forall₂ (fun a b => f a = .ok b) l r := by
  intro l
  induction l with
  | nil => intro r h; cases h; exact .nil
  | cons a l ih =>
    intro r h
    rw [mapRes] at h
    obtain ⟨b, e1, h⟩ := bind_eq_ok.1 h
    obtain ⟨t, e2, h⟩ := bind_eq_ok.1 h
    cases h
    exact .cons e1 (ih e2)

/-- C98. In whatever order Python iterates over the sets, each row of the file of means is about the pairs of a hybrid and a classic run that solved the same instance, all of them, each once: the two means and intervals
are those of the values that the result files of these runs show, and the lists that are compared by the test contain the values of a pair at the same position. -/
theorem C98_same {c c' : Cfg} {hyb cla : List Report} {dirH dirC : List (List Char × List Char)} (h : BothModes c c' hyb cla dirH dirC) {test : List ℚ → List ℚ → Res (Option ℚ)} {order : Metric → List Nat}
    (ho : ∀ m, SetOrder (order m) hyb cla) {rows : List (Metric × TestRow)} (e : meanRows test order dirH dirC = .ok rows) :
    List.Forall₂ (fun m row => row.1 = m ∧ ∃ (ps : List (Report × Report)) (vh vc : List ℚ), SameInstances hyb cla ps ∧ List.Forall₂ (fun q v => ValueOf m q.1 v) ps vh ∧ List.Forall₂ (fun q v => ValueOf m q.2 v) ps vc ∧
      IsMean vh row.2.hybMean ∧ IsMean vc row.2.claMean ∧ IsInterval vh row.2.hybInt ∧ IsInterval vc row.2.claInt ∧ test vh vc = .ok row.2.p)
      [.totalTime, .timeBb, .timeToBest, .generated, .explored, .beforeBest, .treeLevel, .bestLevel, .prob, .bestValue] rows := by
  rw [meanRows_eq h] at e
  obtain ⟨d, -⟩ := h.hybSome
  refine (mapRes_each e).imp ?_
  intro m row hrow
  obtain ⟨t, e1, e2⟩ := bind_eq_ok.1 hrow
  cases e2
  rw [test_eq (ho m) h.hybInst h.claInst d m] at e1
  obtain ⟨p, e3, e4⟩ := bind_eq_ok.1 e1
  cases e4
  have hs := pairs_same (ho m) h.hybInst h.claInst d
  have f : ∀ (g : Report × Report → Report), (∀ q ∈ pairsOf (order m) hyb cla d, (g q).problem.interrupted = false) →
      List.Forall₂ (fun q v => ValueOf m (g q) v) (pairsOf (order m) hyb cla d) ((pairsOf (order m) hyb cla d).map fun q => valueOf m (g q)) := by
    intro g hg
    rw [List.forall₂_map_right_iff, List.forall₂_same]
    exact fun q hq => valueOf_spec m (hg q hq)
  exact ⟨rfl, pairsOf (order m) hyb cla d, _, _, hs, f Prod.fst fun q hq => ((hs.pairs q).1 hq).2.2.2.1, f Prod.snd fun q hq => ((hs.pairs q).1 hq).2.2.2.2, npMean_spec _, npMean_spec _, confInt_spec _, confInt_spec _, e3⟩

/-- C98: the rows are written if the test raises no exception -/
theorem C98_succeeds {c c' : Cfg} {hyb cla : List Report} {dirH dirC : List (List Char × List Char)} (h : BothModes c c' hyb cla dirH dirC) {test : List ℚ → List ℚ → Res (Option ℚ)} {order : Metric → List Nat}
    (ho : ∀ m, SetOrder (order m) hyb cla) (ht : ∀ vh vc, vh.length = vc.length → ∃ p, test vh vc = .ok p) : ∃ rows, meanRows test order dirH dirC = .ok rows := by
  rw [meanRows_eq h]
  obtain ⟨d, -⟩ := h.hybSome
  have key : ∀ m, ∃ row, (do let r ← significanceTest test (order m) (metricDict m (hyb.map recordOf)) (metricDict m (cla.map recordOf)); pure (m, r) : Res (Metric × TestRow)) = .ok row := by
    intro m
    rw [test_eq (ho m) h.hybInst h.claInst d m]
    obtain ⟨p, hp⟩ := ht ((pairsOf (order m) hyb cla d).map fun q => valueOf m q.1) ((pairsOf (order m) hyb cla d).map fun q => valueOf m q.2) (by simp)
    rw [hp]
    exact ⟨_, rfl⟩
  choose g hg using key
  exact ⟨_, mapRes_mapOk (g := g) fun m _ => hg m⟩

/-- a test whose result does not depend on the order of the pairs -/
def Spec.PairTest (test : List ℚ → List ℚ → Res (Option ℚ)) : Prop := ∀ l l' : List (ℚ × ℚ), l.Perm l' → test (l.map Prod.fst) (l.map Prod.snd) = test (l'.map Prod.fst) (l'.map Prod.snd)

theorem npMean_perm {l l' : List ℚ} (h : l.Perm l') : npMean l = npMean l' := by
  unfold npMean
  rw [h.length_eq, h.sum_eq]

theorem confInt_perm {l l' : List ℚ} (h : l.Perm l') : confInt l = confInt l' := by
  unfold confInt npVar
  rw [npMean_perm h, h.length_eq]
  have : (fun m : ℚ => (l.map fun x => (x - m) ^ 2).sum / (l'.length : ℚ)) = fun m : ℚ => (l'.map fun x => (x - m) ^ 2).sum / (l'.length : ℚ) := by
    funext m
    rw [(h.map _).sum_eq]
  rw [this]

theorem solved_perm {a b : List Report} (h : a.Perm b) (k : Nat) : (∃ r ∈ a, r.inst = k ∧ r.problem.interrupted = false) ↔ ∃ r ∈ b, r.inst = k ∧ r.problem.interrupted = false := by
  constructor
  · rintro ⟨r, hr, h'⟩; exact ⟨r, h.mem_iff.1 hr, h'⟩
  · rintro ⟨r, hr, h'⟩; exact ⟨r, h.mem_iff.2 hr, h'⟩

/-- C98: if the result of the test does not depend on the order of the pairs, the rows depend neither on the order in which Python iterates over the sets nor on the order in which the files are listed -/
theorem C98_order {c c' : Cfg} {hyb hyb' cla cla' : List Report} {dirH dirH' dirC dirC' : List (List Char × List Char)} (h : BothModes c c' hyb cla dirH dirC) (h' : BothModes c c' hyb' cla' dirH' dirC') (hh : hyb.Perm hyb')
    (hc : cla.Perm cla') {test : List ℚ → List ℚ → Res (Option ℚ)} (ht : PairTest test) {order order' : Metric → List Nat} (ho : ∀ m, SetOrder (order m) hyb cla) (ho' : ∀ m, SetOrder (order' m) hyb' cla') :
    meanRows test order dirH dirC = meanRows test order' dirH' dirC' := by
  rw [meanRows_eq h, meanRows_eq h']
  congr 1
  funext m
  obtain ⟨d, -⟩ := h.hybSome
  rw [test_eq (ho m) h.hybInst h.claInst d m, test_eq (ho' m) h'.hybInst h'.claInst d m]
  have s := pairs_same (ho m) h.hybInst h.claInst d
  have s' := pairs_same (ho' m) h'.hybInst h'.claInst d
  have hp : (pairsOf (order m) hyb cla d).Perm (pairsOf (order' m) hyb' cla' d) := by
    rw [List.perm_ext_iff_of_nodup s.nodup s'.nodup]
    intro q
    rw [s.pairs, s'.pairs, hh.mem_iff, hc.mem_iff]
  have hv : ((pairsOf (order m) hyb cla d).map fun q => (valueOf m q.1, valueOf m q.2)).Perm ((pairsOf (order' m) hyb' cla' d).map fun q => (valueOf m q.1, valueOf m q.2)) := hp.map _
  have e := ht _ _ hv
  simp only [List.map_map, Function.comp_def] at e
  rw [e, npMean_perm (hp.map fun q => valueOf m q.1), npMean_perm (hp.map fun q => valueOf m q.2), confInt_perm (hp.map fun q => valueOf m q.1), confInt_perm (hp.map fun q => valueOf m q.2)]

end Verif
