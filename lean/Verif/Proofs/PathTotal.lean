import Verif.Proofs.Fixing

/-!
# `max_edge_path_1Tree` always finds its path
-/
namespace Verif
open Verif.Spec
set_option autoImplicit false

variable [Rounding]

variable {t : MST} {n : Nat} {E : EdgeSet} {start stop cand : Nat}

/-- the search without the closure: `ks` are the indices on the stack, `vis` the visited nodes, latest first -/
structure PReach (t : MST) (n cand : Nat) (E : EdgeSet) (start : Nat) (s : PathState) (ks vis : List Nat) : Prop where
  stack : s.stack = ks.map t.nodes
  kslt : ∀ k ∈ ks, k < n ∧ k ≠ cand
  seen : ∀ x, s.visited x = true ↔ x ∈ vis
  visn : ∀ x ∈ vis, x < n ∧ x ≠ cand
  nodup : vis.Nodup
  par : ∀ x q, s.parent x = some q → q ∈ vis ∧ s(q, x) ∈ E
  ksp : ∀ k ∈ ks, k ≠ start → s.parent k ≠ none
  anc : ∀ A x B, vis = A ++ x :: B → x ≠ start → ∃ q ∈ B, s.parent x = some q

omit [Rounding] in
theorem pathNbrs_ok (ctx : DCtx t n E) {x : Nat} (hx : x < n) : ∀ (l : List Nat) (s : PathState) (ks vis : List Nat), (∀ y ∈ l, s(x, y) ∈ E) →
    PReach t n cand E start s ks vis → x ∈ vis →
    ∃ s', forList (pathNbr t cand (t.nodes x)) l s = .ok s' ∧ s'.visited = s.visited ∧
      PReach t n cand E start s' ((l.filter (fun y => !s.visited y && !decide (cand = y))).reverse ++ ks) vis := by
  intro l
  induction l with
  | nil => intro s ks vis _ h _; exact ⟨s, rfl, rfl, by simpa using h⟩
  | cons y l ih =>
    intro s ks vis hl h hxv
    have hxy := hl y (by simp)
    obtain ⟨-, hy, -⟩ := ctx.within _ _ hxy
    rw [forList]
    by_cases hc : s.visited y = false ∧ cand ≠ y
    · set s1 : PathState := { s with parent := upd s.parent y (some x), stack := t.nodes y :: s.stack } with hs1
      have estep : pathNbr t cand (t.nodes x) s y = .ok s1 := by
        unfold pathNbr
        rw [if_neg (by rw [ctx.nn]; omega), if_pos hc, ctx.pos x hx]
      have hyv : y ∉ vis := by rw [← h.seen]; simp [hc.1]
      have h1 : PReach t n cand E start s1 (y :: ks) vis := by
        refine ⟨by show t.nodes y :: s.stack = _; rw [h.stack]; rfl, ?_, h.seen, h.visn, h.nodup, ?_, ?_, ?_⟩
        · intro k hk
          rcases List.mem_cons.1 hk with rfl | hk
          · exact ⟨hy, fun h' => hc.2 h'.symm⟩
          · exact h.kslt k hk
        · intro z q hq
          have hq' : upd s.parent y (some x) z = some q := hq
          rw [upd_apply] at hq'
          split at hq'
          · next hz => cases hq'; subst hz; exact ⟨hxv, hxy⟩
          · exact h.par z q hq'
        · intro k hk hks
          show upd s.parent y (some x) k ≠ none
          rw [upd_apply]; split
          · simp
          · next hky =>
            rcases List.mem_cons.1 hk with h' | h'
            · exact absurd h' hky
            · exact h.ksp k h' hks
        · intro A z B hv hz
          obtain ⟨q, hq, hp⟩ := h.anc A z B hv hz
          have hzy : z ≠ y := by rintro rfl; exact hyv (by rw [hv]; simp)
          exact ⟨q, hq, by show upd s.parent y (some x) z = _; rw [upd_ne _ _ hzy]; exact hp⟩
      obtain ⟨s', e1, e2, e3⟩ := ih s1 (y :: ks) vis (fun z hz => hl z (by simp [hz])) h1 hxv
      refine ⟨s', by rw [estep]; exact e1, e2, ?_⟩
      rw [List.filter_cons_of_pos (by simp [hc.1, hc.2]), List.reverse_cons, List.append_assoc]
      exact e3
    · have estep : pathNbr t cand (t.nodes x) s y = .ok s := by
        unfold pathNbr
        rw [if_neg (by rw [ctx.nn]; omega), if_neg hc]
      obtain ⟨s', e1, e2, e3⟩ := ih s ks vis (fun z hz => hl z (by simp [hz])) h hxv
      refine ⟨s', by rw [estep]; exact e1, e2, ?_⟩
      rw [List.filter_cons_of_neg (by simp only [Bool.and_eq_true, Bool.not_eq_true', decide_eq_false_iff_not]; exact hc)]
      exact e3

/-- work left -/
def ppot (t : MST) (n : Nat) (s : PathState) : Nat := s.stack.length + ∑ i ∈ (Finset.range n).filter (fun i => s.visited i = false), (t.nodes i).nn

/-- the invariant of the search -/
structure PSearch (t : MST) (n cand : Nat) (E : EdgeSet) (start : Nat) (s : PathState) (ks vis : List Nat) : Prop extends PReach t n cand E start s ks vis where
  closed : ∀ x ∈ vis, ∀ y, s(x, y) ∈ E → y ≠ cand → y ∈ vis ∨ y ∈ ks
  begun : start ∈ vis ∨ ks = [start]

omit [Rounding] in
theorem pathStep_total (ctx : DCtx t n E) {s : PathState} {x : Nat} {ks vis : List Nat} (h : PSearch t n cand E start s (x :: ks) vis) :
    ∃ s' ks' vis', pathStep t cand s (t.nodes x) (ks.map t.nodes) = .ok s' ∧ PSearch t n cand E start s' ks' vis' ∧ ppot t n s' < ppot t n s := by
  have hx := h.kslt x (by simp)
  unfold pathStep
  rw [ctx.pos x hx.1, if_neg (by rw [ctx.nn]; omega)]
  by_cases hv : s.visited x = false
  · rw [if_pos hv]
    have hxv : x ∉ vis := by rw [← h.seen]; simp [hv]
    set s1 : PathState := { s with stack := ks.map t.nodes, visited := upd s.visited x true } with hs1
    have h1 : PReach t n cand E start s1 ks (x :: vis) := by
      refine ⟨rfl, fun k hk => h.kslt k (by simp [hk]), ?_, ?_, List.nodup_cons.2 ⟨hxv, h.nodup⟩, ?_, fun k hk => h.ksp k (by simp [hk]), ?_⟩
      · intro z
        show upd s.visited x true z = true ↔ _
        rw [upd_apply, List.mem_cons, ← h.seen z]
        split <;> simp_all
      · intro z hz
        rcases List.mem_cons.1 hz with rfl | hz
        · exact hx
        · exact h.visn z hz
      · intro z q hq
        have := h.par z q hq
        exact ⟨by simp [this.1], this.2⟩
      · intro A z B hv' hz
        cases A with
        | nil =>
          simp only [List.nil_append, List.cons.injEq] at hv'
          obtain ⟨rfl, rfl⟩ := hv'
          obtain ⟨q, hq⟩ := Option.ne_none_iff_exists'.1 (h.ksp x (by simp) hz)
          exact ⟨q, (h.par x q hq).1, hq⟩
        | cons a A =>
          simp only [List.cons_append, List.cons.injEq] at hv'
          exact h.anc A z B hv'.2 hz
    obtain ⟨s', e1, e2, e3⟩ := pathNbrs_ok ctx hx.1 (t.nodes x).list s1 ks (x :: vis) (fun y hy => (ctx.nbr x hx.1 y).1 hy) h1 (by simp)
    refine ⟨s', _, x :: vis, e1, ⟨e3, ?_, ?_⟩, ?_⟩
    · intro z hz y hzy hyc
      rw [List.mem_append, List.mem_reverse, List.mem_filter]
      rcases List.mem_cons.1 hz with rfl | hz
      · have hy := (ctx.nbr z hx.1 y).2 hzy
        by_cases hyv : y ∈ z :: vis
        · exact Or.inl hyv
        · right; left
          refine ⟨hy, ?_⟩
          have : s1.visited y = false := by
            by_contra hcon
            exact hyv ((h1.seen y).1 (by simpa using hcon))
          simp [this, hyc.symm]
      · rcases h.closed z hz y hzy hyc with h' | h'
        · exact Or.inl (by simp [h'])
        · rcases List.mem_cons.1 h' with rfl | h'
          · exact Or.inl (by simp)
          · exact Or.inr (Or.inr h')
    · left
      rcases h.begun with h' | h'
      · simp [h']
      · simp only [List.cons.injEq] at h'; rw [h'.1]; simp
    · unfold ppot
      have q1 : ((t.nodes x).list.filter (fun y => !s1.visited y && !decide (cand = y))).length ≤ (t.nodes x).nn := by
        rw [Node.nn_eq]; exact List.length_filter_le _ _
      have q2 : (Finset.range n).filter (fun i => s'.visited i = false) = ((Finset.range n).filter (fun i => s.visited i = false)).erase x := by
        ext i
        rw [e2, Finset.mem_erase, Finset.mem_filter, Finset.mem_filter]
        show _ ∧ upd s.visited x true i = false ↔ _
        by_cases hix : i = x
        · simp [hix]
        · rw [upd_ne _ _ hix]; tauto
      have q3 : x ∈ (Finset.range n).filter (fun i => s.visited i = false) := by simp [hx.1, hv]
      rw [q2, h.stack, e3.stack, ← Finset.add_sum_erase _ _ q3]
      simp only [List.length_map, List.length_append, List.length_reverse, List.length_cons]
      omega
  · rw [if_neg hv]
    have hv' : s.visited x = true := by simpa using hv
    refine ⟨_, ks, vis, rfl, ⟨⟨rfl, fun k hk => h.kslt k (by simp [hk]), h.seen, h.visn, h.nodup, h.par, fun k hk => h.ksp k (by simp [hk]), h.anc⟩, ?_, ?_⟩, ?_⟩
    · intro z hz y hzy hyc
      rcases h.closed z hz y hzy hyc with h' | h'
      · exact Or.inl h'
      · rcases List.mem_cons.1 h' with rfl | h'
        · exact Or.inl ((h.seen y).1 hv')
        · exact Or.inr h'
    · left
      rcases h.begun with h' | h'
      · exact h'
      · simp only [List.cons.injEq] at h'; rw [← h'.1]; exact (h.seen x).1 hv'
    · unfold ppot; rw [h.stack]; simp

omit [Rounding] in
theorem pathLoop_total (ctx : DCtx t n E) : ∀ (fuel : Nat) (s : PathState) (ks vis : List Nat), PSearch t n cand E start s ks vis → ppot t n s < fuel →
    ∃ s' ks' vis', pathLoop t cand stop fuel s = .ok s' ∧ PSearch t n cand E start s' ks' vis' ∧ (ks' = [] ∨ s'.parent stop ≠ none) := by
  intro fuel
  induction fuel with
  | zero => intro s ks vis _ h; omega
  | succ fuel ih =>
    intro s ks vis h hf
    rw [pathLoop]
    cases ks with
    | nil => exact ⟨s, [], vis, by rw [h.stack]; rfl, h, Or.inl rfl⟩
    | cons x ks =>
      by_cases hp : s.parent stop = none
      · obtain ⟨s1, ks1, vis1, e1, h1, h2⟩ := pathStep_total ctx h
        obtain ⟨s2, ks2, vis2, e2, h3, h4⟩ := ih s1 ks1 vis1 h1 (by omega)
        refine ⟨s2, ks2, vis2, ?_, h3, h4⟩
        rw [h.stack]
        simp only [List.map_cons]
        rw [if_pos hp, e1]; exact e2
      · refine ⟨s, _, vis, ?_, h, Or.inr hp⟩
        rw [h.stack]
        simp only [List.map_cons]
        rw [if_neg hp]

omit [Rounding] in
/-- when the search is over, every node that the start reaches away from the candidate has a parent -/
theorem PSearch.finds {s : PathState} {ks vis : List Nat} (h : PSearch t n cand E start s ks vis) (he : ks = [] ∨ s.parent stop ≠ none) (hne : start ≠ stop)
    (hconn : Conn (away cand E) start stop) : s.parent stop ≠ none := by
  rcases he with rfl | he
  · have hs : start ∈ vis := by
      rcases h.begun with h' | h'
      · exact h'
      · cases h'
    have hall : ∀ z, Conn (away cand E) start z → z ∈ vis := by
      intro z hz
      induction hz with
      | refl => exact hs
      | @tail a b _ hab ih =>
        obtain ⟨q1, q2⟩ := mem_away.1 hab
        rcases h.closed a ih b q1 (by rintro rfl; exact q2 (by simp)) with h' | h'
        · exact h'
        · cases h'
    obtain ⟨A, B, hv⟩ := List.append_of_mem (hall stop hconn)
    obtain ⟨q, -, hq⟩ := h.anc A stop B hv hne.symm
    rw [hq]; simp
  · exact he

variable {c : Cfg} {p : Problem} {sp : SubProblem} {L : List Edge}

/-- the walk back reaches the start; the nodes still to come are in `B` -/
theorem pathWalk_total (h : FixReady c p sp L) {s : PathState} {ks vis : List Nat} (hr : PReach sp.oneTree c.maxV p.cand (pairs L) start s ks vis) (w : ℚ) :
    ∀ (m : Nat) (A B : List Nat), vis = A ++ B → B.length ≤ m → ∀ (fuel dst q : Nat) (r : ℚ × (Nat → ℚ)), dst < c.maxV → dst ≠ p.cand → s.parent dst = some q → q ∈ B → m < fuel →
    ∃ r', pathWalk c p.graph sp s.parent start w fuel dst r = .ok r' := by
  intro m
  induction m with
  | zero =>
    intro A B _ hB fuel dst q r _ _ _ hq
    rw [List.length_eq_zero_iff.1 (by omega : B.length = 0)] at hq; cases hq
  | succ m ih =>
    intro A B hv hB fuel dst q r hd hdc hp hq hf
    obtain ⟨fuel, rfl⟩ : ∃ f, fuel = f + 1 := ⟨fuel - 1, by omega⟩
    unfold pathWalk
    simp only [hp]
    obtain ⟨hqv, hqE⟩ := hr.par dst q hp
    obtain ⟨hqn, hqc⟩ := hr.visn q hqv
    have hm := h.rep.mat_mem h.simple hqn hd
    rw [if_pos (fun h' => hm.1.1 h' hqE)]
    have hone : ∃ r1, (if sp.cons q dst = .nothing then
            let p' := sp.oneTree.mat q dst
            if p' < 0 ∨ p' ≥ c.maxV then .error .oob else
            let e := sp.oneTree.edges p'.toNat
            let we := (p.graph.mat e.src e.dest).weight
            if e.pos ≥ c.maxV - 2 then .error .oob else
            .ok (if we > r.1 then we else r.1, if w < fl (we + r.2 e.pos) then upd r.2 e.pos (fl (w - we)) else r.2)
          else .ok r : Res (ℚ × (Nat → ℚ))) = .ok r1 := by
      split
      · obtain ⟨x, hx, hxe⟩ := mem_pairs.1 hqE
        obtain ⟨i, hi, rfl⟩ := List.mem_iff_getElem.1 hx
        have hmi := hm.2 i hi hxe
        have hiL : i < c.maxV := by rw [← h.len]; exact hi
        simp only [hmi]
        rw [if_neg (by omega), Int.toNat_natCast]
        have hpi : (sp.oneTree.edges i).pos = i := by rw [h.rep.edges i hi]
        rw [hpi, if_neg]
        · exact ⟨_, rfl⟩
        · intro hge
          have := (h.off i hi).2 hge
          rw [hxe] at this
          simp only [Sym2.mem_iff] at this
          rcases this with h' | h'
          · exact hqc h'.symm
          · exact hdc h'.symm
      · exact ⟨r, rfl⟩
    obtain ⟨r1, e1⟩ := hone
    simp only at e1
    rw [e1]
    simp only [ok_bind]
    by_cases hqs : q = start
    · rw [if_pos hqs]; exact ⟨_, rfl⟩
    · rw [if_neg hqs]
      obtain ⟨B1, B2, rfl⟩ := List.append_of_mem hq
      obtain ⟨q', hq', hp'⟩ := hr.anc (A ++ B1) q B2 (by rw [hv, List.append_assoc]) hqs
      refine ih (A ++ B1 ++ [q]) B2 (by rw [hv]; simp) ?_ fuel q q' r1 hqn hqc hp' hq' (by omega)
      rw [List.length_append, List.length_cons] at hB; omega

/-- `max_edge_path_1Tree` returns -/
theorem maxEdgePath_total (h : FixReady c p sp L) {start stop : Nat} (hs : start < c.maxV) (hsc : start ≠ p.cand) (ht : stop < c.maxV) (htc : stop ≠ p.cand)
    (hne : start ≠ stop) (repl : Nat → ℚ) : ∃ r, maxEdgePath c p.graph sp p.cand repl start stop = .ok r := by
  have st := storedTree_of_rep h.rep h.simple h.pos
  have hT : treeEdges sp.oneTree = pairs L := h.rep.treeEdges
  have ctx : DCtx sp.oneTree c.maxV (pairs L) := by
    refine ⟨h.rep.nn, h.pos, ?_, ?_⟩
    · intro u hu v; rw [← hT]; exact st.nbr u (by rw [h.rep.nn]; exact hu) v
    · intro u v huv
      have := st.within u v (by rw [hT]; exact huv)
      rw [h.rep.nn] at this; exact this
  unfold maxEdgePath
  simp only [findStart_ok ctx hs]
  have h0 : PSearch sp.oneTree c.maxV p.cand (pairs L) start { parent := fun _ => none, visited := fun _ => false, stack := [sp.oneTree.nodes start] } [start] [] := by
    refine ⟨⟨rfl, by simp [hs, hsc], by simp, by simp, by simp, by simp, by simp, by simp⟩, by simp, Or.inr rfl⟩
  obtain ⟨s, ks, vis, e1, h1, h2⟩ := pathLoop_total (stop := stop) ctx (((List.range sp.oneTree.numNodes).map fun i => (sp.oneTree.nodes i).nn).sum + 2) _ _ _ h0 (by
    have := pot0 (start := start) ctx
    unfold pot dfs0 at this
    unfold ppot
    exact this)
  rw [e1]
  simp only [ok_bind]
  have hfound := h1.finds h2 hne (h.conn start (Finset.mem_erase.2 ⟨hsc, Finset.mem_range.2 hs⟩) stop (Finset.mem_erase.2 ⟨htc, Finset.mem_range.2 ht⟩))
  obtain ⟨q, hq⟩ := Option.ne_none_iff_exists'.1 hfound
  have hlen : vis.length ≤ c.maxV := by
    have : vis.toFinset ⊆ Finset.range c.maxV := by intro x hx; rw [List.mem_toFinset] at hx; exact Finset.mem_range.2 (h1.visn x hx).1
    have := Finset.card_le_card this
    rw [List.toFinset_card_of_nodup h1.nodup, Finset.card_range] at this; exact this
  obtain ⟨r, e2⟩ := pathWalk_total h h1.toPReach (p.graph.mat start stop).weight c.maxV [] vis rfl hlen (sp.oneTree.numNodes + 1) stop q (-1, repl) ht htc hq (h1.par stop q hq).1
    (by rw [h.rep.nn]; omega)
  rw [e2]
  exact ⟨_, rfl⟩

end Verif
