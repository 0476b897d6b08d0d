import Verif.Model.Dfs
import Verif.Proofs.OneTree
import Verif.Proofs.Tour

/-!
# Invariants of `dfs`
-/
namespace Verif
open Verif.Spec
set_option autoImplicit false

/-- what `dfs` needs to know about the tree: positions are indices, and the neighbour lists describe the edge set `E` -/
structure DCtx (t : MST) (n : Nat) (E : EdgeSet) : Prop where
  nn : t.numNodes = n
  pos : ∀ i < n, (t.nodes i).pos = i
  nbr : ∀ u < n, ∀ v, v ∈ (t.nodes u).list ↔ s(u, v) ∈ E
  within : ∀ u v, s(u, v) ∈ E → u < n ∧ v < n ∧ u ≠ v

/-- distance from the start in the search tree -/
def dep (s : DState) (start x : Nat) : Nat := if x = start then 0 else s.len x

/-- the invariant of the search; `ks` are the indices of the nodes on the stack -/
structure DInv (t : MST) (n : Nat) (E : EdgeSet) (start : Nat) (s : DState) (ks : List Nat) : Prop where
  stack : s.stack = ks.map t.nodes
  kslt : ∀ k ∈ ks, k < n
  par : ∀ x, x ≠ start → (s.visited x = true ∨ x ∈ ks) → ∃ p, s.parent x = some p ∧ s.visited p = true ∧ p < n ∧ s(p, x) ∈ E ∧ s.len x = dep s start p + 1
  some : ∀ q, s.parent start = some q → s.visited start = true ∧ s.visited q = true ∧ q < n ∧ q ≠ start ∧ s(q, start) ∈ E ∧ s.len start = dep s start q + 1 ∧ 3 ≤ s.len start
  none : s.parent start = none → s.len start = 0

variable {t : MST} {n : Nat} {E : EdgeSet} {start : Nat}

/-- the loop over (part of) the neighbours of `x` -/
theorem dfsNbrs_ok (ctx : DCtx t n E) {x : Nat} (hx : x < n) : ∀ (l : List Nat) (s : DState) (ks : List Nat), (∀ y ∈ l, s(x, y) ∈ E) →
    DInv t n E start s ks → s.visited x = true → s.visited start = true → (x = start → s.parent start = none) →
    ∃ s', forList (dfsNbr t (t.nodes x)) l s = .ok s' ∧
      DInv t n E start s' ((l.filter (fun y => !s.visited y)).reverse ++ ks) ∧ s'.visited = s.visited ∧
      (x = start → s'.parent start = none) ∧
      (∀ y, y ≠ start → s.visited y = true ∨ y ∉ l → s'.len y = s.len y) ∧
      (∀ y, y ∈ l → s.visited y = false → s'.len y = dep s start x + 1) ∧
      (s.parent start ≠ none → s'.parent start ≠ none) ∧
      (start ∈ l → 2 ≤ dep s start x → s'.parent start ≠ none) := by
  intro l
  induction l with
  | nil =>
    intro s ks _ inv _ _ hno
    exact ⟨s, rfl, by simpa using inv, rfl, hno, fun _ _ _ => rfl, by simp, id, by simp⟩
  | cons y l ih =>
    intro s ks hl inv hvx hvs hno
    have hxy := hl y (by simp)
    obtain ⟨-, hy, hne⟩ := ctx.within _ _ hxy
    have hpx := ctx.pos x hx
    have hlenx : s.len x = dep s start x := by
      unfold dep; split
      · rename_i h; rw [h]; exact inv.none (hno h)
      · rfl
    rw [forList]
    by_cases hv : s.visited y = true
    · by_cases hp : s.parent y = Option.none ∧ 2 < s.len x + 1
      · -- the start is reached again
        have hys : y = start := by
          by_contra h
          obtain ⟨p, h1, -⟩ := inv.par y h (Or.inl hv)
          rw [hp.1] at h1; cases h1
        subst hys
        have hxs : x ≠ y := hne
        set s1 : DState := { s with parent := upd s.parent y (some x), len := upd s.len y (s.len x + 1) } with hs1
        have estep : dfsNbr t (t.nodes x) s y = .ok s1 := by
          unfold dfsNbr
          rw [if_neg (by rw [ctx.nn]; omega), hpx, if_neg (by rw [hv]; simp), if_pos hp.1, if_pos (by omega)]
        have hdep : ∀ z, dep s1 y z = dep s y z := by
          intro z; unfold dep
          by_cases hz : z = y
          · simp [hz]
          · rw [if_neg hz, if_neg hz]; show upd s.len y _ z = _; rw [upd_ne _ _ hz]
        have inv1 : DInv t n E y s1 ks := by
          refine ⟨inv.stack, inv.kslt, ?_, ?_, ?_⟩
          · intro z hz hh
            obtain ⟨p, h1, h2, h3, h4, h5⟩ := inv.par z hz hh
            exact ⟨p, by show upd s.parent y _ z = _; rw [upd_ne _ _ hz]; exact h1, h2, h3, h4,
              by rw [hdep]; show upd s.len y _ z = _; rw [upd_ne _ _ hz]; exact h5⟩
          · intro q hq
            have hqx : q = x := by
              have : some x = some q := by rw [← hq]; show _ = upd s.parent y _ y; simp
              cases this; rfl
            subst hqx
            refine ⟨hvs, hvx, hx, hxs, hxy, ?_, ?_⟩
            · rw [hdep, ← hlenx]; show upd s.len y _ y = _; simp
            · show 3 ≤ upd s.len y _ y; simp; omega
          · intro h
            exfalso
            have : some x = Option.none := by rw [← h]; show _ = upd s.parent y _ y; simp
            cases this
        obtain ⟨s', e1, e2, e3, e4, e5, e6, e7, e8⟩ := ih s1 ks (fun z hz => hl z (by simp [hz])) inv1 hvx hvs (fun h => absurd h hxs)
        have hpn : s1.parent y ≠ Option.none := by show upd s.parent y _ y ≠ _; simp
        refine ⟨s', by rw [estep]; exact e1, ?_, e3, e4, ?_, ?_, fun _ => e7 hpn, fun _ _ => e7 hpn⟩
        · rw [List.filter_cons_of_neg (by simp [hv])]; exact e2
        · intro z hz hh
          rw [e5 z hz (by rcases hh with h | h; exacts [Or.inl h, Or.inr (fun h' => h (by simp [h']))])]
          show upd s.len y _ z = _; rw [upd_ne _ _ hz]
        · intro z hz hzv
          rcases List.mem_cons.1 hz with rfl | h'
          · rw [hv] at hzv; cases hzv
          · rw [e6 z h' hzv, hdep]
      · have estep : dfsNbr t (t.nodes x) s y = .ok s := by
          unfold dfsNbr
          rw [if_neg (by rw [ctx.nn]; omega), hpx, if_neg (by rw [hv]; simp)]
          by_cases hp' : s.parent y = Option.none
          · rw [if_pos hp', if_neg (by intro h; exact hp ⟨hp', h⟩)]
          · rw [if_neg hp']
        obtain ⟨s', e1, e2, e3, e4, e5, e6, e7, e8⟩ := ih s ks (fun z hz => hl z (by simp [hz])) inv hvx hvs hno
        refine ⟨s', by rw [estep]; exact e1, ?_, e3, e4, ?_, ?_, e7, ?_⟩
        · rw [List.filter_cons_of_neg (by simp [hv])]; exact e2
        · intro z hz hh
          exact e5 z hz (by rcases hh with h | h; exacts [Or.inl h, Or.inr (fun h' => h (by simp [h']))])
        · intro z hz hzv
          rcases List.mem_cons.1 hz with rfl | h'
          · rw [hv] at hzv; cases hzv
          · exact e6 z h' hzv
        · intro hs h2
          rcases List.mem_cons.1 hs with rfl | h'
          · refine e7 ?_
            intro h; exact hp ⟨h, by omega⟩
          · exact e8 h' h2
    · have hv' : s.visited y = false := by simpa using hv
      have hys : y ≠ start := by rintro rfl; exact hv hvs
      set s1 : DState := { s with len := upd s.len y (s.len x + 1), parent := upd s.parent y (some x), stack := t.nodes y :: s.stack } with hs1
      have estep : dfsNbr t (t.nodes x) s y = .ok s1 := by
        unfold dfsNbr
        rw [if_neg (by rw [ctx.nn]; omega), hpx, if_pos hv']
      have hdep : ∀ z, s.visited z = true → dep s1 start z = dep s start z := by
        intro z hz; unfold dep
        have hzy : z ≠ y := by rintro rfl; exact hv hz
        show (if z = start then 0 else upd s.len y _ z) = _
        rw [upd_ne _ _ hzy]
      have inv1 : DInv t n E start s1 (y :: ks) := by
        refine ⟨by show t.nodes y :: s.stack = _; rw [inv.stack]; rfl, ?_, ?_, ?_, ?_⟩
        · intro k hk
          rcases List.mem_cons.1 hk with rfl | hk
          · exact hy
          · exact inv.kslt k hk
        · intro z hz hh
          by_cases hzy : z = y
          · subst hzy
            refine ⟨x, by show upd s.parent z _ z = _; simp, hvx, hx, hxy, ?_⟩
            rw [hdep x hvx, ← hlenx]; show upd s.len z _ z = _; simp
          · obtain ⟨p, h1, h2, h3, h4, h5⟩ := inv.par z hz (by
              rcases hh with h | h
              · exact Or.inl h
              · rcases List.mem_cons.1 h with h' | h'
                · exact absurd h' hzy
                · exact Or.inr h')
            exact ⟨p, by show upd s.parent y _ z = _; rw [upd_ne _ _ hzy]; exact h1, h2, h3, h4,
              by rw [hdep p h2]; show upd s.len y _ z = _; rw [upd_ne _ _ hzy]; exact h5⟩
        · intro q hq
          have hq' : s.parent start = some q := by
            rw [← hq]; show _ = upd s.parent y _ start; rw [upd_ne _ _ (Ne.symm hys)]
          obtain ⟨h0, h1, h2, h3, h4, h5, h6⟩ := inv.some q hq'
          have hls : s1.len start = s.len start := by show upd s.len y _ start = _; rw [upd_ne _ _ (Ne.symm hys)]
          exact ⟨h0, h1, h2, h3, h4, by rw [hls, hdep q h1]; exact h5, by rw [hls]; exact h6⟩
        · intro h
          have hq' : s.parent start = Option.none := by
            rw [← h]; show _ = upd s.parent y _ start; rw [upd_ne _ _ (Ne.symm hys)]
          rw [← inv.none hq']; show upd s.len y _ start = _; rw [upd_ne _ _ (Ne.symm hys)]
      have hps : s1.parent start = s.parent start := by show upd s.parent y _ start = _; rw [upd_ne _ _ (Ne.symm hys)]
      obtain ⟨s', e1, e2, e3, e4, e5, e6, e7, e8⟩ := ih s1 (y :: ks) (fun z hz => hl z (by simp [hz])) inv1 hvx hvs (fun h => by rw [hps]; exact hno h)
      refine ⟨s', by rw [estep]; exact e1, ?_, e3, e4, ?_, ?_, fun h => e7 (by rw [hps]; exact h), ?_⟩
      · rw [List.filter_cons_of_pos (by simp [hv']), List.reverse_cons, List.append_assoc]; exact e2
      · intro z hz hh
        have hzy : z ≠ y := by
          rintro rfl
          rcases hh with h | h
          · exact hv h
          · simp at h
        rw [e5 z hz (by rcases hh with h | h; exacts [Or.inl h, Or.inr (fun h' => h (by simp [h']))])]
        show upd s.len y _ z = _; rw [upd_ne _ _ hzy]
      · intro z hz hzv
        by_cases hzl : z ∈ l
        · rw [e6 z hzl hzv, hdep x hvx]
        · rcases List.mem_cons.1 hz with rfl | h'
          · rw [e5 z hys (Or.inr hzl)]
            show upd s.len z _ z = _; simp [hlenx]
          · exact absurd h' hzl
      · intro hs h2
        rcases List.mem_cons.1 hs with h' | h'
        · exact absurd h'.symm hys
        · exact e8 h' (by rw [hdep x hvx]; exact h2)

/-- work left: nodes on the stack and neighbours of nodes not visited yet -/
def pot (t : MST) (n : Nat) (s : DState) : Nat := s.stack.length + ∑ i ∈ (Finset.range n).filter (fun i => s.visited i = false), (t.nodes i).nn

/-- a round on a node visited before -/
theorem dfsStep_old (ctx : DCtx t n E) {s : DState} {x : Nat} {ks : List Nat} (inv : DInv t n E start s (x :: ks)) (hv : s.visited x = true) :
    dfsStep t s (t.nodes x) (ks.map t.nodes) = .ok { s with stack := ks.map t.nodes } ∧ DInv t n E start { s with stack := ks.map t.nodes } ks := by
  have hx := inv.kslt x (by simp)
  constructor
  · unfold dfsStep
    rw [ctx.pos x hx, if_neg (by rw [ctx.nn]; omega), if_neg (by rw [hv]; simp)]
  · refine ⟨rfl, fun k hk => inv.kslt k (by simp [hk]), ?_, inv.some, inv.none⟩
    intro z hz hh
    exact inv.par z hz (by rcases hh with h | h; exacts [Or.inl h, Or.inr (by simp [h])])

/-- a round on a new node -/
theorem dfsStep_new (ctx : DCtx t n E) {s : DState} {x : Nat} {ks : List Nat} (inv : DInv t n E start s (x :: ks)) (hv : s.visited x = false)
    (hst : x = start ∨ s.visited start = true) (hno : s.parent start = none) :
    ∃ s', dfsStep t s (t.nodes x) (ks.map t.nodes) = .ok s' ∧
      DInv t n E start s' (((t.nodes x).list.filter (fun y => !upd s.visited x true y)).reverse ++ ks) ∧ s'.visited = upd s.visited x true ∧
      (∀ y, y ≠ start → upd s.visited x true y = true ∨ y ∉ (t.nodes x).list → s'.len y = s.len y) ∧
      (∀ y, y ∈ (t.nodes x).list → upd s.visited x true y = false → s'.len y = dep s start x + 1) ∧
      (start ∈ (t.nodes x).list → 2 ≤ dep s start x → s'.parent start ≠ none) := by
  have hx := inv.kslt x (by simp)
  set s1 : DState := { s with stack := ks.map t.nodes, visited := upd s.visited x true } with hs1
  have hmono : ∀ z, s.visited z = true → s1.visited z = true := by
    intro z hz; show upd s.visited x true z = true; unfold upd; split <;> simp [hz]
  have hvx : s1.visited x = true := by show upd s.visited x true x = true; simp
  have inv1 : DInv t n E start s1 ks := by
    refine ⟨rfl, fun k hk => inv.kslt k (by simp [hk]), ?_, ?_, inv.none⟩
    · intro z hz hh
      obtain ⟨p, h1, h2, h3⟩ := inv.par z hz (by
        rcases hh with h | h
        · by_cases hzx : z = x
          · right; simp [hzx]
          · left; rw [← h]; show _ = upd s.visited x true z; rw [upd_ne _ _ hzx]
        · right; simp [h])
      exact ⟨p, h1, hmono p h2, h3⟩
    · intro q hq; exact absurd hq (by show s.parent start ≠ some q; rw [hno]; simp)
  obtain ⟨s', e1, e2, e3, e4, e5, e6, e7, e8⟩ := dfsNbrs_ok ctx hx (t.nodes x).list s1 ks (fun y hy => (ctx.nbr x hx y).1 hy) inv1 hvx
    (by rcases hst with rfl | h; exacts [hvx, hmono _ h]) (fun _ => hno)
  refine ⟨s', ?_, e2, e3, e5, e6, e8⟩
  unfold dfsStep
  rw [ctx.pos x hx, if_neg (by rw [ctx.nn]; omega), if_pos hv]
  exact e1

theorem pot_old {s : DState} {x : Nat} {ks : List Nat} (hs : s.stack = (x :: ks).map t.nodes) :
    pot t n { s with stack := ks.map t.nodes } < pot t n s := by
  unfold pot; rw [hs]; simp

theorem pot_new {s s' : DState} {x : Nat} {ks : List Nat} (hx : x < n) (hs : s.stack = (x :: ks).map t.nodes) (hv : s.visited x = false)
    (hs' : s'.stack = (((t.nodes x).list.filter (fun y => !upd s.visited x true y)).reverse ++ ks).map t.nodes) (hv' : s'.visited = upd s.visited x true) :
    pot t n s' < pot t n s := by
  unfold pot
  have h1 : ((t.nodes x).list.filter (fun y => !upd s.visited x true y)).length ≤ (t.nodes x).nn := by
    rw [Node.nn_eq]; exact List.length_filter_le _ _
  have h2 : (Finset.range n).filter (fun i => s'.visited i = false) = ((Finset.range n).filter (fun i => s.visited i = false)).erase x := by
    ext i
    rw [hv', Finset.mem_erase, Finset.mem_filter, Finset.mem_filter]
    by_cases hix : i = x
    · simp [hix]
    · rw [upd_ne _ _ hix]; tauto
  have h3 : x ∈ (Finset.range n).filter (fun i => s.visited i = false) := by simp [hx, hv]
  rw [h2, hs, hs', ← Finset.add_sum_erase _ _ h3]
  simp only [List.length_map, List.length_append, List.length_reverse, List.length_cons]
  omega

/-- loop rule: an invariant that every round keeps while the potential drops -/
theorem dfsLoop_rule (I : DState → List Nat → Prop) (hstack : ∀ s ks, I s ks → s.stack = ks.map t.nodes)
    (hstep : ∀ s x ks, I s (x :: ks) → s.parent start = none →
      ∃ s' ks', dfsStep t s (t.nodes x) (ks.map t.nodes) = .ok s' ∧ I s' ks' ∧ pot t n s' < pot t n s) :
    ∀ (fuel : Nat) (s : DState) (ks : List Nat), I s ks → pot t n s < fuel →
      ∃ s' ks', dfsLoop t start fuel s = .ok s' ∧ I s' ks' ∧ (ks' = [] ∨ s'.parent start ≠ none) := by
  intro fuel
  induction fuel with
  | zero => intro s ks _ h; omega
  | succ fuel ih =>
    intro s ks hI hf
    have hs := hstack s ks hI
    rw [dfsLoop]
    cases ks with
    | nil => exact ⟨s, [], by rw [hs]; rfl, hI, Or.inl rfl⟩
    | cons x ks =>
      by_cases hp : s.parent start = none
      · obtain ⟨s', ks', e1, e2, e3⟩ := hstep s x ks hI hp
        obtain ⟨s2, ks2, f1, f2, f3⟩ := ih s' ks' e2 (by omega)
        refine ⟨s2, ks2, ?_, f2, f3⟩
        rw [hs]
        simp only [List.map_cons]
        rw [if_pos hp, e1]; exact f1
      · refine ⟨s, _, ?_, hI, Or.inr hp⟩
        rw [hs]
        simp only [List.map_cons]
        rw [if_neg hp]

/-- the first state -/
def dfs0 (t : MST) (start : Nat) : DState := { parent := fun _ => none, len := fun _ => 0, visited := fun _ => false, stack := [t.nodes start] }

theorem dfs0_inv (hst : start < n) : DInv t n E start (dfs0 t start) [start] :=
  ⟨rfl, by simp [hst], by intro x hx h; simp [dfs0, hx] at h, by simp [dfs0], by simp [dfs0]⟩

theorem dfs_loop_ok (ctx : DCtx t n E) (hst : start < n) {fuel : Nat} (hf : pot t n (dfs0 t start) < fuel) :
    ∃ s' ks', dfsLoop t start fuel (dfs0 t start) = .ok s' ∧ DInv t n E start s' ks' ∧ (ks' = [] ∨ s'.parent start ≠ none) := by
  obtain ⟨s', ks', h1, h2, h3⟩ := dfsLoop_rule (t := t) (n := n) (start := start)
    (I := fun s ks => DInv t n E start s ks ∧ (s.visited start = true ∨ ks = [start])) (fun s ks h => h.1.stack) (by
      intro s x ks hI hp
      obtain ⟨inv, hI2⟩ := hI
      by_cases hv : s.visited x = true
      · have := dfsStep_old ctx inv hv
        refine ⟨_, ks, this.1, ⟨this.2, ?_⟩, pot_old inv.stack⟩
        rcases hI2 with h | h
        · exact Or.inl h
        · simp only [List.cons.injEq] at h
          left; rw [← h.1]; exact hv
      · have hv' : s.visited x = false := by simpa using hv
        have hst' : x = start ∨ s.visited start = true := by
          rcases hI2 with h | h
          · exact Or.inr h
          · simp only [List.cons.injEq] at h
            exact Or.inl h.1
        obtain ⟨s', e1, e2, e3, -⟩ := dfsStep_new ctx inv hv' hst' hp
        refine ⟨s', _, e1, ⟨e2, ?_⟩, pot_new (inv.kslt x (by simp)) inv.stack hv' e2.stack e3⟩
        left; rw [e3]
        rcases hst' with rfl | h
        · simp
        · unfold upd; split <;> simp [h]) fuel _ _ ⟨dfs0_inv hst, Or.inr rfl⟩ hf
  exact ⟨s', ks', h1, h2.1, h3⟩

end Verif

namespace Verif
open Verif.Spec
set_option autoImplicit false

variable {t : MST} {n : Nat} {E : EdgeSet} {start : Nat} {c : Cfg} {g : Graph}

/-- `sp'` is `sp` with the edges `l` appended to the recorded cycle -/
def Recorded (sp sp' : SubProblem) (l : List (Sym2 Nat)) : Prop :=
  ∃ cyc, sp' = { sp with numCycle := sp.numCycle + l.length, cycle := cyc } ∧ (∀ i < sp.numCycle, cyc i = sp.cycle i) ∧
    ∀ i (h : i < l.length), s((cyc (sp.numCycle + i)).1, (cyc (sp.numCycle + i)).2) = l[i]

/-- the path from a node back to the start -/
theorem chain (s : DState) {ks : List Nat} (inv : DInv t n E start s ks) : ∀ (d x : Nat), s.visited x = true → x < n → x ≠ start → s.len x = d →
    ∃ p, (x :: p).Nodup ∧ (∀ y ∈ x :: p, y ≠ start ∧ y < n ∧ s.len y ≤ d) ∧ (∀ e ∈ pathE (x :: p), e ∈ E) ∧ s((x :: p).getLast (by simp), start) ∈ E ∧
      (x :: p).length = d ∧
      ∀ (fuel : Nat) (sp : SubProblem), (∀ u v, s(u, v) ∈ E → s((g.mat u v).src, (g.mat u v).dest) = s(u, v)) → (x :: p).length ≤ fuel →
        sp.numCycle + (x :: p).length ≤ c.maxV →
        ∃ sp', walkCycle c g s.parent start fuel x sp = .ok sp' ∧ Recorded sp sp' (pathE (x :: p) ++ [s((x :: p).getLast (by simp), start)]) := by
  intro d
  induction d using Nat.strong_induction_on with
  | _ d ih =>
    intro x hvx hxn hxs hlen
    obtain ⟨q, hq, hvq, hqn, hqx, hlq⟩ := inv.par x hxs (Or.inl hvx)
    have hnext : ∀ (fuel : Nat) (sp : SubProblem), (∀ u v, s(u, v) ∈ E → s((g.mat u v).src, (g.mat u v).dest) = s(u, v)) → sp.numCycle < c.maxV →
        ∃ sp1, Recorded sp sp1 [s(x, q)] ∧
          walkCycle c g s.parent start (fuel + 1) x sp = if q = start then .ok sp1 else walkCycle c g s.parent start fuel q sp1 := by
      intro fuel sp hg hroom
      refine ⟨_, ⟨upd sp.cycle sp.numCycle ((g.mat q x).src, (g.mat q x).dest), rfl, ?_, ?_⟩, ?_⟩
      · intro i hi; rw [upd_ne _ _ (by omega)]
      · intro i hi
        simp only [List.length_cons, List.length_nil, Nat.zero_add, Nat.lt_one_iff] at hi
        subst hi
        simp only [Nat.add_zero, upd_self, List.getElem_cons_zero]
        rw [hg q x hqx, Sym2.eq_swap]
      · rw [walkCycle, hq]
        simp only
        rw [if_neg (by omega)]
        rfl
    by_cases hqs : q = start
    · subst hqs
      refine ⟨[], by simp, by simp [hxs, hxn, hlen], by simp [pathE], by simp [Sym2.eq_swap]; rwa [Sym2.eq_swap] at hqx, ?_, ?_⟩
      · rw [dep, if_pos rfl] at hlq; simp; omega
      · intro fuel sp hg hf hroom
        obtain ⟨f, rfl⟩ : ∃ f, fuel = f + 1 := ⟨fuel - 1, by simp at hf; omega⟩
        obtain ⟨sp1, h1, h2⟩ := hnext f sp hg (by simp at hroom; omega)
        refine ⟨sp1, ?_, by simpa [pathE] using h1⟩
        rw [h2, if_pos rfl]
    · rw [dep, if_neg hqs] at hlq
      obtain ⟨p, nd, hall, hpath, hlast, hplen, hwalk⟩ := ih (s.len q) (by omega) q hvq hqn hqs rfl
      refine ⟨q :: p, ?_, ?_, ?_, by rw [List.getLast_cons (by simp)]; exact hlast, by rw [List.length_cons, hplen]; omega, ?_⟩
      · refine List.nodup_cons.2 ⟨?_, nd⟩
        intro hm; have := (hall x hm).2.2; omega
      · intro y hy
        rcases List.mem_cons.1 hy with rfl | hy
        · exact ⟨hxs, hxn, by omega⟩
        · have := hall y hy; exact ⟨this.1, this.2.1, by omega⟩
      · intro e he
        rw [pathE] at he
        rcases List.mem_cons.1 he with rfl | he
        · rw [Sym2.eq_swap]; exact hqx
        · exact hpath e he
      · intro fuel sp hg hf hroom
        obtain ⟨f, rfl⟩ : ∃ f, fuel = f + 1 := ⟨fuel - 1, by simp at hf; omega⟩
        obtain ⟨sp1, h1, h2⟩ := hnext f sp hg (by simp at hroom; omega)
        obtain ⟨cyc1, r1, r2, r3⟩ := h1
        obtain ⟨sp2, e2, cyc2, q1, q2, q3⟩ := hwalk f sp1 hg (by simp at hf ⊢; omega) (by rw [r1]; simp at hroom ⊢; omega)
        refine ⟨sp2, by rw [h2, if_neg hqs]; exact e2, cyc2, ?_, ?_, ?_⟩
        · rw [q1, r1]
          simp [pathE]; omega
        · intro i hi
          rw [q2 i (by rw [r1]; simp; omega), r1]
          exact r2 i hi
        · intro i hi
          cases i with
          | zero =>
            have := q2 sp.numCycle (by rw [r1]; simp)
            have h3 := r3 0 (by simp)
            simp only [Nat.add_zero] at h3 ⊢
            rw [this, r1]
            simp only [pathE, List.cons_append, List.getElem_cons_zero]
            exact h3
          | succ i =>
            have h3 := q3 i (by simp [pathE] at hi ⊢; omega)
            rw [r1] at h3
            simp only [List.length_cons, List.length_nil, Nat.zero_add] at h3
            simp only [pathE, List.cons_append, List.getElem_cons_succ]
            rw [show sp.numCycle + (i + 1) = sp.numCycle + 1 + i by omega, h3]
            rfl

/-- outcome of `dfs`: nothing recorded, or a genuine cycle recorded -/
theorem walk_ok (s : DState) {ks : List Nat} (inv : DInv t n E start s ks) (hst : start < n) {sp : SubProblem} (hroom : sp.numCycle + n ≤ c.maxV)
    (hg : ∀ u v, s(u, v) ∈ E → s((g.mat u v).src, (g.mat u v).dest) = s(u, v)) {q : Nat} (hq : s.parent start = some q) :
    ∃ (sp' : SubProblem) (p : List Nat), walkCycle c g s.parent start (n + 1) start sp = .ok sp' ∧ (start :: p).Nodup ∧ (∀ y ∈ start :: p, y < n) ∧
      3 ≤ (start :: p).length ∧ (∀ e ∈ steps (start :: p), e ∈ E) ∧ Recorded sp sp' (steps (start :: p)) := by
  obtain ⟨-, hvq, hqn, hqs, hqE, hl, h3⟩ := inv.some q hq
  rw [dep, if_neg hqs] at hl
  obtain ⟨p, nd, hall, hpath, hlast, hplen, hwalk⟩ := chain (c := c) (g := g) s inv (s.len q) q hvq hqn hqs rfl
  have hnd : (start :: q :: p).Nodup := List.nodup_cons.2 ⟨fun hm => (hall _ hm).1 rfl, nd⟩
  have hlt : ∀ y ∈ start :: q :: p, y < n := by
    intro y hy
    rcases List.mem_cons.1 hy with rfl | hy
    · exact hst
    · exact (hall y hy).2.1
  have hlen : (start :: q :: p).length ≤ n := by
    have h1 : (start :: q :: p) ⊆ List.range n := fun i hi => List.mem_range.2 (hlt i hi)
    have := (List.subperm_of_subset hnd h1).length_le
    simpa using this
  have hstep : walkCycle c g s.parent start (n + 1) start sp =
      walkCycle c g s.parent start n q { sp with cycle := upd sp.cycle sp.numCycle ((g.mat q start).src, (g.mat q start).dest), numCycle := sp.numCycle + 1 } := by
    rw [walkCycle, hq]
    simp only
    rw [if_neg (by simp at hlen; omega), if_neg hqs]
  obtain ⟨sp2, e2, cyc, r1, r2, r3⟩ := hwalk n { sp with cycle := upd sp.cycle sp.numCycle ((g.mat q start).src, (g.mat q start).dest), numCycle := sp.numCycle + 1 }
    hg (by simp at hlen ⊢; omega) (by simp at hlen ⊢; omega)
  have hsteps : steps (start :: q :: p) = s(start, q) :: (pathE (q :: p) ++ [s((q :: p).getLast (by simp), start)]) := by
    rw [steps_cons, pathE, List.getLast_cons (by simp)]; rfl
  refine ⟨sp2, q :: p, by rw [hstep]; exact e2, hnd, hlt, by rw [List.length_cons, hplen]; omega, ?_, cyc, ?_, ?_, ?_⟩
  · intro e he
    rw [hsteps] at he
    simp only [List.mem_cons, List.mem_append, List.not_mem_nil, or_false] at he
    rcases he with rfl | he | rfl
    · rw [Sym2.eq_swap]; exact hqE
    · exact hpath e he
    · exact hlast
  · rw [r1, hsteps]; simp; omega
  · intro i hi
    rw [r2 i (by simp; omega)]
    simp only
    rw [upd_ne _ _ (by omega)]
  · intro i hi
    cases i with
    | zero =>
      have := r2 sp.numCycle (by simp)
      simp only [Nat.add_zero] at this ⊢
      rw [this, upd_self]
      simp only [hsteps, List.getElem_cons_zero]
      rw [hg q start hqE, Sym2.eq_swap]
    | succ i =>
      have h3 := r3 i (by rw [hsteps] at hi; simp at hi ⊢; omega)
      simp only at h3
      simp only [hsteps, List.getElem_cons_succ]
      rw [show sp.numCycle + (i + 1) = sp.numCycle + 1 + i by omega, h3]

theorem findStart_ok (ctx : DCtx t n E) (hst : start < n) : findStart t start = some (t.nodes start) := by
  unfold findStart
  rw [ctx.nn]
  have key : ∀ m ≤ n, (List.range m).foldl (fun r i => if (t.nodes i).pos = start then some (t.nodes i) else r) none =
      if start < m then some (t.nodes start) else none := by
    intro m
    induction m with
    | zero => intro _; simp
    | succ m ih =>
      intro hm
      rw [List.range_succ, List.foldl_append, ih (by omega)]
      simp only [List.foldl_cons, List.foldl_nil]
      rw [ctx.pos m (by omega)]
      by_cases h : m = start
      · subst h; rw [if_pos rfl, if_pos (by omega)]
      · rw [if_neg h]
        by_cases h' : start < m
        · rw [if_pos h', if_pos (by omega)]
        · rw [if_neg h', if_neg (by omega)]
  rw [key n (Nat.le_refl n), if_pos hst]

theorem pot0 (ctx : DCtx t n E) : pot t n (dfs0 t start) < ((List.range t.numNodes).map fun i => (t.nodes i).nn).sum + 2 := by
  unfold pot dfs0
  rw [ctx.nn]
  simp only [Finset.filter_true, List.length_cons, List.length_nil]
  have : ∑ i ∈ Finset.range n, (t.nodes i).nn = ((List.range n).map fun i => (t.nodes i).nn).sum := by
    clear ctx
    induction n with
    | zero => simp
    | succ n ih => rw [Finset.sum_range_succ, List.range_succ, List.map_append, List.sum_append, ih]; simp
  omega

/-- `dfs` returns, and either records nothing or a simple cycle of the tree through the start -/
theorem dfs_main {sp : SubProblem} {cand : Nat} (ctx : DCtx sp.oneTree n E) (hpos : (g.nodes cand).pos = cand) (hcand : cand < n)
    (hroom : sp.numCycle + n ≤ c.maxV) (hg : ∀ u v, s(u, v) ∈ E → s((g.mat u v).src, (g.mat u v).dest) = s(u, v)) :
    ∃ (s : DState) (ks : List Nat), DInv sp.oneTree n E cand s ks ∧ dfsLoop sp.oneTree cand (((List.range sp.oneTree.numNodes).map fun i => (sp.oneTree.nodes i).nn).sum + 2) (dfs0 sp.oneTree cand) = .ok s ∧
    ((s.parent cand = none ∧ ks = [] ∧ dfs c g sp cand = .ok sp) ∨
    (s.parent cand ≠ none ∧ ∃ (sp' : SubProblem) (p : List Nat), dfs c g sp cand = .ok sp' ∧ (cand :: p).Nodup ∧ (∀ y ∈ cand :: p, y < n) ∧
      3 ≤ (cand :: p).length ∧ (∀ e ∈ steps (cand :: p), e ∈ E) ∧ Recorded sp sp' (steps (cand :: p)))) := by
  obtain ⟨s, ks, h1, h2, h3⟩ := dfs_loop_ok ctx hcand (pot0 ctx)
  refine ⟨s, ks, h2, h1, ?_⟩
  have e0 : dfs c g sp cand = if s.len cand > 2 then walkCycle c g s.parent cand (sp.oneTree.numNodes + 1) cand sp else .ok sp := by
    unfold dfs
    simp only
    rw [hpos, findStart_ok ctx hcand]
    simp only
    rw [ctx.pos cand hcand, if_neg (by rw [ctx.nn]; omega)]
    rw [show ({ parent := fun _ => none, len := fun _ => 0, visited := fun _ => false, stack := [sp.oneTree.nodes cand] } : DState) = dfs0 sp.oneTree cand from rfl, h1]
    rfl
  cases hp : s.parent cand with
  | none =>
    left
    refine ⟨rfl, ?_, ?_⟩
    · rcases h3 with h | h
      · exact h
      · exact absurd hp h
    · rw [e0, if_neg (by rw [h2.none hp]; omega)]
  | some q =>
    right
    have := (h2.some q hp).2.2.2.2.2.2
    obtain ⟨sp', p, q1, q2⟩ := walk_ok (c := c) (g := g) s h2 hcand hroom hg hp
    refine ⟨by simp, sp', p, ?_, q2⟩
    rw [e0, if_pos (by omega), ctx.nn]; exact q1

end Verif

namespace Verif
open Verif.Spec
set_option autoImplicit false

variable {t : MST} {n : Nat} {E : EdgeSet} {start : Nat}

/-- progress of the search from the start's neighbours `a`, `b`: while the cycle is not closed, `a` waits at the bottom of the stack -/
def Waiting (n : Nat) (E : EdgeSet) (start a b : Nat) (s : DState) (ks : List Nat) : Prop :=
  s.visited start = true ∧ (s.parent start ≠ none ∨ ∃ sl, ks = sl ++ [a] ∧ s.visited a = false ∧
    (∀ x, x ≠ start → s.visited x = true → ∀ y, y ≠ start → s(x, y) ∈ E → s.visited y = true ∨ y ∈ sl) ∧
    (s.visited b = true ∨ b ∈ sl) ∧ (a ∈ sl → 2 ≤ s.len a))

/-- if the start has exactly two neighbours and the rest is connected without it, a cycle is found -/
theorem dfs_complete (ctx : DCtx t n E) (hst : start < n) {a b : Nat} (hab : (t.nodes start).list = [a, b]) (hne : a ≠ b)
    (hconn : Connected ((Finset.range n).erase start) (away start E)) {fuel : Nat} (hf : pot t n (dfs0 t start) < fuel) {s : DState}
    (hs : dfsLoop t start fuel (dfs0 t start) = .ok s) : s.parent start ≠ none := by
  have haE : s(start, a) ∈ E := (ctx.nbr start hst a).1 (by rw [hab]; simp)
  have hbE : s(start, b) ∈ E := (ctx.nbr start hst b).1 (by rw [hab]; simp)
  obtain ⟨-, ha, has⟩ := ctx.within _ _ haE
  obtain ⟨-, hb, hbs⟩ := ctx.within _ _ hbE
  obtain ⟨s', ks', h1, h2, h3⟩ := dfsLoop_rule (t := t) (n := n) (start := start)
    (I := fun s ks => DInv t n E start s ks ∧ ((s = dfs0 t start ∧ ks = [start]) ∨ Waiting n E start a b s ks)) (fun s ks h => h.1.stack) (by
      intro s x ks hI hp
      obtain ⟨inv, hI2⟩ := hI
      rcases hI2 with ⟨rfl, hks⟩ | hW
      · simp only [List.cons.injEq] at hks
        obtain ⟨rfl, rfl⟩ := hks
        have hv' : (dfs0 t x).visited x = false := rfl
        obtain ⟨s', e1, e2, e3, e4, e5, e6⟩ := dfsStep_new ctx inv hv' (Or.inl rfl) hp
        refine ⟨s', _, e1, ⟨e2, Or.inr ⟨by rw [e3]; simp, Or.inr ⟨[b], ?_, ?_, ?_, Or.inr (by simp), ?_⟩⟩⟩, pot_new hst inv.stack hv' e2.stack e3⟩
        · rw [hab, List.filter_cons_of_pos, List.filter_cons_of_pos]
          · simp
          · rw [upd_ne _ _ (Ne.symm hbs)]; rfl
          · rw [upd_ne _ _ (Ne.symm has)]; rfl
        · rw [e3, upd_ne _ _ (Ne.symm has)]; rfl
        · intro y hy hvy
          rw [e3, upd_ne _ _ hy] at hvy
          cases hvy
        · intro h; simp at h; exact absurd h hne
      · obtain ⟨hvs, h | ⟨sl, hks, hva, hcl, hvb, hla⟩⟩ := hW
        · exact absurd hp h
        cases sl with
        | nil =>
          -- only `a` is left: everything else is visited, and `a` is connected to `b`
          exfalso
          have hc := hconn b (Finset.mem_erase.2 ⟨Ne.symm hbs, Finset.mem_range.2 hb⟩) a (Finset.mem_erase.2 ⟨Ne.symm has, Finset.mem_range.2 ha⟩)
          have : a ≠ start ∧ s.visited a = true := by
            refine hc.closed (C := fun z => z ≠ start ∧ s.visited z = true) ?_ ⟨Ne.symm hbs, by simpa using hvb⟩
            intro u v huv hu
            rw [mem_away] at huv
            have hv : v ≠ start := by rintro rfl; exact huv.2 (by simp)
            exact ⟨hv, by simpa using hcl u hu.1 hu.2 v hv huv.1⟩
          rw [this.2] at hva; cases hva
        | cons x' sl =>
          simp only [List.cons_append, List.cons.injEq] at hks
          obtain ⟨rfl, rfl⟩ := hks
          by_cases hv : s.visited x = true
          · have := dfsStep_old ctx inv hv
            refine ⟨_, _, this.1, ⟨this.2, Or.inr ⟨hvs, Or.inr ⟨sl, rfl, hva, ?_, ?_, fun h => hla (by simp [h])⟩⟩⟩, pot_old inv.stack⟩
            · intro u hu hvu v hvs' huv
              rcases hcl u hu hvu v hvs' huv with h | h
              · exact Or.inl h
              · rcases List.mem_cons.1 h with rfl | h
                · exact Or.inl hv
                · exact Or.inr h
            · rcases hvb with h | h
              · exact Or.inl h
              · rcases List.mem_cons.1 h with rfl | h
                · exact Or.inl hv
                · exact Or.inr h
          · have hv' : s.visited x = false := by simpa using hv
            have hxs : x ≠ start := by rintro rfl; exact hv hvs
            have hx := inv.kslt x (by simp)
            obtain ⟨p, -, -, -, -, hlx⟩ := inv.par x hxs (Or.inr (by simp))
            obtain ⟨s', e1, e2, e3, e4, e5, e6⟩ := dfsStep_new ctx inv hv' (Or.inr hvs) hp
            have hvs' : s'.visited start = true := by rw [e3]; unfold upd; split <;> simp [hvs]
            refine ⟨s', _, e1, ⟨e2, Or.inr ⟨hvs', ?_⟩⟩, pot_new hx inv.stack hv' e2.stack e3⟩
            by_cases hxa : x = a
            · left
              subst hxa
              refine e6 ((ctx.nbr x hx start).2 (by rw [Sym2.eq_swap]; exact haE)) ?_
              rw [dep, if_neg hxs]; exact hla (by simp)
            · right
              refine ⟨((t.nodes x).list.filter (fun y => !upd s.visited x true y)).reverse ++ sl, by simp, ?_, ?_, ?_, ?_⟩
              · rw [e3, upd_ne _ _ (Ne.symm hxa)]; exact hva
              · intro u hu hvu v hvs'' huv
                rw [e3] at hvu ⊢
                by_cases hvv : upd s.visited x true v = true
                · exact Or.inl hvv
                · right
                  by_cases hux : u = x
                  · subst hux
                    rw [List.mem_append]; left
                    rw [List.mem_reverse, List.mem_filter]
                    exact ⟨(ctx.nbr u hx v).2 huv, by simpa using hvv⟩
                  · rw [upd_ne _ _ hux] at hvu
                    have hvx : v ≠ x := by rintro rfl; exact hvv (by simp)
                    rw [upd_ne _ _ hvx] at hvv
                    rcases hcl u hu hvu v hvs'' huv with h | h
                    · exact absurd h hvv
                    · rcases List.mem_cons.1 h with h | h
                      · exact absurd h hvx
                      · simp [h]
              · rw [e3]
                by_cases hbx : b = x
                · left; rw [hbx]; simp
                · rw [upd_ne _ _ hbx]
                  rcases hvb with h | h
                  · exact Or.inl h
                  · rcases List.mem_cons.1 h with h | h
                    · exact absurd h hbx
                    · right; simp [h]
              · intro h
                by_cases hal : a ∈ (t.nodes x).list
                · rw [e5 a hal (by rw [upd_ne _ _ (Ne.symm hxa)]; exact hva), dep, if_neg hxs]; omega
                · rw [e4 a (Ne.symm has) (Or.inr hal)]
                  rw [List.mem_append, List.mem_reverse, List.mem_filter] at h
                  rcases h with h | h
                  · exact absurd h.1 hal
                  · exact hla (by simp [h])) fuel _ _ ⟨dfs0_inv hst, Or.inl ⟨rfl, rfl⟩⟩ hf
  rw [hs] at h1; cases h1
  intro hp
  rcases h3 with rfl | h
  · rcases h2.2 with ⟨-, h⟩ | ⟨-, h | ⟨sl, h, -⟩⟩
    · simp at h
    · exact h hp
    · simp at h
  · exact h hp

/-- a closed walk through distinct nodes is a cycle -/
theorem cycle_not_acyclic {a : Nat} {p : List Nat} (nd : (a :: p).Nodup) (hl : 2 ≤ p.length) : ¬ Acyclic (steps (a :: p)).toFinset := by
  intro h
  have hnd := steps_nodup nd hl
  rw [steps_cons] at h hnd
  have hlast : (a :: p).getLast (by simp) ∈ a :: p := List.getLast_mem _
  refine h ((a :: p).getLast (by simp)) a (by simp) ?_
  refine Conn.symm' ((pathE_conn a rfl _ hlast).mono ?_)
  intro e he
  rw [List.mem_toFinset] at he
  rw [Finset.mem_erase, List.mem_toFinset]
  refine ⟨?_, by simp [he]⟩
  rintro rfl
  exact (List.nodup_append.1 hnd).2.2 _ he _ (by simp) rfl

end Verif
