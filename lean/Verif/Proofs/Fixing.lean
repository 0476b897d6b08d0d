import Verif.Model.Fixing
import Verif.Proofs.FixTree
import Verif.Proofs.Branch2
import Verif.Proofs.Near
import Verif.Props.Dfs

/-!
# Proofs about `variable_fixing`
-/
namespace Verif
open Verif.Spec
set_option autoImplicit false

variable [Rounding]

/-- the matrix of a tree gives the index of the edge -/
theorem TreeRep.mat_mem {c : Cfg} {t : MST} {n : Nat} {L : List Edge} (rep : TreeRep c t n L) (hs : SimpleList n L) {u v : Nat} (hu : u < n) (hv : v < n) :
    (t.mat u v = -1 ↔ s(u, v) ∉ pairs L) ∧
    (∀ i (hi : i < L.length), epair L[i] = s(u, v) → t.mat u v = i) := by
  have key : ∀ i (hi : i < L.length), epair L[i] = s(u, v) → t.mat u v = i := by
    intro i hi he
    have hsplit : L = L.take i ++ L[i] :: L.drop (i + 1) := by
      rw [List.cons_getElem_drop_succ, List.take_append_drop]
    have := rep.last u hu v hv (L.take i) (L.drop (i + 1)) L[i] hsplit (by
      unfold Joins; rw [epair, Sym2.eq_iff] at he; exact he) (by
      intro e' he' hj
      have hpw := hs.2
      rw [hsplit, List.pairwise_append, List.pairwise_cons] at hpw
      refine hpw.2.1.1 e' he' ?_
      unfold epair at he
      rw [he]
      rcases hj with ⟨h1, h2⟩ | ⟨h1, h2⟩
      · rw [h1, h2]
      · rw [h1, h2, Sym2.eq_swap])
    rw [this, List.length_take, min_eq_left (by omega)]
  refine ⟨⟨?_, ?_⟩, key⟩
  · intro h hm
    obtain ⟨e, he, hp⟩ := mem_pairs.1 hm
    obtain ⟨i, hi, rfl⟩ := List.mem_iff_getElem.1 he
    rw [key i hi hp] at h; omega
  · intro h
    refine rep.none u hu v hv ?_
    intro e he hj
    refine h (mem_pairs.2 ⟨e, he, ?_⟩)
    rw [epair, Sym2.eq_iff]; exact hj

/-- everything `variable_fixing` relies on: a complete graph that fills the arrays, with nonnegative weights, and a 1-tree of it -/
structure FixReady (c : Cfg) (p : Problem) (sp : SubProblem) (L : List Edge) : Prop where
  stored : Stored p.graph
  nodes : p.graph.numNodes = c.maxV
  complete : ∀ u < c.maxV, ∀ v < c.maxV, u ≠ v → s(u, v) ∈ edgeSet p.graph
  nonneg : ∀ e ∈ edgeSet p.graph, 0 ≤ weight p.graph e
  cand : p.cand < c.maxV
  three : 3 ≤ c.maxV
  book : Bookkeeping c.maxV sp
  rep : TreeRep c sp.oneTree c.maxV L
  simple : SimpleList c.maxV L
  len : L.length = c.maxV
  pos : ∀ i < c.maxV, (sp.oneTree.nodes i).pos = i
  cost : AddsUp (weight p.graph) (pairs L) sp.oneTree.cost
  off : ∀ i (hi : i < L.length), p.cand ∈ epair L[i] ↔ c.maxV - 2 ≤ i
  conn : Connected ((Finset.range c.maxV).erase p.cand) (away p.cand (pairs L))

variable {c : Cfg} {p : Problem} {sp : SubProblem} {L : List Edge}

/-- the simple facts about the sizes -/
theorem Spec.Fine.facts {z : Scale} (hz : Fine z c p) (h3 : 3 ≤ c.maxV) :
    0 ≤ z.ε ∧ 0 ≤ (c.maxV : ℚ) * z.ε ∧ 3 * z.ε ≤ (c.maxV : ℚ) * z.ε ∧ z.U + 4 * ((c.maxV : ℚ) * z.W) + 12 ≤ z.U + 4 * (c.maxV : ℚ) * (z.W + 1) ∧ 3 * z.W ≤ (c.maxV : ℚ) * z.W := by
  have n3 : (3 : ℚ) ≤ c.maxV := by exact_mod_cast h3
  have e0 := hz.near.nonneg
  refine ⟨e0, by positivity, mul_le_mul_of_nonneg_right n3 e0, ?_, mul_le_mul_of_nonneg_right n3 hz.W0⟩
  linarith [show 4 * (c.maxV : ℚ) * (z.W + 1) = 4 * ((c.maxV : ℚ) * z.W) + 4 * c.maxV by ring]

theorem fl_infinite : fl INFINITE = INFINITE := by
  have := Rounding.exact (2 ^ 53 - 1) 971 (by norm_num) (by norm_num)
  have e : (INFINITE : ℚ) = ((2 ^ 53 - 1 : ℤ) : ℚ) * 2 ^ (971 : ℤ) := by
    unfold INFINITE DBL_MAX
    norm_num
    rw [show (1024 : ℕ) = 53 + 971 by norm_num, pow_add]
    ring
  rw [e]; exact this

theorem FixReady.sub (h : FixReady c p sp L) : pairs L ⊆ edgeSet p.graph := by
  intro e he
  obtain ⟨x, hx, rfl⟩ := mem_pairs.1 he
  have := h.simple.1 x hx
  exact h.complete _ this.1 _ this.2.1 this.2.2

theorem FixReady.matw (h : FixReady c p sp L) {u v : Nat} (he : s(u, v) ∈ edgeSet p.graph) : (p.graph.mat u v).weight = weight p.graph s(u, v) :=
  (h.stored.mat_weight he).1

/-- the search only gives parents to nodes other than the candidate -/
def PathInv (t : MST) (cand : Nat) (s : PathState) : Prop :=
  ∀ d q, s.parent d = some q → d ≠ cand ∧ d < t.numNodes ∧ q < t.numNodes

omit [Rounding] in
theorem pathNbr_inv {t : MST} {cand : Nat} {cur : Node} (hc : cur.pos < t.numNodes) {s s' : PathState} {d : Nat} (h : PathInv t cand s)
    (e : pathNbr t cand cur s d = .ok s') : PathInv t cand s' := by
  unfold pathNbr at e
  split at e
  · cases e
  · split at e
    · next h1 h2 =>
      cases e
      intro x q hx
      simp only [upd_apply] at hx
      split at hx
      · next hh => cases hx; subst hh; exact ⟨fun h => h2.2 h.symm, by omega, hc⟩
      · exact h x q hx
    · cases e; exact h

omit [Rounding] in
theorem pathStep_inv {t : MST} {cand : Nat} {cur : Node} {rest : List Node} {s s' : PathState} (h : PathInv t cand s)
    (e : pathStep t cand s cur rest = .ok s') : PathInv t cand s' := by
  unfold pathStep at e
  split at e
  · cases e
  · next hc =>
    have hc' : cur.pos < t.numNodes := by omega
    split at e
    · exact forList_inv (fun _ s => PathInv t cand s) (fun _ a b b' hb he => pathNbr_inv (d := a) hc' hb he) _ { s with stack := rest, visited := upd s.visited cur.pos true } _ h e
    · cases e; exact h

omit [Rounding] in
theorem pathLoop_inv {t : MST} {cand stop : Nat} : ∀ (fuel : Nat) {s s' : PathState}, PathInv t cand s → pathLoop t cand stop fuel s = .ok s' → PathInv t cand s' := by
  intro fuel
  induction fuel with
  | zero => intro s s' _ e; cases e
  | succ fuel ih =>
    intro s s' h e
    unfold pathLoop at e
    split at e
    · cases e; exact h
    · split at e
      · obtain ⟨s1, e1, e2⟩ := bind_eq_ok.1 e
        exact ih (pathStep_inv h e1) e2
      · cases e; exact h

/-- what a walk says: it goes along the edges `P` of the 1-tree, away from the candidate; `m` is at least the weight of each of its free edges and each
of them has a replacement cost of at most the difference of the weights -/
structure Walked (c : Cfg) (p : Problem) (sp : SubProblem) (L : List Edge) (start dst : Nat) (w : ℚ) (s s' : ℚ × (Nat → ℚ)) (P : EdgeSet) : Prop where
  sub : P ⊆ away p.cand (pairs L)
  conn : Conn P start dst
  mx : s.1 ≤ s'.1
  num : ∀ z, Fine z c p → fl w = w → 0 ≤ w → w ≤ z.W → (∀ i, fl (s.2 i) = s.2 i) → (∀ i, fl (s'.2 i) = s'.2 i ∧ s'.2 i ≤ s.2 i) ∧
    ∀ u v, s(u, v) ∈ P → sp.cons u v = .nothing → ∀ i (hi : i < L.length), epair L[i] = s(u, v) → s'.2 i ≤ w - weight p.graph s(u, v) + z.ε
  heavy : ∀ u v, s(u, v) ∈ P → sp.cons u v = .nothing → weight p.graph s(u, v) ≤ s'.1

theorem pathWalk_ok (h : FixReady c p sp L) {parent : Nat → Option Nat} (hp : ∀ d q, parent d = some q → d ≠ p.cand ∧ d < c.maxV ∧ q < c.maxV)
    {start : Nat} (hs : start < c.maxV) (hsc : start ≠ p.cand) (w : ℚ) : ∀ (fuel : Nat) (dst : Nat) (s s' : ℚ × (Nat → ℚ)), dst < c.maxV → dst ≠ p.cand →
    pathWalk c p.graph sp parent start w fuel dst s = .ok s' → ∃ P, Walked c p sp L start dst w s s' P := by
  intro fuel
  induction fuel with
  | zero => intro dst s s' _ _ e; cases e
  | succ fuel ih =>
    intro dst s s' hd hdc e
    unfold pathWalk at e
    split at e
    · cases e
    · next fr hfr =>
      have hfrn := (hp dst fr hfr).2.2
      split at e
      · next hm =>
        obtain ⟨s1, e1, e2⟩ := bind_eq_ok.1 e
        have hmem : s(fr, dst) ∈ pairs L := by
          by_contra hno; exact hm ((h.rep.mat_mem h.simple hfrn hd).1.2 hno)
        have hfc : fr ≠ p.cand := by
          by_cases hfs : fr = start
          · rw [hfs]; exact hsc
          · rw [if_neg hfs] at e2
            cases fuel with
            | zero => cases e2
            | succ fuel =>
              unfold pathWalk at e2
              split at e2
              · cases e2
              · next q hq => exact (hp fr q hq).1
        have haw : s(fr, dst) ∈ away p.cand (pairs L) := by
          refine mem_away.2 ⟨hmem, ?_⟩
          simp; exact ⟨hfc.symm, hdc.symm⟩
        have hwE := h.sub hmem
        -- one edge
        have one : Walked c p sp L fr dst w s s1 {s(fr, dst)} := by
          have hsub : ({s(fr, dst)} : EdgeSet) ⊆ away p.cand (pairs L) := by intro x hx; rw [Finset.mem_singleton] at hx; rw [hx]; exact haw
          have hconn : Conn {s(fr, dst)} fr dst := Conn.edge (Finset.mem_singleton_self _)
          have hsymm : ∀ u v, s(u, v) ∈ ({s(fr, dst)} : EdgeSet) → sp.cons u v = sp.cons fr dst ∧ s(u, v) = s(fr, dst) := by
            intro u v huv
            rw [Finset.mem_singleton] at huv
            refine ⟨?_, huv⟩
            rw [Sym2.eq_iff] at huv
            rcases huv with ⟨rfl, rfl⟩ | ⟨rfl, rfl⟩
            · rfl
            · exact h.book.sym.symm _ hd _ hfrn
          by_cases hcons : sp.cons fr dst = .nothing
          · rw [if_pos hcons] at e1
            simp only at e1
            split at e1
            · cases e1
            split at e1
            · cases e1
            next hbad hpos =>
            obtain ⟨x, hxm, hxe⟩ := mem_pairs.1 hmem
            obtain ⟨i, hi, rfl⟩ := List.mem_iff_getElem.1 hxm
            have hmi := (h.rep.mat_mem h.simple hfrn hd).2 i hi hxe
            have hedge := h.rep.edges i hi
            have hw : (p.graph.mat (sp.oneTree.edges i).src (sp.oneTree.edges i).dest).weight = weight p.graph s(fr, dst) := by
              rw [hedge, ← hxe]
              exact h.matw (by have := hwE; rw [← hxe] at this; exact this)
            have hpi : (sp.oneTree.edges i).pos = i := by rw [hedge]
            rw [hmi, Int.toNat_natCast, hw, hpi] at e1
            cases e1
            refine ⟨hsub, hconn, ?_, ?_, ?_⟩
            · simp only; split
              · next hgt => exact le_of_lt hgt
              · exact le_refl _
            · intro z hz hfw hw0 hwW hrep
              obtain ⟨e0, ne0, ene, hM, nW⟩ := hz.facts h.three
              have hne1 := hz.small
              have hU := hz.U0
              have hW := hz.W0
              have hx0 := h.nonneg _ hwE
              have hx1 := (hz.weights _ hwE).1
              simp only
              refine ⟨fun j => ?_, ?_⟩
              · split
                · next hlt =>
                  rw [upd_apply]; split
                  · next hji =>
                    subst hji
                    refine ⟨hz.near.idem _, ?_⟩
                    by_contra hcon
                    push Not at hcon
                    have h1 : s.2 j < w - weight p.graph s(fr, dst) := by
                      by_contra hc2
                      push Not at hc2
                      have := fl_mono hc2
                      rw [hrep] at this
                      linarith
                    have := fl_mono (show weight p.graph s(fr, dst) + s.2 j ≤ w by linarith)
                    rw [hfw] at this
                    linarith
                  · exact ⟨hrep j, le_refl _⟩
                · exact ⟨hrep j, le_refl _⟩
              · intro u v huv _ j hj hje
                rw [(hsymm u v huv).2] at hje ⊢
                have hji : j = i := by
                  have := (h.rep.mat_mem h.simple hfrn hd).2 j hj hje
                  rw [hmi] at this; omega
                subst hji
                split
                · rw [upd_self]
                  exact hz.near.le (le_refl _) (by rw [abs_le]; constructor <;> linarith)
                · next hlt =>
                  have := hz.near.of_le (not_lt.1 hlt) hw0 (by linarith)
                  linarith
            · intro u v huv _
              rw [(hsymm u v huv).2]; simp only; split
              · exact le_refl _
              · next hgt => exact not_lt.1 hgt
          · rw [if_neg hcons] at e1
            cases e1
            refine ⟨hsub, hconn, le_refl _, fun z _ _ _ _ hrep => ⟨fun j => ⟨hrep j, le_refl _⟩, ?_⟩, ?_⟩
            · intro u v huv hc; rw [(hsymm u v huv).1] at hc; exact absurd hc hcons
            · intro u v huv hc; rw [(hsymm u v huv).1] at hc; exact absurd hc hcons
        by_cases hfs : fr = start
        · rw [if_pos hfs] at e2
          cases e2
          subst hfs
          exact ⟨_, one⟩
        · rw [if_neg hfs] at e2
          obtain ⟨P, hP⟩ := ih fr s1 s' hfrn hfc e2
          refine ⟨insert s(fr, dst) P, ?_, ?_, le_trans one.mx hP.mx, ?_, ?_⟩
          · exact Finset.insert_subset haw hP.sub
          · exact (hP.conn.mono (Finset.subset_insert _ _)).trans' (Conn.edge (Finset.mem_insert_self _ _))
          · intro z hz hfw hw0 hwW hrep
            obtain ⟨o1, o2⟩ := one.num z hz hfw hw0 hwW hrep
            obtain ⟨q1, q2⟩ := hP.num z hz hfw hw0 hwW (fun i => (o1 i).1)
            refine ⟨fun i => ⟨(q1 i).1, le_trans (q1 i).2 (o1 i).2⟩, ?_⟩
            intro u v huv hc i hi hie
            rcases Finset.mem_insert.1 huv with h' | h'
            · exact le_trans (q1 i).2 (o2 u v (Finset.mem_singleton.2 h') hc i hi hie)
            · exact q2 u v h' hc i hi hie
          · intro u v huv hc
            rcases Finset.mem_insert.1 huv with h' | h'
            · exact le_trans (one.heavy u v (Finset.mem_singleton.2 h') hc) hP.mx
            · exact hP.heavy u v h' hc
      · cases e

/-- `max_edge_path_1Tree` when it returns -/
theorem maxEdgePath_ok (h : FixReady c p sp L) {start stop : Nat} (hs : start < c.maxV) (hsc : start ≠ p.cand) (ht : stop < c.maxV) (htc : stop ≠ p.cand)
    (hne : start ≠ stop) {repl : Nat → ℚ} {r : ℚ × (Nat → ℚ)} (e : maxEdgePath c p.graph sp p.cand repl start stop = .ok r) :
    ∃ P, P ⊆ away p.cand (pairs L) ∧ Conn P start stop ∧
      (∀ u v, s(u, v) ∈ P → sp.cons u v = .nothing → weight p.graph s(u, v) ≤ r.1) ∧
      (∀ z, Fine z c p → (∀ i, fl (repl i) = repl i) → (∀ i, fl (r.2 i) = r.2 i ∧ r.2 i ≤ repl i) ∧
        ∀ u v, s(u, v) ∈ P → sp.cons u v = .nothing → ∀ i (hi : i < L.length), epair L[i] = s(u, v) →
        r.2 i ≤ weight p.graph s(start, stop) - weight p.graph s(u, v) + z.ε) := by
  unfold maxEdgePath at e
  simp only at e
  split at e
  · cases e
  obtain ⟨s, e1, e2⟩ := bind_eq_ok.1 e
  obtain ⟨r1, e3, e4⟩ := bind_eq_ok.1 e2
  have hinv := pathLoop_inv _ (s := { parent := fun _ => none, visited := fun _ => false, stack := _ }) (by intro d q hd; cases hd) e1
  unfold PathInv at hinv
  rw [h.rep.nn] at hinv
  rw [h.matw (h.complete _ hs _ ht hne)] at e3
  obtain ⟨P, hP⟩ := pathWalk_ok h hinv hs hsc _ _ _ _ _ ht htc e3
  cases e4
  refine ⟨P, hP.sub, hP.conn, ?_, fun z hz hrep => hP.num z hz (hz.weights _ (h.complete _ hs _ ht hne)).2 (h.nonneg _ (h.complete _ hs _ ht hne)) (hz.weights _ (h.complete _ hs _ ht hne)).1 hrep⟩
  intro u v huv hc
  have hw := hP.heavy u v huv hc
  have h0 := h.nonneg _ (h.sub (mem_away.1 (hP.sub huv)).1)
  simp only
  rw [if_neg (by intro h'; rw [h'] at hw; linarith)]
  exact hw

/-- what holds after the edges in `done` have been handled by the first loop (those in `cdone` also by its last statement) -/
structure Fix1 (c : Cfg) (p : Problem) (sp : SubProblem) (L : List Edge) (done cdone : List Nat) (s : FixState) : Prop where
  rest : SameRest sp s.sp
  book : Bookkeeping c.maxV s.sp
  change : ∀ u v, s.sp.cons u v = sp.cons u v ∨ (sp.cons u v = .nothing ∧ s(u, v) ∉ pairs L ∧ ∃ i ∈ done, s(u, v) = epair (p.graph.edges i))
  tours : ∀ z, Fine z c p → ∀ t, AllowedBy c.maxV sp.cons t → tourCost (weight p.graph) t < p.bestValue - z.slack c.maxV → AllowedBy c.maxV s.sp.cons t
  rep : ∀ z, Fine z c p → ∀ i, fl (s.repl i) = s.repl i
  repl : ∀ z, Fine z c p → ∀ i ∈ done, sp.cons (p.graph.edges i).src (p.graph.edges i).dest = .nothing → p.cand ∉ epair (p.graph.edges i) → epair (p.graph.edges i) ∉ pairs L →
    ∃ P, P ⊆ away p.cand (pairs L) ∧ Conn P (p.graph.edges i).src (p.graph.edges i).dest ∧
      ∀ u v, s(u, v) ∈ P → sp.cons u v = .nothing → ∀ j (hj : j < L.length), epair L[j] = s(u, v) →
        s.repl j ≤ weight p.graph (epair (p.graph.edges i)) - weight p.graph s(u, v) + z.ε
  candRepl : ∀ i ∈ cdone, sp.cons (p.graph.edges i).src (p.graph.edges i).dest = .nothing → p.cand ∈ epair (p.graph.edges i) →
    s.candRepl ≤ weight p.graph (epair (p.graph.edges i))

omit [Rounding] in
theorem SameRest.tree {a b : SubProblem} (h : SameRest a b) : b.oneTree = a.oneTree := by
  unfold SameRest at h; rw [h]

omit [Rounding] in
theorem SameRest.trans {a b d : SubProblem} (h : SameRest a b) (h' : SameRest b d) : SameRest a d := by
  unfold SameRest at *
  rw [h', h]

omit [Rounding] in
theorem setCons_allowed {n : Nat} {cons : Nat → Nat → CType} {t : List Nat} (h : AllowedBy n cons t) {u v : Nat} {x : CType}
    (hx : (x = .mandatory → s(u, v) ∈ tourEdges t) ∧ (x = .forbidden → s(u, v) ∉ tourEdges t)) : AllowedBy n (setCons cons u v x) t := by
  refine ⟨h.1, fun a ha b hb hab => ?_⟩
  rw [setCons_sym]
  split
  · next he => rw [he]; exact hx
  · exact h.2 a ha b hb hab

variable {M : EdgeSet}

/-- the spokes of the 1-tree are the first two neighbours of the candidate -/
theorem FixReady.two_spokes (h : FixReady c p sp L) (h2 : (spokes p.cand (pairs L)).card = 2) (hnn : ¬ (sp.oneTree.nodes p.cand).nn < 2) :
    spokes p.cand (pairs L) = {s(p.cand, (sp.oneTree.nodes p.cand).neigh 0), s(p.cand, (sp.oneTree.nodes p.cand).neigh 1)} := by
  have st := storedTree_of_rep h.rep h.simple h.pos
  have hT : treeEdges sp.oneTree = pairs L := h.rep.treeEdges
  have hc : p.cand < sp.oneTree.numNodes := by rw [h.rep.nn]; exact h.cand
  have hmem : ∀ k < 2, (sp.oneTree.nodes p.cand).neigh k ∈ (sp.oneTree.nodes p.cand).list := by
    intro k hk
    unfold Node.list
    rw [List.mem_map]
    exact ⟨k, List.mem_range.2 (by omega), rfl⟩
  have hin : ∀ k < 2, s(p.cand, (sp.oneTree.nodes p.cand).neigh k) ∈ spokes p.cand (pairs L) := by
    intro k hk
    have := (st.nbr _ hc _).1 (hmem k hk)
    rw [hT] at this
    exact mem_spokes.2 ⟨this, by simp⟩
  refine card_two h2 (hin 0 (by omega)) (hin 1 (by omega)) ?_
  intro he
  rw [Sym2.congr_right] at he
  have nd := st.nodup _ hc
  unfold Node.list at nd
  rw [List.nodup_map_iff_inj_on List.nodup_range] at nd
  have := nd 0 (List.mem_range.2 (by omega)) 1 (List.mem_range.2 (by omega)) he
  omega

theorem FixReady.change (h : FixReady c p sp L) {sp' : SubProblem} (hr : SameRest sp sp') (hb : Bookkeeping c.maxV sp') : FixReady c p sp' L := by
  have ht := hr.tree
  exact ⟨h.stored, h.nodes, h.complete, h.nonneg, h.cand, h.three, hb, by rw [ht]; exact h.rep, h.simple, h.len, by rw [ht]; exact h.pos, by rw [ht]; exact h.cost, h.off, h.conn⟩

theorem FixReady.bounds (h : FixReady c p sp L) {u v : Nat} (huv : s(u, v) ∈ pairs L) : u < c.maxV ∧ v < c.maxV ∧ u ≠ v := by
  obtain ⟨x, hx, hxe⟩ := mem_pairs.1 huv
  have hxs := h.simple.1 x hx
  rw [epair, Sym2.eq_iff] at hxe
  omega

/-- the 1-tree is a lightest one, as soon as there is a tour -/
def FixMin (c : Cfg) (p : Problem) (sp : SubProblem) (L : List Edge) : Prop :=
  (∃ t, AllowedBy c.maxV sp.cons t) → FixTree c.maxV p.cand (weight p.graph) (edgeSet p.graph \ consSet c.maxV sp.cons .forbidden)
    (consSet c.maxV sp.cons .mandatory) (pairs L)

omit [Rounding] in
theorem allowed_mand {n : Nat} {cons : Nat → Nat → CType} (hsym : SymMatrix n cons) {t : List Nat} (ht : AllowedBy n cons t) : consSet n cons .mandatory ⊆ tourEdges t := by
  intro x hx
  induction x using Sym2.ind with
  | _ a b =>
    obtain ⟨q1, q2, q3, q4⟩ := (mem_consSet hsym).1 hx
    exact (ht.2 a q1 b q2 q3).1 q4

theorem FixReady.tour_sub (h : FixReady c p sp L) {t : List Nat} (ht : AllowedBy c.maxV sp.cons t) :
    tourEdges t ⊆ edgeSet p.graph \ consSet c.maxV sp.cons .forbidden := by
  have := (allowedBy_iff h.book.sym h.complete h.three).1 ht
  intro e he
  exact Finset.mem_sdiff.2 ⟨this.2.1 he, this.2.2.2 e he⟩

theorem Spec.Fine.of_exact (hx : Exact) (hn : ∀ e ∈ edgeSet p.graph, 0 ≤ weight p.graph e) : Fine ⟨max 0 p.bestValue, total (weight p.graph) (edgeSet p.graph), 0⟩ c p :=
  ⟨Near.of_exact hx _, le_max_left _ _, Finset.sum_nonneg hn, le_max_right _ _, fun e he => ⟨Finset.single_le_sum (f := weight p.graph) hn he, hx _⟩, by simp⟩

theorem Spec.Fine.slack0 {z : Scale} (hz : Fine z c p) : 0 ≤ z.slack c.maxV := by
  have := hz.near.nonneg
  unfold Scale.slack; positivity

/-- the test of an edge: the number the code compares with the best value is at most the length of a tour plus the rounding errors -/
theorem FixReady.test (h : FixReady c p sp L) {z : Scale} (hz : Fine z c p) {t : List Nat} (ht : AllowedBy c.maxV sp.cons t) (hlt : tourCost (weight p.graph) t < p.bestValue) {x x' r k : ℚ}
    (hx : x ≤ x' + k * z.ε) (hk : 0 ≤ k ∧ k ≤ 1) (hx' : |x'| ≤ z.W) (hle : total (weight p.graph) (pairs L) + x' - r ≤ tourCost (weight p.graph) t) :
    fl (fl (sp.oneTree.cost + x) - r) ≤ tourCost (weight p.graph) t + c.maxV * z.ε + (k + 2) * z.ε := by
  obtain ⟨e0, ne0, ene, hM, nW⟩ := hz.facts h.three
  have hs := hz.small
  have hU := hz.U0
  have hW := hz.W0
  have hb := hz.best
  obtain ⟨l, hl, hlL, hcost⟩ := h.cost
  have hlen : l.length = c.maxV := by
    rw [← List.toFinset_card_of_nodup hl, hlL, SimpleList.card h.simple, h.len]
  have htot : total (weight p.graph) (pairs L) = (l.map (weight p.graph)).sum := by
    rw [← hlL]; unfold total; rw [List.sum_toFinset _ hl]
  have hsum := hz.near.sum (B := z.W) (l.map (weight p.graph)) (by
    intro y hy
    obtain ⟨e, he, rfl⟩ := List.mem_map.1 hy
    have hm := h.sub (show e ∈ pairs L by rw [← hlL]; simpa using he)
    rw [abs_of_nonneg (h.nonneg _ hm)]
    exact (hz.weights _ hm).1) (by
    rw [List.length_map, hlen]
    linarith [show (c.maxV : ℚ) * (z.W + z.ε) = c.maxV * z.W + c.maxV * z.ε by ring]) hW
  rw [List.length_map, hlen, ← hcost, ← htot] at hsum
  have s1 := abs_le.1 hsum.1
  have s2 := abs_le.1 hsum.2
  have x1 := abs_le.1 hx'
  have k1 : 0 ≤ k * z.ε := mul_nonneg hk.1 e0
  have k2 : k * z.ε ≤ 1 * z.ε := mul_le_mul_of_nonneg_right hk.2 e0
  have t0 : 0 ≤ tourCost (weight p.graph) t := by
    rw [ht.1.cost h.three]
    exact Finset.sum_nonneg fun e he => h.nonneg e (Finset.mem_sdiff.1 (h.tour_sub ht he)).1
  have a1 := hz.near.le (x := sp.oneTree.cost + x) (y := total (weight p.graph) (pairs L) + c.maxV * z.ε + x' + k * z.ε) (by linarith) (by
    rw [abs_le]; constructor <;> linarith)
  have a2 := hz.near.le (x := fl (sp.oneTree.cost + x) - r) (y := tourCost (weight p.graph) t + c.maxV * z.ε + k * z.ε + z.ε) (by linarith) (by
    rw [abs_le]; constructor <;> linarith)
  linarith

theorem fixForbid_mid (h : FixReady c p sp L) (hf : FixMin c p sp L)
    (h2 : (spokes p.cand (pairs L)).card = 2) {done : List Nat} {i : Nat} {s s1 : FixState}
    (hi : i < p.graph.numEdges) (hs : Fix1 c p sp L done done s)
    (hc0 : s.sp.cons (p.graph.edges i).src (p.graph.edges i).dest = .nothing)
    (hsame : s.sp.cons (p.graph.edges i).src (p.graph.edges i).dest = sp.cons (p.graph.edges i).src (p.graph.edges i).dest)
    (e : (if s.sp.oneTree.mat (p.graph.edges i).src (p.graph.edges i).dest = -1 then do
        let r ← (if (p.graph.edges i).dest ≠ p.cand ∧ (p.graph.edges i).src ≠ p.cand then maxEdgePath c p.graph s.sp p.cand s.repl (p.graph.edges i).src (p.graph.edges i).dest
          else if (s.sp.oneTree.nodes p.cand).nn < 2 then .error .uninit
          else
            let w1 := (p.graph.mat p.cand ((s.sp.oneTree.nodes p.cand).neigh 0)).weight
            let w2 := (p.graph.mat p.cand ((s.sp.oneTree.nodes p.cand).neigh 1)).weight
            .ok (if w1 > w2 then w1 else w2, s.repl))
        let s' := { s with repl := r.2 }
        if fl (fl (s'.sp.oneTree.cost + (p.graph.edges i).weight) - r.1) ≥ p.bestValue then
          pure { s' with sp := forbidEdge s'.sp (p.graph.edges i), num := s'.num + 1 }
        else pure s'
      else pure s) = .ok s1) : Fix1 c p sp L (done ++ [i]) done s1 := by
  have hends := h.stored.ends i hi
  rw [h.nodes] at hends
  obtain ⟨hsrc, hdst, hne⟩ := hends
  have hr := h.change hs.rest hs.book
  have htree : s.sp.oneTree = sp.oneTree := hs.rest.tree
  have hwe : weight p.graph (epair (p.graph.edges i)) = (p.graph.edges i).weight := h.stored.weight_eq hi
  have hEe : epair (p.graph.edges i) ∈ edgeSet p.graph := h.complete _ hsrc _ hdst hne
  have hchange : ∀ u v, s.sp.cons u v = sp.cons u v ∨ (sp.cons u v = .nothing ∧ s(u, v) ∉ pairs L ∧ ∃ j ∈ done ++ [i], s(u, v) = epair (p.graph.edges j)) := by
    intro u v
    rcases hs.change u v with h' | ⟨q1, q2, j, hj, hje⟩
    · exact Or.inl h'
    · exact Or.inr ⟨q1, q2, j, List.mem_append_left _ hj, hje⟩
  have hmat := (h.rep.mat_mem h.simple hsrc hdst).1
  rw [← htree] at hmat
  have hTcons : ∀ u v, s(u, v) ∈ pairs L → s.sp.cons u v = sp.cons u v := by
    intro u v huv
    rcases hs.change u v with h' | ⟨-, h', -⟩
    · exact h'
    · exact absurd huv h'
  by_cases hT : s.sp.oneTree.mat (p.graph.edges i).src (p.graph.edges i).dest = -1
  · rw [if_pos hT] at e
    obtain ⟨r, e1, e2⟩ := bind_eq_ok.1 e
    have hnT : epair (p.graph.edges i) ∉ pairs L := hmat.1 hT
    -- the bound behind the test, and the new replacement costs
    have fact : (∀ t, AllowedBy c.maxV sp.cons t → epair (p.graph.edges i) ∈ tourEdges t →
          total (weight p.graph) (pairs L) + (p.graph.edges i).weight - r.1 ≤ tourCost (weight p.graph) t) ∧ (∀ z, Fine z c p → ∀ j, fl (r.2 j) = r.2 j ∧ r.2 j ≤ s.repl j) ∧
        (∀ z, Fine z c p → p.cand ∉ epair (p.graph.edges i) → ∃ P, P ⊆ away p.cand (pairs L) ∧ Conn P (p.graph.edges i).src (p.graph.edges i).dest ∧
          ∀ u v, s(u, v) ∈ P → sp.cons u v = .nothing → ∀ j (hj : j < L.length), epair L[j] = s(u, v) →
            r.2 j ≤ weight p.graph (epair (p.graph.edges i)) - weight p.graph s(u, v) + z.ε) := by
      have hEt := fun t => h.tour_sub (t := t)
      by_cases hc : (p.graph.edges i).dest ≠ p.cand ∧ (p.graph.edges i).src ≠ p.cand
      · rw [if_pos hc] at e1
        obtain ⟨P, hP1, hP2, hP4, hP5⟩ := maxEdgePath_ok hr hsrc hc.2 hdst hc.1 hne e1
        have hcn : p.cand ∉ epair (p.graph.edges i) := by
          unfold epair; simp; exact ⟨hc.2.symm, hc.1.symm⟩
        refine ⟨?_, fun z hz => (hP5 z hz (hs.rep z hz)).1, fun z hz _ => ⟨P, hP1, hP2, ?_⟩⟩
        · intro t ht hte
          obtain ⟨f, hfP, hft, hfc⟩ := (hf ⟨t, ht⟩).forbid ht.1 (hEt t ht) (allowed_mand h.book.sym ht) hte hcn hnT hP1 hP2
          induction f using Sym2.ind with
          | _ a b =>
            have hfL := (mem_away.1 (hP1 hfP)).1
            have hb := h.bounds hfL
            have hfree : s.sp.cons a b = .nothing := by
              rw [hTcons a b hfL]
              have hEf := (hf ⟨t, ht⟩).one.sub hfL
              cases hcc : sp.cons a b with
              | nothing => rfl
              | mandatory => exact absurd ((ht.2 a hb.1 b hb.2.1 hb.2.2).1 hcc) hft
              | forbidden => exact absurd ((mem_consSet h.book.sym).2 ⟨hb.1, hb.2.1, hb.2.2, hcc⟩) (Finset.mem_sdiff.1 hEf).2
            have := hP4 a b hfP hfree
            rw [← hwe]
            unfold epair
            linarith
        · intro u v huv hcc
          have := (hP5 z hz (hs.rep z hz)).2 u v huv (by rw [hTcons u v (mem_away.1 (hP1 huv)).1]; exact hcc)
          exact this
      · rw [if_neg hc] at e1
        split at e1
        · cases e1
        next hnn =>
        cases e1
        have hci : p.cand ∈ epair (p.graph.edges i) := by
          unfold epair; rw [Sym2.mem_iff]; by_contra hno; exact hc ⟨fun h => hno (Or.inr h.symm), fun h => hno (Or.inl h.symm)⟩
        refine ⟨?_, fun z hz j => ⟨hs.rep z hz j, le_refl _⟩, fun _ _ hno => absurd hci hno⟩
        intro t ht hte
        rw [htree] at hnn ⊢
        have hsp := h.two_spokes h2 hnn
        have := (hf ⟨t, ht⟩).spoke ht.1 (hEt t ht) (allowed_mand h.book.sym ht) hte hci hnT hsp
        have hw : ∀ q, s(p.cand, q) ∈ spokes p.cand (pairs L) → (p.graph.mat p.cand q).weight = weight p.graph s(p.cand, q) := by
          intro q hq; exact h.matw (h.sub (mem_spokes.1 hq).1)
        rw [hw _ (by rw [hsp]; simp), hw _ (by rw [hsp]; simp), ← hwe]
        simp only
        split
        · next hgt => rw [max_eq_left (le_of_lt hgt)] at this; exact this
        · next hgt => rw [max_eq_right (not_lt.1 hgt)] at this; exact this
    obtain ⟨f1, f2, f3⟩ := fact
    have hrepl : ∀ z, Fine z c p → ∀ j ∈ done ++ [i], sp.cons (p.graph.edges j).src (p.graph.edges j).dest = .nothing → p.cand ∉ epair (p.graph.edges j) → epair (p.graph.edges j) ∉ pairs L →
        ∃ P, P ⊆ away p.cand (pairs L) ∧ Conn P (p.graph.edges j).src (p.graph.edges j).dest ∧
        ∀ u v, s(u, v) ∈ P → sp.cons u v = .nothing → ∀ k (hk : k < L.length), epair L[k] = s(u, v) →
        r.2 k ≤ weight p.graph (epair (p.graph.edges j)) - weight p.graph s(u, v) + z.ε := by
      intro z hz j hj h1 h2 h3
      rcases List.mem_append.1 hj with hj | hj
      · obtain ⟨P, k1, k2, k3⟩ := hs.repl z hz j hj h1 h2 h3
        exact ⟨P, k1, k2, fun u v huv hc k hk hke => le_trans (f2 z hz k).2 (k3 u v huv hc k hk hke)⟩
      · rw [List.mem_singleton] at hj; subst hj; exact f3 z hz h2
    simp only at e2
    split at e2
    · next hge =>
      cases e2
      have hfb := forbidEdge_ok hs.book (e := p.graph.edges i) hne
      refine ⟨hs.rest.trans hfb.2.1, hfb.1, ?_, ?_, fun z hz j => (f2 z hz j).1, hrepl, hs.candRepl⟩
      · intro u v
        simp only [hfb.2.2, setCons_sym]
        split
        · next he =>
          refine Or.inr ⟨?_, by rw [he]; exact hnT, i, by simp, he⟩
          rw [Sym2.eq_iff] at he
          rcases he with ⟨rfl, rfl⟩ | ⟨rfl, rfl⟩
          · rw [← hsame]; exact hc0
          · rw [h.book.sym.symm _ hdst _ hsrc, ← hsame]; exact hc0
        · exact hchange u v
      · intro z hz t ht hlt
        simp only [hfb.2.2]
        refine setCons_allowed (hs.tours z hz t ht hlt) ⟨by simp, fun _ hte => ?_⟩
        have h1 := f1 t ht hte
        rw [htree] at hge
        have hw := hz.weights _ hEe
        have hw0 := h.nonneg _ hEe
        rw [hwe] at hw hw0
        have := h.test hz ht (hlt.trans_le (by linarith [hz.slack0])) (x := (p.graph.edges i).weight) (x' := (p.graph.edges i).weight) (k := 0) (by simp) (by simp) (by rw [abs_of_nonneg hw0]; exact hw.1) h1
        obtain ⟨e0, ne0, ene, -, -⟩ := hz.facts h.three
        unfold Scale.slack at hlt
        linarith
    · cases e2
      exact ⟨hs.rest, hs.book, hchange, hs.tours, fun z hz j => (f2 z hz j).1, hrepl, hs.candRepl⟩
  · rw [if_neg hT] at e
    cases e
    refine ⟨hs.rest, hs.book, hchange, hs.tours, hs.rep, ?_, hs.candRepl⟩
    intro z hz j hj h1 h2 h3
    rcases List.mem_append.1 hj with hj | hj
    · exact hs.repl z hz j hj h1 h2 h3
    · rw [List.mem_singleton] at hj; subst hj; exact absurd (hmat.2 h3) hT

theorem fixForbid_ok (h : FixReady c p sp L) (hf : FixMin c p sp L) (h2 : (spokes p.cand (pairs L)).card = 2) {done : List Nat} {i : Nat} {s s' : FixState}
    (hi : i < p.graph.numEdges) (hnew : ∀ j ∈ done, j < i) (hs : Fix1 c p sp L done done s) (e : fixForbid c p s i = .ok s') :
    Fix1 c p sp L (done ++ [i]) (done ++ [i]) s' := by
  have hends := h.stored.ends i hi
  rw [h.nodes] at hends
  obtain ⟨hsrc, hdst, hne⟩ := hends
  have hwe : weight p.graph (epair (p.graph.edges i)) = (p.graph.edges i).weight := h.stored.weight_eq hi
  have hsame : s.sp.cons (p.graph.edges i).src (p.graph.edges i).dest = sp.cons (p.graph.edges i).src (p.graph.edges i).dest := by
    rcases hs.change (p.graph.edges i).src (p.graph.edges i).dest with h' | ⟨-, -, j, hj, hje⟩
    · exact h'
    · have hji := hnew j hj
      have := h.stored.simple i hi j (by omega) hje
      omega
  unfold fixForbid at e
  simp only at e
  by_cases hc0 : s.sp.cons (p.graph.edges i).src (p.graph.edges i).dest = .nothing
  · rw [if_pos hc0] at e
    obtain ⟨s1, e1, e2⟩ := bind_eq_ok.1 e
    have mid := fixForbid_mid h hf h2 hi hs hc0 hsame e1
    have old : ∀ {x : FixState}, x = { s1 with candRepl := x.candRepl } → (∀ j ∈ done ++ [i], sp.cons (p.graph.edges j).src (p.graph.edges j).dest = .nothing → p.cand ∈ epair (p.graph.edges j) →
        x.candRepl ≤ weight p.graph (epair (p.graph.edges j))) → Fix1 c p sp L (done ++ [i]) (done ++ [i]) x := by
      intro x hx hr
      rw [hx] at hr ⊢
      exact ⟨mid.rest, mid.book, mid.change, mid.tours, mid.rep, mid.repl, hr⟩
    split at e2
    · split at e2
      · next hlt =>
        cases e2
        refine old rfl ?_
        intro j hj hcj hcand
        simp only
        rcases List.mem_append.1 hj with hj | hj
        · exact le_trans (le_of_lt hlt) (mid.candRepl j hj hcj hcand)
        · rw [List.mem_singleton] at hj; subst hj; rw [hwe]
      · next hlt =>
        cases e2
        refine old rfl ?_
        intro j hj hcj hcand
        rcases List.mem_append.1 hj with hj | hj
        · exact mid.candRepl j hj hcj hcand
        · rw [List.mem_singleton] at hj; subst hj; rw [hwe]; exact not_lt.1 hlt
    · next hno =>
      cases e2
      refine old rfl ?_
      intro j hj hcj hcand
      rcases List.mem_append.1 hj with hj | hj
      · exact mid.candRepl j hj hcj hcand
      · rw [List.mem_singleton] at hj; subst hj
        unfold epair at hcand; rw [Sym2.mem_iff] at hcand
        rcases hcand with h' | h'
        · exact absurd (Or.inl h'.symm) hno
        · exact absurd (Or.inr h'.symm) hno
  · rw [if_neg hc0] at e
    cases e
    refine ⟨hs.rest, hs.book, ?_, hs.tours, hs.rep, ?_, ?_⟩
    · intro u v
      rcases hs.change u v with h' | ⟨q1, q2, j, hj, hje⟩
      · exact Or.inl h'
      · exact Or.inr ⟨q1, q2, j, List.mem_append_left _ hj, hje⟩
    · intro z hz j hj hcj
      rcases List.mem_append.1 hj with hj | hj
      · exact hs.repl z hz j hj hcj
      · rw [List.mem_singleton] at hj; subst hj; rw [hsame] at hc0; exact absurd hcj hc0
    · intro j hj hcj
      rcases List.mem_append.1 hj with hj | hj
      · exact hs.candRepl j hj hcj
      · rw [List.mem_singleton] at hj; subst hj; rw [hsame] at hc0; exact absurd hcj hc0

theorem fixLoop1 (h : FixReady c p sp L) (hf : FixMin c p sp L) (h2 : (spokes p.cand (pairs L)).card = 2) : ∀ (m : Nat), m ≤ p.graph.numEdges → ∀ (s0 s : FixState),
    Fix1 c p sp L [] [] s0 → forList (fixForbid c p) (List.range m) s0 = .ok s → Fix1 c p sp L (List.range m) (List.range m) s := by
  intro m
  induction m with
  | zero => intro _ s0 s hs e; cases e; exact hs
  | succ m ih =>
    intro hm s0 s hs e
    rw [List.range_succ, forList_snoc] at e
    obtain ⟨s1, e1, e2⟩ := bind_eq_ok.1 e
    rw [List.range_succ]
    exact fixForbid_ok h hf h2 (by omega) (fun j hj => List.mem_range.1 hj) (ih (by omega) s0 s1 hs e1) e2

/-- the state of the second loop -/
structure Fix2 (c : Cfg) (p : Problem) (sp : SubProblem) (s1 s : FixState) : Prop where
  rest : SameRest sp s.sp
  book : Bookkeeping c.maxV s.sp
  refines : Refines sp s.sp
  repl : s.repl = s1.repl
  candRepl : s.candRepl = s1.candRepl
  tours : ∀ z, Fine z c p → ∀ t, AllowedBy c.maxV sp.cons t → tourCost (weight p.graph) t < p.bestValue - z.slack c.maxV → AllowedBy c.maxV s.sp.cons t

theorem fixMandatory_ok (h : FixReady c p sp L) (hf : FixMin c p sp L) {s1 : FixState} (h1 : Fix1 c p sp L (List.range p.graph.numEdges) (List.range p.graph.numEdges) s1)
    {s s' : FixState} {i : Nat} (hi : i < c.maxV) (hs : Fix2 c p sp s1 s) (e : fixMandatory c p s i = .ok s') : Fix2 c p sp s1 s' := by
  have hiL : i < L.length := by rw [h.len]; exact hi
  have htree : s.sp.oneTree = sp.oneTree := hs.rest.tree
  have hedge := h.rep.edges i hiL
  have hsd : (sp.oneTree.edges i).src = L[i].src ∧ (sp.oneTree.edges i).dest = L[i].dest := by rw [hedge]; exact ⟨rfl, rfl⟩
  have hb := h.simple.1 L[i] (List.getElem_mem hiL)
  have hmem : s(L[i].src, L[i].dest) ∈ pairs L := mem_pairs.2 ⟨L[i], List.getElem_mem hiL, rfl⟩
  have hE := h.sub hmem
  have h0 := h.nonneg _ hE
  unfold fixMandatory at e
  simp only [htree, hsd.1, hsd.2, h.matw hE] at e
  -- fixing the edge is right if every cheap tour uses it
  have push : ∀ {sp2 : SubProblem}, s.sp.cons L[i].src L[i].dest = .nothing → requireEdge c s.sp (sp.oneTree.edges i) = .ok sp2 →
      (∀ z, Fine z c p → ∀ t, AllowedBy c.maxV sp.cons t → tourCost (weight p.graph) t < p.bestValue - z.slack c.maxV → s(L[i].src, L[i].dest) ∈ tourEdges t) →
      Fix2 c p sp s1 { s with sp := sp2, num := s.num + 1 } := by
    intro sp2 hc e2 hall
    obtain ⟨k1, k2, k3⟩ := requireEdge_ok hs.book (by rw [hsd.1]; exact hb.1) (by rw [hsd.2]; exact hb.2.1) (by rw [hsd.1, hsd.2]; exact hb.2.2) e2
    rw [hsd.1, hsd.2] at k3
    refine ⟨hs.rest.trans k2, k1, ?_, hs.repl, hs.candRepl, ?_⟩
    · intro u v huv
      simp only [k3]
      rw [setCons_sym, if_neg, hs.refines u v huv]
      intro he
      have hn : s.sp.cons u v = .nothing := by
        rw [Sym2.eq_iff] at he
        rcases he with ⟨rfl, rfl⟩ | ⟨rfl, rfl⟩
        · exact hc
        · rw [hs.book.sym.symm _ hb.2.1 _ hb.1]; exact hc
      rw [hs.refines u v huv] at hn
      exact huv hn
    · intro z hz t ht hlt
      simp only [k3]
      exact setCons_allowed (hs.tours z hz t ht hlt) ⟨fun _ => hall z hz t ht hlt, by simp⟩
  split at e
  · next hc =>
    have hc0 : sp.cons L[i].src L[i].dest = .nothing := by
      by_contra hno
      rw [hs.refines _ _ hno] at hc; exact hno hc
    split at e
    · next hnc =>
      split at e
      · cases e
      split at e
      · next hge =>
        obtain ⟨sp2, e2, e3⟩ := bind_eq_ok.1 e
        cases e3
        refine push hc e2 ?_
        intro z hz t ht hlt
        by_contra hno
        have hcn : p.cand ∉ s(L[i].src, L[i].dest) := by simp; exact ⟨hnc.1.symm, hnc.2.symm⟩
        obtain ⟨x, y, hxy, hxc, hxT, hcost, hP⟩ := (hf ⟨t, ht⟩).require ht.1 (h.tour_sub ht) (allowed_mand h.book.sym ht) (mem_away.2 ⟨hmem, hcn⟩) hno
        have hxE := Finset.mem_sdiff.1 (h.tour_sub ht hxy)
        obtain ⟨j, hj, hje⟩ := mem_edgeSet_adj.1 hxE.1
        have hxb := h.stored.within x y hxE.1
        rw [h.nodes, Finset.mem_range, Finset.mem_range] at hxb
        have hxne : x ≠ y := by rintro rfl; exact h.stored.noloop _ hxE.1
        have hjp : epair (p.graph.edges j) = s(x, y) := by rw [epair, Sym2.eq_iff]; exact hje
        have hxfree : sp.cons x y = .nothing := by
          cases hcc : sp.cons x y with
          | nothing => rfl
          | mandatory => exact absurd ((hf ⟨t, ht⟩).mand ((mem_consSet h.book.sym).2 ⟨hxb.1, hxb.2, hxne, hcc⟩)) hxT
          | forbidden => exact absurd ((mem_consSet h.book.sym).2 ⟨hxb.1, hxb.2, hxne, hcc⟩) hxE.2
        have hjfree : sp.cons (p.graph.edges j).src (p.graph.edges j).dest = .nothing := by
          rcases hje with ⟨h1, h2⟩ | ⟨h1, h2⟩
          · rw [h1, h2]; exact hxfree
          · rw [h1, h2, h.book.sym.symm _ hxb.2 _ hxb.1]; exact hxfree
        obtain ⟨P, k1, k2, k3⟩ := h1.repl z hz j (List.mem_range.2 hj) hjfree (by rw [hjp]; exact hxc) (by rw [hjp]; exact hxT)
        have hPx : s(L[i].src, L[i].dest) ∈ P := by
          refine hP P k1 ?_
          rcases hje with ⟨h1, h2⟩ | ⟨h1, h2⟩
          · rw [h1, h2] at k2; exact k2
          · rw [h1, h2] at k2; exact k2.symm'
        have hr := k3 _ _ hPx hc0 i hiL rfl
        rw [hjp] at hr
        rw [hs.repl] at hge
        have hxw := hz.weights _ hxE.1
        have hxw0 := h.nonneg _ hxE.1
        have hiw := hz.weights _ hE
        have := h.test hz ht (hlt.trans_le (by linarith [hz.slack0])) (x := s1.repl i) (x' := weight p.graph s(x, y) - weight p.graph s(L[i].src, L[i].dest)) (r := weight p.graph s(L[i].src, L[i].dest)) (k := 1) (by linarith) (by simp)
          (by rw [abs_le]; constructor <;> linarith) (by linarith)
        obtain ⟨e0, ne0, ene, -, -⟩ := hz.facts h.three
        unfold Scale.slack at hlt
        linarith
      · cases e; exact hs
    · next hnc =>
      split at e
      · next hge =>
        obtain ⟨sp2, e2, e3⟩ := bind_eq_ok.1 e
        cases e3
        refine push hc e2 ?_
        intro z hz t ht hlt
        exfalso
        obtain ⟨j, hj, hje⟩ := mem_edgeSet_adj.1 hE
        have hjp : epair (p.graph.edges j) = s(L[i].src, L[i].dest) := by rw [epair, Sym2.eq_iff]; exact hje
        have hjfree : sp.cons (p.graph.edges j).src (p.graph.edges j).dest = .nothing := by
          rcases hje with ⟨h1, h2⟩ | ⟨h1, h2⟩
          · rw [h1, h2]; exact hc0
          · rw [h1, h2, h.book.sym.symm _ hb.2.1 _ hb.1]; exact hc0
        have hr := h1.candRepl j (List.mem_range.2 hj) hjfree (by
          rw [hjp, Sym2.mem_iff]; by_contra hno; exact hnc ⟨fun h => hno (Or.inl h.symm), fun h => hno (Or.inr h.symm)⟩)
        have hl := (hf ⟨t, ht⟩).lower ht.1 (h.tour_sub ht) (allowed_mand h.book.sym ht)
        rw [hjp] at hr
        rw [hs.candRepl] at hge
        have hiw := hz.weights _ hE
        have := h.test hz ht (hlt.trans_le (by linarith [hz.slack0])) (x := s1.candRepl) (x' := weight p.graph s(L[i].src, L[i].dest)) (r := weight p.graph s(L[i].src, L[i].dest)) (k := 0) (by linarith) (by simp)
          (by rw [abs_of_nonneg h0]; exact hiw.1) (by linarith)
        obtain ⟨e0, ne0, ene, -, -⟩ := hz.facts h.three
        unfold Scale.slack at hlt
        linarith
      · cases e; exact hs
  · cases e; exact hs

/-- `variable_fixing` keeps every tour that is cheaper than the best value -/
theorem variableFixing_ok (h : FixReady c p sp L) (hf : FixMin c p sp L) (h2 : (spokes p.cand (pairs L)).card = 2) {r : SubProblem × Nat} (e : variableFixing c p sp = .ok r) :
    Bookkeeping c.maxV r.1 ∧ SameRest sp r.1 ∧ Refines sp r.1 ∧
    (∀ z, Fine z c p → ∀ t, AllowedBy c.maxV sp.cons t → tourCost (weight p.graph) t < p.bestValue - z.slack c.maxV → AllowedBy c.maxV r.1.cons t) := by
  unfold variableFixing at e
  obtain ⟨s1, e1, e⟩ := bind_eq_ok.1 e
  obtain ⟨s2, e2, e⟩ := bind_eq_ok.1 e
  cases e
  have k1 := fixLoop1 h hf h2 _ (le_refl _) { sp := sp, num := 0, repl := fun _ => INFINITE, candRepl := INFINITE } _ ⟨(rfl : SameRest sp sp), h.book, fun _ _ => Or.inl rfl, fun _ _ t ht _ => ht, fun _ _ _ => fl_infinite, by simp, by simp⟩ e1
  have k2 : ∀ (l : List Nat) (s s' : FixState), (∀ i ∈ l, i < c.maxV) → Fix2 c p sp s1 s → forList (fixMandatory c p) l s = .ok s' → Fix2 c p sp s1 s' := by
    intro l
    induction l with
    | nil => intro s s' _ hs e; cases e; exact hs
    | cons i l ih =>
      intro s s' hl hs e
      rw [forList] at e
      obtain ⟨s3, e3, e4⟩ := bind_eq_ok.1 e
      exact ih s3 s' (fun j hj => hl j (by simp [hj])) (fixMandatory_ok h hf k1 (hl i (by simp)) hs e3) e4
  have k3 := k2 _ _ _ (fun i hi => List.mem_range.1 hi) ⟨k1.rest, k1.book, ?_, rfl, rfl, k1.tours⟩ e2
  · exact ⟨k3.book, k3.rest, k3.refines, k3.tours⟩
  · intro u v huv
    rcases k1.change u v with h' | ⟨h', -⟩
    · exact h'
    · exact absurd h' huv

end Verif
