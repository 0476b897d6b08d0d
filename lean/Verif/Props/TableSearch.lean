import Verif.Props.TableOverflow
import Verif.Props.Sites

/-!
# C64 fails: a search that leaves the table of `consolidate`

On 259 cities, with distance 1 along one path and 2 otherwise, the first call of `constrained_prim` performs the history of `TableHistory`.
-/
namespace Verif
open Verif.Spec
set_option autoImplicit false

/-! ### The neighbour lists of a complete graph -/

theorem nbrs_append_list (L M : List Edge) (u : Nat) : nbrs (L ++ M) u = nbrs L u ++ nbrs M u := by
  simp [nbrs, List.flatMap_append]

theorem nbrs_block (s z : Nat) (f : ListNode → ℚ) (u : Nat) : ∀ (rest : List ListNode) (k : Nat),
    nbrs (rest.mapIdx fun i d => ({ src := s, dest := d.pos, symbol := z + (i + k) + 1, pos := z + (i + k), prob := 0, weight := f d } : Edge)) u =
      rest.flatMap fun d => (if s = u then [d.pos] else []) ++ (if d.pos = u then [s] else []) := by
  intro rest
  induction rest with
  | nil => intro k; rfl
  | cons d rest ih =>
    intro k
    rw [List.mapIdx_cons, List.flatMap_cons, ← ih (k + 1)]
    rw [show ∀ (e : Edge) (L : List Edge), nbrs (e :: L) u = ((if e.src = u then [e.dest] else []) ++ (if e.dest = u then [e.src] else [])) ++ nbrs L u from fun e L => rfl]
    congr 4
    funext i d
    rw [show i + 1 + k = i + (k + 1) by omega]

theorem nbrs_euclList (dist : ListNode → ListNode → ℚ) (u : Nat) : ∀ (l : List ListNode) (z : Nat), (l.map ListNode.pos).Nodup →
    nbrs (euclList dist z l) u = if u ∈ l.map ListNode.pos then (l.map ListNode.pos).filter (· ≠ u) else [] := by
  intro l
  induction l with
  | nil => intro z _; simp [euclList, nbrs]
  | cons s rest ih =>
    intro z nd
    rw [List.map_cons, List.nodup_cons] at nd
    have hb := nbrs_block s.pos z (fun d => dist s d) u rest 0
    rw [euclList, nbrs_append_list, ih _ nd.2]
    simp only [Nat.add_zero] at hb
    rw [hb]
    by_cases hs : s.pos = u
    · have h1 : ∀ d ∈ rest, d.pos ≠ u := by
        intro d hd h; exact nd.1 (List.mem_map.2 ⟨d, hd, by rw [h, hs]⟩)
      have h2 : u ∉ rest.map ListNode.pos := by rw [← hs]; exact nd.1
      rw [if_neg h2, List.append_nil, if_pos (by simp [hs])]
      rw [List.map_cons, List.filter_cons, if_neg (by simp [hs]), List.filter_eq_self.2 (by
        intro x hx; obtain ⟨d, hd, rfl⟩ := List.mem_map.1 hx; simpa using h1 d hd)]
      rw [List.map_eq_flatMap]
      apply List.flatMap_congr
      intro d hd
      simp [hs, h1 d hd]
    · have hfl : (rest.flatMap fun d => (if s.pos = u then [d.pos] else []) ++ (if d.pos = u then [s.pos] else [])) = if u ∈ rest.map ListNode.pos then [s.pos] else [] := by
        clear hb ih
        replace nd := nd.2
        induction rest with
        | nil => simp
        | cons d rest ih =>
          rw [List.map_cons, List.nodup_cons] at nd
          rw [List.flatMap_cons, ih nd.2]
          by_cases hd : d.pos = u
          · have : u ∉ rest.map ListNode.pos := by rw [← hd]; exact nd.1
            simp only [if_neg this, hs, hd]; simp [hd]
          · have hd' : u ≠ d.pos := fun h => hd h.symm
            simp only [hs, hd, List.map_cons, List.mem_cons, hd', false_or]; simp
      rw [hfl]
      have hs' : u ≠ s.pos := fun h => hs h.symm
      simp only [List.map_cons, List.mem_cons, hs', false_or, List.filter_cons]
      split <;> simp [hs]

namespace Ex

theorem complete_list {c : Cfg} {mem g : Graph} {n : Nat} (hn : n ≤ c.maxV) {d : Nat → Nat → ℚ}
    (e : createEuclideanGraph c (fun a b => d a.pos b.pos) mem (nodes n) = .ok g) : ∀ u < n, (g.nodes u).list = (List.range n).filter (· ≠ u) := by
  have hlen : (nodes n).length = n := by simp [nodes]
  have hmap : (nodes n).map ListNode.pos = List.range n := by
    unfold nodes; rw [List.map_map]; simp [Function.comp_def]
  generalize hdist : (fun (a b : ListNode) => d a.pos b.pos) = dist at e
  have hL := euclList_length dist (nodes n) 0
  have hcap : (euclList dist 0 (nodes n)).length ≤ c.maxE := by
    unfold Cfg.maxE
    rw [Nat.le_div_iff_mul_le (by omega), mul_comm, hL, hlen]
    exact Nat.mul_le_mul hn (by omega)
  unfold createEuclideanGraph at e
  rw [euclOuter_eq c dist (nodes n) [] (by simpa using hcap)] at e
  simp only [ok_bind, List.nil_append, List.length_nil] at e
  obtain ⟨r1, -⟩ := euclList_spec dist (nodes n) 0 0 (by intro i hi; simp [nodes])
  have hends : ∀ e ∈ euclList dist 0 (nodes n), e.src < ((nodes n).map fun v => (v.x, v.y)).length ∧ e.dest < ((nodes n).map fun v => (v.x, v.y)).length := by
    intro e he; have := r1 e he; rw [List.length_map]; omega
  have r := (createGraph_rep hends).2 g e
  intro u hu
  rw [r.nodes u (by rw [List.length_map, hlen]; exact hu), nbrs_euclList dist u _ _ (by rw [hmap]; exact List.nodup_range), hmap, if_pos (List.mem_range.2 hu)]

end Ex

/-! ### The path -/

/-- the cities in the order of the path -/
def path : List Nat := 1 :: Fib.victims

/-- distance 1 along the path, otherwise 2 -/
def pathDist (u v : Nat) : ℚ := if [u, v] <:+: path ∨ [v, u] <:+: path then 1 else 2

theorem pathDist_comm (u v : Nat) : pathDist u v = pathDist v u := by
  unfold pathDist; simp only [or_comm]

theorem pathDist_bounds (u v : Nat) : 1 ≤ pathDist u v ∧ pathDist u v ≤ 2 := by
  unfold pathDist; split <;> norm_num

theorem path_range : path.Nodup ∧ ∀ v ∈ path, 1 ≤ v ∧ v ≤ 258 := by decide +kernel

theorem split_unique {x : Nat} : ∀ {A B A' B' : List Nat}, (A ++ x :: B).Nodup → A ++ x :: B = A' ++ x :: B' → A = A' ∧ B = B' := by
  intro A
  induction A with
  | nil =>
    intro B A' B' nd h
    cases A' with
    | nil => simp at h; exact ⟨rfl, h⟩
    | cons a A' =>
      simp only [List.nil_append, List.cons_append, List.cons.injEq] at h
      obtain ⟨rfl, h⟩ := h
      rw [h] at nd
      simp at nd
  | cons a A ih =>
    intro B A' B' nd h
    cases A' with
    | nil =>
      simp only [List.nil_append, List.cons_append, List.cons.injEq] at h
      obtain ⟨rfl, h⟩ := h
      simp at nd
    | cons a' A' =>
      simp only [List.cons_append, List.cons.injEq] at h nd
      obtain ⟨h1, h2⟩ := ih (List.nodup_cons.1 nd).2 h.2
      exact ⟨by rw [h.1, h1], h2⟩

theorem path_next {A B : List Nat} {x z : Nat} (h : path = A ++ x :: B) (hz : [x, z] <:+: path) : B.head? = some z := by
  obtain ⟨s, t, hz⟩ := hz
  have nd := path_range.1
  rw [h] at hz nd
  have := split_unique nd (show A ++ x :: B = s ++ x :: (z :: t) by rw [← hz]; simp)
  rw [this.2]; rfl

theorem path_prev {A B : List Nat} {x z : Nat} (h : path = A ++ x :: B) (hz : [z, x] <:+: path) : z ∈ A := by
  obtain ⟨s, t, hz⟩ := hz
  have nd := path_range.1
  rw [h] at hz nd
  have := split_unique nd (show A ++ x :: B = (s ++ [z]) ++ x :: t by rw [← hz]; simp)
  rw [this.1]; simp

/-- the distances from a city of the path to the cities that are not before it -/
theorem pathDist_eq {A B : List Nat} {x z : Nat} (h : path = A ++ x :: B) (hz : z ∉ A) : pathDist x z = if B.head? = some z then 1 else 2 := by
  unfold pathDist
  by_cases hb : B.head? = some z
  · rw [if_pos hb, if_pos]
    left
    cases B with
    | nil => simp at hb
    | cons b B =>
      simp at hb; subst hb
      exact ⟨A, B, by rw [h]; simp⟩
  · rw [if_neg hb, if_neg]
    rintro (h1 | h1)
    · exact hb (path_next h h1)
    · exact hz (path_prev h h1)

/-! ### `constrained_prim` performs the history -/

/-- the complete graph with these distances -/
structure PathGraph (g : Graph) : Prop where
  num : g.numNodes = 259
  nbr : ∀ u < 259, (g.nodes u).list = (List.range 259).filter (· ≠ u)
  wt : ∀ u < 259, ∀ v < 259, u ≠ v → (g.mat u v).weight = pathDist u v

variable {g : Graph} {allow : Nat → Nat → Bool}

theorem relax_skip {u v : Nat} {s : PState} (hn : v < g.numNodes) (h : s.inHeap v = true → s.heap.value v ≤ (g.mat u v).weight) : relax g allow u s v = .ok s := by
  unfold relax
  split
  · rw [if_neg (by omega)]
    split
    · rename_i hi
      dsimp only
      rw [if_neg (not_lt.2 (h hi))]; rfl
    · rfl
  · rfl

theorem relax_hit {u v : Nat} {s : PState} {H : Fib.Heap} {w : ℚ} (hn : v < g.numNodes) (huv : v ≠ u) (hi : s.inHeap v = true) (hw : (g.mat u v).weight = w) (hlt : w < s.heap.value v)
    (ha : allow u v = true) (e : Fib.decreaseValue s.heap v w = .ok H) : relax g allow u s v = .ok { heap := H, inHeap := s.inHeap, fathers := upd s.fathers v (some u) } := by
  unfold relax
  subst hw
  rw [if_pos huv, if_neg (by omega), if_pos hi]
  dsimp only
  rw [if_pos hlt, if_pos ha, e]; rfl

theorem forList_skip {α β : Type} {f : α → β → Res α} {s : α} : ∀ {l : List β}, (∀ v ∈ l, f s v = .ok s) → forList f l s = .ok s := by
  intro l
  induction l with
  | nil => intro _; rfl
  | cons a l ih =>
    intro h
    rw [forList, h a (by simp)]
    exact ih (fun v hv => h v (by simp [hv]))

theorem relax_lower (G : PathGraph g) (ha : ∀ u v, allow u v = true) : ∀ (l : List Nat) {s : PState} {val : Nat → ℚ} {H' : Fib.Heap},
    Fib.Keyed s.heap s.inHeap val → (∀ v ∈ l, 2 ≤ v ∧ v ≤ 258 ∧ s.inHeap v = true ∧ val v = FLT_MAX) → l.Nodup → forList Fib.lower l s.heap = .ok H' →
    ∃ f, forList (relax g allow 1) l s = .ok { heap := H', inHeap := s.inHeap, fathers := f } := by
  intro l
  induction l with
  | nil =>
    intro s val H' h _ _ e
    simp [forList] at e; subst e
    exact ⟨s.fathers, rfl⟩
  | cons a l ih =>
    intro s val H' h hl nd e
    rw [forList, bind_eq_ok] at e
    obtain ⟨H1, e1, e2⟩ := e
    obtain ⟨a2, a258, ain, aval⟩ := hl a (by simp)
    have hw : (g.mat 1 a).weight = if a = 2 then 1 else 2 := by
      rw [G.wt 1 (by omega) a (by omega) (by omega), pathDist_eq (A := []) (B := Fib.victims) rfl (by simp)]
      simp only [Fib.victims, List.head?_cons, Option.some.injEq, eq_comm]
    have hstep := relax_hit (g := g) (allow := allow) (u := 1) (v := a) (s := s) (by rw [G.num]; omega) (by omega) ain hw (by
      rw [h.value ain, aval]; split <;> norm_num [FLT_MAX]) (ha _ _) e1
    have h1 := h.decrease ain e1
    rw [List.nodup_cons] at nd
    obtain ⟨f, e3⟩ := ih (s := { heap := H1, inHeap := s.inHeap, fathers := upd s.fathers a (some 1) }) h1 (by
      intro v hv
      obtain ⟨b1, b2, b3, b4⟩ := hl v (by simp [hv])
      exact ⟨b1, b2, b3, by rw [upd_ne _ _ (by rintro rfl; exact nd.1 hv)]; exact b4⟩) nd.2 e2
    exact ⟨f, by rw [forList, hstep]; exact e3⟩

theorem num_ne_zero {H : Fib.Heap} {D : Nat → Bool} {val : Nat → ℚ} (h : Fib.Keyed H D val) (e : ∀ H', Fib.extractMin H ≠ .ok (none, H')) : H.numNodes ≠ 0 := by
  intro h0
  have h1 := (Fib.C11_empty_and_counter h).2.2
  rw [h0] at h1
  obtain ⟨l, -, hm, hl⟩ := h1
  rw [List.length_eq_zero_iff.1 hl] at hm
  refine e H ((Fib.C11_empty_and_counter h).2.1 fun x => ?_)
  by_contra hx
  exact absurd ((hm x).2 hx) (by simp)

theorem loop_chain (G : PathGraph g) (ha : ∀ u v, allow u v = true) {H4 : Fib.Heap} {F : Fault} (he : Fib.extractMin H4 = .error F) : ∀ (l A : List Nat) (fuel : Nat) {s : PState} {val : Nat → ℚ},
    path = A ++ l → l ≠ [] → l.length ≤ fuel → Fib.Keyed s.heap s.inHeap val → (∀ z, s.inHeap z = true → z ∉ A ∧ z < 259 ∧ val z = if l.head? = some z then 1 else 2) →
    (∀ z ∈ l, s.inHeap z = true) → Fib.chain s.heap l = .ok H4 → primLoop g allow fuel s = .error F := by
  intro l
  induction l with
  | nil => intro A fuel s val _ h0; exact absurd rfl h0
  | cons x l ih =>
    intro A fuel s val hp _ hfuel hk hz hin e
    obtain ⟨fuel, rfl⟩ : ∃ k, fuel = k + 1 := ⟨fuel - 1, by simp at hfuel; omega⟩
    rw [primLoop]
    cases l with
    | nil =>
      simp [Fib.chain] at e; subst e
      rw [if_pos (num_ne_zero hk (by intro H'; rw [he]; simp)), he]; rfl
    | cons y l =>
      rw [Fib.chain, bind_eq_ok] at e
      obtain ⟨⟨r, H1⟩, e1, e⟩ := e
      dsimp only at e
      split at e
      · rename_i hr
        subst hr
        rw [bind_eq_ok] at e
        obtain ⟨H2, e2, e⟩ := e
        rw [if_pos (num_ne_zero hk (by intro H'; rw [e1]; simp)), e1]
        have nd := path_range.1
        rw [hp] at nd
        have ndl := (List.nodup_append.1 nd).2.1
        have hx259 := (hz x (hin x (by simp))).2.1
        have hy259 := (hz y (hin y (by simp))).2.1
        have hxy : y ≠ x := by rintro rfl; simp at ndl
        obtain ⟨-, k1⟩ := hk.extract e1
        simp only [ok_bind]
        rw [if_neg (by rw [G.num]; omega)]
        have hin1 : ∀ z, upd s.inHeap x false z = true → z ≠ x ∧ s.inHeap z = true := by
          intro z h
          rw [upd_apply] at h
          split at h
          · cases h
          · rename_i hne; exact ⟨hne, h⟩
        have hyin : upd s.inHeap x false y = true := by rw [upd_ne _ _ hxy]; exact hin y (by simp)
        have k2 := k1.decrease hyin e2
        have hval : ∀ z, upd s.inHeap x false z = true → val z = 2 := by
          intro z h
          obtain ⟨h1, h2⟩ := hin1 z h
          have := (hz z h2).2.2
          rw [if_neg (by simp; exact fun h => h1 h.symm)] at this; exact this
        have hwt : ∀ z, upd s.inHeap x false z = true → (g.mat x z).weight = if z = y then 1 else 2 := by
          intro z h
          obtain ⟨h1, h2⟩ := hin1 z h
          rw [G.wt x hx259 z (hz z h2).2.1 (fun h => h1 h.symm), pathDist_eq hp (hz z h2).1]
          simp only [List.head?_cons, Option.some.injEq, eq_comm]
        -- the neighbour loop
        have hloop : forList (relax g allow x) (g.nodes x).list { heap := H1, inHeap := upd s.inHeap x false, fathers := s.fathers } =
            .ok { heap := H2, inHeap := upd s.inHeap x false, fathers := upd s.fathers y (some x) } := by
          rw [G.nbr x hx259]
          have hmem : y ∈ (List.range 259).filter (· ≠ x) := by
            rw [List.mem_filter]; exact ⟨List.mem_range.2 hy259, by simpa using hxy⟩
          have hnd : ((List.range 259).filter (· ≠ x)).Nodup := List.nodup_range.filter _
          have hlt : ∀ v ∈ (List.range 259).filter (· ≠ x), v < 259 := by
            intro v hv; exact List.mem_range.1 (List.mem_filter.1 hv).1
          generalize (List.range 259).filter (· ≠ x) = L at hmem hnd hlt
          obtain ⟨L1, L2, rfl⟩ := List.append_of_mem hmem
          have hy1 : y ∉ L1 := by
            intro h; rw [List.nodup_append] at hnd; exact hnd.2.2 y h y (by simp) rfl
          have hy2 : y ∉ L2 := (List.nodup_cons.1 (List.nodup_append.1 hnd).2.1).1
          have s1 : forList (relax g allow x) L1 { heap := H1, inHeap := upd s.inHeap x false, fathers := s.fathers } =
              .ok { heap := H1, inHeap := upd s.inHeap x false, fathers := s.fathers } := by
            apply forList_skip
            intro v hv
            apply relax_skip (by rw [G.num]; exact hlt v (by simp [hv]))
            intro hi
            have hvy : v ≠ y := by rintro rfl; exact hy1 hv
            dsimp only at hi ⊢
            rw [hwt v hi, if_neg hvy, k1.value hi, hval v hi]
          have s2 : relax g allow x { heap := H1, inHeap := upd s.inHeap x false, fathers := s.fathers } y =
              .ok { heap := H2, inHeap := upd s.inHeap x false, fathers := upd s.fathers y (some x) } := by
            refine relax_hit (w := 1) (by rw [G.num]; exact hy259) hxy hyin ?_ ?_ (ha _ _) e2
            · rw [hwt y hyin, if_pos rfl]
            · show (1 : ℚ) < H1.value y
              rw [k1.value hyin, hval y hyin]; norm_num
          have s3 : forList (relax g allow x) L2 { heap := H2, inHeap := upd s.inHeap x false, fathers := upd s.fathers y (some x) } =
              .ok { heap := H2, inHeap := upd s.inHeap x false, fathers := upd s.fathers y (some x) } := by
            apply forList_skip
            intro v hv
            apply relax_skip (by rw [G.num]; exact hlt v (by simp [hv]))
            intro hi
            have hvy : v ≠ y := by rintro rfl; exact hy2 hv
            dsimp only at hi ⊢
            rw [hwt v hi, if_neg hvy, k2.value hi, upd_ne _ _ hvy, hval v hi]
          rw [forList_append, s1]
          simp only [ok_bind]
          rw [forList, s2]
          exact s3
        rw [hloop]
        simp only [ok_bind]
        refine ih (A ++ [x]) fuel (s := { heap := H2, inHeap := upd s.inHeap x false, fathers := upd s.fathers y (some x) }) (by rw [hp]; simp) (by simp) (by simp at hfuel ⊢; omega) k2 ?_ ?_ e
        · intro z h
          obtain ⟨h1, h2⟩ := hin1 z h
          obtain ⟨b1, b2, b3⟩ := hz z h2
          refine ⟨by simp [b1, h1], b2, ?_⟩
          rw [upd_apply, List.head?_cons]
          by_cases hzy : z = y
          · simp [hzy]
          · rw [if_neg hzy, if_neg (by simp; exact fun h => hzy h.symm), hval z h]
        · intro z h
          show upd s.inHeap x false z = true
          rw [upd_ne _ _ (by rintro rfl; exact (List.nodup_cons.1 ndl).1 h)]
          exact hin z (by simp only [List.mem_cons] at h ⊢; tauto)
      · cases e

theorem insert_history {f : Nat → Option Nat} : ∀ k, ∃ H, Fib.insertAll (Fib.createHeap Fib.mem0) k = .ok H ∧ Fib.Keyed H (Fib.upto k) (fun _ => FLT_MAX) ∧
    forList (cprimInsert 0) (List.range (k + 1)) { heap := Fib.createHeap Fib.mem0, inHeap := fun _ => false, fathers := f } = .ok { heap := H, inHeap := Fib.upto k, fathers := f } := by
  intro k
  obtain ⟨H, e, hk⟩ := Fib.insertAll_keyed (H := Fib.mem0) k
  refine ⟨H, e, hk, ?_⟩
  induction k generalizing H with
  | zero =>
    simp [Fib.insertAll] at e; subst e
    have : Fib.upto 0 = fun _ => false := by funext x; simp [Fib.upto]; omega
    rw [this]; rfl
  | succ k ih =>
    rw [Fib.insertAll, bind_eq_ok] at e
    obtain ⟨H1, e1, e2⟩ := e
    obtain ⟨H1', e1', hk1⟩ := Fib.insertAll_keyed (H := Fib.mem0) k
    rw [e1] at e1'; cases e1'
    rw [List.range_succ, forList_append, ih H1 e1 hk1]
    simp only [ok_bind, forList, cprimInsert]
    rw [if_pos (by omega)]
    simp only [cprimValue]
    rw [if_neg (by omega), e2]
    simp only [ok_bind, pure_eq_ok]
    rw [Fib.upto_succ]

theorem init_false (l : List Nat) (H : Fib.Heap) (f : Nat → Option Nat) : ∃ f', forList cprimInit l { heap := H, inHeap := fun _ => false, fathers := f } = .ok { heap := H, inHeap := fun _ => false, fathers := f' } := by
  induction l generalizing f with
  | nil => exact ⟨f, rfl⟩
  | cons a l ih =>
    obtain ⟨f', e⟩ := ih (upd f a none)
    refine ⟨f', ?_⟩
    rw [forList, cprimInit]
    simp only [ok_bind]
    rw [show upd (fun _ => false) a false = fun _ => false by funext x; rw [upd_apply]; split <;> rfl]
    exact e

theorem loop_overflows (G : PathGraph g) (hallow : ∀ u v, allow u v = true) {H1 H2 H3 H4 : Fib.Heap} {f : Nat → Option Nat} {F : Fault} (k1 : Fib.Keyed H1 (Fib.upto 258) (fun _ => FLT_MAX))
    (e2 : Fib.extractMin H1 = .ok (some 1, H2)) (e3 : forList Fib.lower (List.range' 2 257) H2 = .ok H3) (e4 : Fib.chain H3 Fib.victims = .ok H4) (he : Fib.extractMin H4 = .error F)
    {fuel : Nat} (hfuel : Fib.victims.length ≤ fuel) : primLoop g allow (fuel + 1) { heap := H1, inHeap := Fib.upto 258, fathers := f } = .error F := by
  obtain ⟨-, k2⟩ := k1.extract e2
  have hin2 : ∀ v, 2 ≤ v ∧ v ≤ 258 → upd (Fib.upto 258) 1 false v = true := by
    intro v hv
    rw [upd_ne _ _ (by omega)]; simp [Fib.upto]; omega
  have hin2' : ∀ v, upd (Fib.upto 258) 1 false v = true → 2 ≤ v ∧ v ≤ 258 := by
    intro v hv
    rw [upd_apply] at hv
    split at hv
    · cases hv
    · simp [Fib.upto] at hv; omega
  have hlist : (g.nodes 1).list = 0 :: List.range' 2 257 := by
    rw [G.nbr 1 (by omega)]; decide +kernel
  have h0 : relax g allow 1 { heap := H2, inHeap := upd (Fib.upto 258) 1 false, fathers := f } 0 = .ok { heap := H2, inHeap := upd (Fib.upto 258) 1 false, fathers := f } :=
    relax_skip (by rw [G.num]; omega) (by intro h; exact absurd (hin2' 0 h) (by omega))
  obtain ⟨f', er⟩ := relax_lower (g := g) G hallow (List.range' 2 257) (s := { heap := H2, inHeap := upd (Fib.upto 258) 1 false, fathers := f }) k2 (by
    intro v hv
    rw [List.mem_range'_1] at hv
    exact ⟨by omega, by omega, hin2 v (by omega), rfl⟩) List.nodup_range' e3
  have k3 := Fib.lower_keyed _ k2 (fun v hv => hin2 v (by rw [List.mem_range'_1] at hv; omega)) e3
  have hend := loop_chain (s := { heap := H3, inHeap := upd (Fib.upto 258) 1 false, fathers := f' }) G hallow he Fib.victims [1] fuel rfl (by rw [Fib.victims]; exact List.cons_ne_nil _ _) hfuel k3 (by
    intro z hz
    have hz' := hin2' z hz
    refine ⟨by simp; omega, by omega, ?_⟩
    rw [if_pos (by rw [List.mem_range'_1]; omega)]
    simp only [Fib.victims, List.head?_cons, Option.some.injEq, eq_comm]) (fun v hv => hin2 v (Fib.victims_range.2 v hv)) e4
  generalize List.range' 2 257 = L at hlist er
  rw [primLoop, if_pos (num_ne_zero k1 (by intro H'; rw [e2]; simp))]
  dsimp only
  rw [e2]
  simp only [ok_bind]
  rw [if_neg (by rw [G.num]; omega), hlist, forList, h0, ok_bind, er, ok_bind]
  exact hend

theorem constrainedPrim_overflows (G : PathGraph g) (c : Cfg) (sp : SubProblem) (h1 : sp.numForbidden = 0) (h2 : sp.numMandatory = 0) :
    constrainedPrim c g.numNodes g sp 0 { heap := Fib.mem0, inHeap := fun _ => false, fathers := fun _ => none } = .error (.oobAt .degreeList) := by
  obtain ⟨H1, H2, H3, H4, e1, e2, e3, e4, -, he⟩ := Fib.history_stages
  obtain ⟨f, ef⟩ := init_false (List.range g.numNodes) (Fib.createHeap Fib.mem0) (fun _ => none)
  obtain ⟨H1', e1', k1, ei⟩ := insert_history (f := f) 258
  rw [e1] at e1'; cases e1'
  have hallow : ∀ u v, sp.notForbidden u v = true := by intro u v; simp [SubProblem.notForbidden, h1]
  have hloop := loop_overflows (f := f) G hallow k1 e2 e3 e4 he (fuel := g.numNodes) (by rw [G.num]; decide +kernel)
  rw [show 258 + 1 = g.numNodes from G.num.symm] at ei
  unfold constrainedPrim
  rw [h2]
  dsimp only
  rw [ef]
  simp only [ok_bind, List.range_zero, forList]
  rw [ei]
  simp only [ok_bind]
  rw [hloop]
  simp only [error_bind]

theorem branchAndBound_first_error {c : Cfg} {env : Env} {p : Problem} {fuel : Nat} {F : Fault} (hf : checkFeasibility p.graph = true) (hn : 0 < p.graph.numNodes)
    (h : candStep c env ({ p with bestValue := INFINITE }, 0, 0, 0) 0 = .error F) : branchAndBound c env fuel p = .error F := by
  obtain ⟨n, hn'⟩ : ∃ n, p.graph.numNodes = n + 1 := ⟨p.graph.numNodes - 1, by omega⟩
  unfold branchAndBound findCandidate
  rw [if_pos hf]
  dsimp only
  rw [hn', List.range_succ_eq_map, forList, h]
  simp only [error_bind]

namespace Ex

/-- 259 cities -/
def cTable : Cfg := cO 259 (1 / 1000)

/-- some memory contents; the clock never stops the run -/
def envTable : Env := { env with candLoc := fun _ => { heap := Fib.mem0, inHeap := fun _ => false, fathers := fun _ => none } }

end Ex

/-- the instance and one content of the memory, for every clock -/
theorem table_search : ∃ (c : Cfg) (env : Env) (p : Problem), c.maxV = 259 ∧ Instance c p ∧ ProbsAbove c p ∧ (∀ k, env.clk k = false) ∧
    (∀ u < 259, ∀ v < 259, u ≠ v → weight p.graph s(u, v) = 1 ∨ weight p.graph s(u, v) = 2) ∧
    ∀ clk fuel, branchAndBound c { env with clk := clk } fuel p = .error (.oobAt .degreeList) := by
  obtain ⟨g, e, st, -, -, hn, -, hE, hw⟩ := Ex.complete Ex.cTable Ex.mem 259 (le_refl _) pathDist
  have hI : Instance Ex.cTable (Ex.probN g) := by
    refine Ex.prob_instance (g := g) (d := pathDist) rfl (by decide) (show (0 : Nat) < 259 by decide) ?_ e
    intro u v _ _
    have := pathDist_bounds u v
    refine ⟨by linarith, lt_of_le_of_lt this.2 (by norm_num [FLT_MAX])⟩
  have hwt : ∀ u < 259, ∀ v < 259, u ≠ v → weight g s(u, v) = pathDist u v := by
    intro u hu v hv huv
    rcases Nat.lt_or_gt_of_ne huv with h | h
    · exact hw u v h hv
    · rw [Sym2.eq_swap, hw v u h hu, pathDist_comm]
  have G : PathGraph g := ⟨hn, Ex.complete_list (d := pathDist) (le_refl _) e, fun u hu v hv huv => by
    rw [(st.mat_weight (hE u hu v hv huv)).1, hwt u hu v hv huv]⟩
  have hc : ProbsAbove Ex.cTable (Ex.probN g) := Ex.classic rfl
  refine ⟨Ex.cTable, Ex.envTable, Ex.probN g, rfl, hI, hc, fun _ => rfl, ?_, ?_⟩
  · intro u hu v hv huv
    rw [show (Ex.probN g).graph = g from rfl, hwt u hu v hv huv]
    unfold pathDist; split <;> simp
  · intro clk fuel
    have hf : checkFeasibility g = true := by
      rw [C46_min_degree st]
      intro u hu
      rw [hn] at hu
      have : ∃ v w, v < 259 ∧ w < 259 ∧ v ≠ w ∧ u ≠ v ∧ u ≠ w := by
        rcases Nat.lt_or_ge u 1 with h | h
        · exact ⟨1, 2, by omega, by omega, by omega, by omega, by omega⟩
        · rcases Nat.lt_or_ge u 2 with h | h
          · exact ⟨0, 2, by omega, by omega, by omega, by omega, by omega⟩
          · exact ⟨0, 1, by omega, by omega, by omega, by omega, by omega⟩
      obtain ⟨v, w, hv, hw, h1, h2, h3⟩ := this
      exact ⟨v, w, h1, hE u hu v hv h2, hE u hu w hw h3⟩
    have hI0 : Instance Ex.cTable { Ex.probN g with bestValue := INFINITE, cand := 0 } := by
      refine Ex.prob_instance (g := g) (d := pathDist) rfl (by decide) (show (0 : Nat) < 259 by decide) ?_ e
      intro u v _ _
      have := pathDist_bounds u v
      refine ⟨by linarith, lt_of_le_of_lt this.2 (by norm_num [FLT_MAX])⟩
    obtain ⟨p', t1, t2, x1, x2, en, -, -, -, hp'⟩ := C39_nearest_neighbour hI0 (Ex.classic rfl) (Ex.envTable.nn 0) (Ex.envTable.pnn 0) (start := 0) (show (0 : Nat) < 259 by decide)
    have hg : p'.graph = g := by
      rcases hp' with rfl | ⟨-, hp', -⟩
      · rfl
      · rw [hp']; rfl
    have hstep : candStep Ex.cTable Ex.envTable ({ Ex.probN g with bestValue := INFINITE }, 0, 0, 0) 0 = .error (.oobAt .degreeList) := by
      unfold candStep
      dsimp only
      rw [en]
      simp only [ok_bind]
      rw [hg]
      have := constrainedPrim_overflows G Ex.cTable { Ex.envTable.cand 0 with numForbidden := 0, numMandatory := 0 } rfl rfl
      simp only [Ex.envTable] at this ⊢
      rw [this]
      simp only [error_bind]
    exact branchAndBound_first_error hf (by rw [show (Ex.probN g).graph = g from rfl, hn]; omega) hstep

/-- C64 fails: on 259 cities with distances 1 and 2 (so the triangle inequality holds) the first call of `constrained_prim` writes outside the table of `consolidate`. -/
theorem C64_fails_table : ∃ (c : Cfg) (env : Env) (p : Problem), c.maxV = 259 ∧ Instance c p ∧ ProbsAbove c p ∧ (∀ k, env.clk k = false) ∧
    (∀ u < 259, ∀ v < 259, u ≠ v → weight p.graph s(u, v) = 1 ∨ weight p.graph s(u, v) = 2) ∧
    ∀ fuel, branchAndBound c env fuel p = .error (.oobAt .degreeList) := by
  obtain ⟨c, env, p, h1, h2, h3, h4, h5, h6⟩ := table_search
  exact ⟨c, env, p, h1, h2, h3, h4, h5, h6 env.clk⟩

end Verif
