import Verif.Model.FibHeap
import Verif.Model.Graph

/-!
# Runs on different memory: the Fibonacci heap

`RRel R x y`: both runs fail in the same way, or both succeed with results related by `R`. `HRel S H H'`: the two heap memories agree on the nodes of `S` (those that were created), and no pointer leads from
there to a node outside `S`.
-/
namespace Verif
set_option autoImplicit false

variable [Rounding]

/-- the same fault, or related results -/
def RRel {α β : Type} (R : α → β → Prop) : Res α → Res β → Prop
  | .ok a, .ok b => R a b
  | .error e, .error f => e = f
  | _, _ => False

omit [Rounding] in
theorem RRel.ok {α β : Type} {R : α → β → Prop} {a : α} {b : β} (h : R a b) : RRel R (.ok a) (.ok b) := h
omit [Rounding] in
theorem RRel.pure {α β : Type} {R : α → β → Prop} {a : α} {b : β} (h : R a b) : RRel R (Pure.pure a) (Pure.pure b) := h
omit [Rounding] in
theorem RRel.err {α β : Type} {R : α → β → Prop} (e : Fault) : RRel R (.error e) (.error e) := rfl

omit [Rounding] in
theorem RRel.bind {α β γ δ : Type} {R : α → β → Prop} {S : γ → δ → Prop} {x : Res α} {y : Res β} {f : α → Res γ} {g : β → Res δ} (h : RRel R x y)
    (hf : ∀ a b, R a b → RRel S (f a) (g b)) : RRel S (x >>= f) (y >>= g) := by
  cases x <;> cases y <;> simp only [RRel] at h
  · subst h; rfl
  · exact hf _ _ h

omit [Rounding] in
theorem RRel.mono {α β : Type} {R S : α → β → Prop} {x : Res α} {y : Res β} (h : RRel R x y) (hf : ∀ a b, R a b → S a b) : RRel S x y := by
  cases x <;> cases y <;> simp only [RRel] at h ⊢
  · exact h
  · exact hf _ _ h

omit [Rounding] in
theorem RRel.ite {α β : Type} {R : α → β → Prop} {p q : Prop} [Decidable p] [Decidable q] {x x' : Res α} {y y' : Res β} (hp : p ↔ q) (h1 : p → RRel R x y) (h2 : ¬ p → RRel R x' y') :
    RRel R (if p then x else x') (if q then y else y') := by
  by_cases h : p
  · rw [if_pos h, if_pos (hp.1 h)]; exact h1 h
  · rw [if_neg h, if_neg (fun hq => h (hp.2 hq))]; exact h2 h

omit [Rounding] in
theorem RRel.refl {α : Type} {R : α → α → Prop} {x : Res α} (h : ∀ a, x = .ok a → R a a) : RRel R x x := by
  cases x with
  | error e => rfl
  | ok a => exact h a rfl

omit [Rounding] in
theorem RRel.forList {α β γ : Type} {R : α → β → Prop} {f : α → γ → Res α} {g : β → γ → Res β} : ∀ {l : List γ} {a : α} {b : β},
    (∀ a b, ∀ v ∈ l, R a b → RRel R (f a v) (g b v)) → R a b → RRel R (forList f l a) (Verif.forList g l b) := by
  intro l
  induction l with
  | nil => intro a b _ h; exact h
  | cons v l ih =>
    intro a b hf h
    rw [Verif.forList, Verif.forList]
    exact RRel.bind (hf a b v (by simp) h) (fun a' b' h' => ih (fun a b w hw => hf a b w (by simp [hw])) h')

/-- equal on the indices of `S` -/
def FR (S : Nat → Prop) {α : Type} (f f' : Nat → α) : Prop := ∀ x, S x → f' x = f x

omit [Rounding] in
theorem FR.upd {S : Nat → Prop} {α : Type} {f f' : Nat → α} (h : FR S f f') (i : Nat) {v v' : α} (hv : v' = v) : FR S (Verif.upd f i v) (Verif.upd f' i v') := by
  intro x hx
  rw [upd_apply, upd_apply, hv, h x hx]

namespace Fib

/-- addresses, equal on `S` and within `S` -/
def PR (S : Nat → Prop) (f f' : Nat → Nat) : Prop := ∀ x, S x → f' x = f x ∧ S (f x)
/-- NULL or an address within `S` -/
def OS (S : Nat → Prop) (o : Option Nat) : Prop := ∀ y, o = some y → S y
/-- nullable pointers, equal on `S` and within `S` -/
def OR (S : Nat → Prop) (f f' : Nat → Option Nat) : Prop := ∀ x, S x → f' x = f x ∧ OS S (f x)

omit [Rounding] in
theorem PR.upd {S : Nat → Prop} {f f' : Nat → Nat} (h : PR S f f') (i : Nat) {v v' : Nat} (hv : v' = v) (hs : S v) : PR S (Verif.upd f i v) (Verif.upd f' i v') := by
  intro x hx
  rw [upd_apply, upd_apply, hv]
  split
  · exact ⟨rfl, hs⟩
  · exact h x hx

omit [Rounding] in
theorem OR.upd {S : Nat → Prop} {f f' : Nat → Option Nat} (h : OR S f f') (i : Nat) {v v' : Option Nat} (hv : v' = v) (hs : OS S v) : OR S (Verif.upd f i v) (Verif.upd f' i v') := by
  intro x hx
  rw [upd_apply, upd_apply, hv]
  split
  · exact ⟨rfl, hs⟩
  · exact h x hx

omit [Rounding] in
theorem OS.none {S : Nat → Prop} : OS S none := by intro y h; cases h
omit [Rounding] in
theorem OS.some {S : Nat → Prop} {x : Nat} (h : S x) : OS S (some x) := by intro y e; cases e; exact h

/-- the two memories agree on the nodes of `S`, from where no pointer leads outside -/
structure HRel (S : Nat → Prop) (H H' : Heap) : Prop where
  key : FR S H.key H'.key
  value : FR S H.value H'.value
  parent : OR S H.parent H'.parent
  left : PR S H.left H'.left
  right : PR S H.right H'.right
  headC : OR S H.headC H'.headC
  tailC : OR S H.tailC H'.tailC
  numC : FR S H.numC H'.numC
  marked : FR S H.marked H'.marked
  isRoot : FR S H.isRoot H'.isRoot
  minRoot : H'.minRoot = H.minRoot ∧ OS S H.minRoot
  head : H'.head = H.head ∧ OS S H.head
  tail : H'.tail = H.tail ∧ OS S H.tail
  numNodes : H'.numNodes = H.numNodes
  numTrees : H'.numTrees = H.numTrees

omit [Rounding] in
theorem HRel.create (H H' : Heap) : HRel (fun _ => False) (createHeap H) (createHeap H') := by
  constructor <;> first | (intro x hx; exact hx.elim) | exact ⟨rfl, OS.none⟩ | rfl

omit [Rounding] in
theorem deref_rel {S : Nat → Prop} {o o' : Option Nat} (h : o' = o ∧ OS S o) : RRel (fun a b => b = a ∧ S a) (deref o) (deref o') := by
  rw [h.1]
  cases o with
  | none => rfl
  | some a => exact ⟨rfl, h.2 a rfl⟩

variable {S : Nat → Prop} {H H' : Heap}

omit [Rounding] in
theorem HRel.setMin (h : HRel S H H') {c : Nat} (hc : S c) : HRel S { H with minRoot := some c } { H' with minRoot := some c } :=
  { h with minRoot := ⟨rfl, OS.some hc⟩ }

omit [Rounding] in
theorem appendRoot_rel (h : HRel S H H') {c : Nat} (hc : S c) : RRel (HRel S) (appendRoot H c) (appendRoot H' c) := by
  unfold appendRoot
  refine RRel.bind (deref_rel h.tail) ?_
  rintro _ t ⟨rfl, ht⟩
  refine RRel.bind (deref_rel h.head) ?_
  rintro _ d ⟨rfl, hd⟩
  exact RRel.pure { h with
    right := (h.right.upd t rfl hc).upd c rfl hd
    left := (h.left.upd d rfl hc).upd c rfl ht
    tail := ⟨rfl, OS.some hc⟩ }

omit [Rounding] in
theorem unlink_rel (h : HRel S H H') {c : Nat} (hc : S c) : HRel S (unlink H c) (unlink H' c) := by
  unfold unlink
  rw [(h.left c hc).1, (h.right c hc).1]
  exact { h with
    right := h.right.upd _ rfl (h.right c hc).2
    left := h.left.upd _ rfl (h.left c hc).2 }

omit [Rounding] in
/-- more nodes become known -/
theorem createNode_rel (h : HRel S H H') (x k : Nat) (v : ℚ) {T : Nat → Prop} (hT : ∀ y, T y ↔ S y ∨ y = x) :
    FR T (createNode H x k v).key (createNode H' x k v).key ∧ FR T (createNode H x k v).value (createNode H' x k v).value ∧ OR T (createNode H x k v).parent (createNode H' x k v).parent ∧
    PR T (createNode H x k v).left (createNode H' x k v).left ∧ PR T (createNode H x k v).right (createNode H' x k v).right ∧ OR T (createNode H x k v).headC (createNode H' x k v).headC ∧
    OR T (createNode H x k v).tailC (createNode H' x k v).tailC ∧ FR T (createNode H x k v).numC (createNode H' x k v).numC := by
  have hS : ∀ y, S y → T y := fun y hy => (hT y).2 (Or.inl hy)
  have hx : T x := (hT x).2 (Or.inr rfl)
  have F : ∀ {α : Type} {f f' : Nat → α} (w : α), FR S f f' → FR T (upd f x w) (upd f' x w) := by
    intro α f f' w hf y hy
    rw [upd_apply, upd_apply]
    split
    · rfl
    · rename_i hne; exact hf y (((hT y).1 hy).resolve_right hne)
  have P : ∀ {f f' : Nat → Nat}, PR S f f' → PR T (upd f x x) (upd f' x x) := by
    intro f f' hf y hy
    rw [upd_apply, upd_apply]
    split
    · exact ⟨rfl, hx⟩
    · rename_i hne; have := hf y (((hT y).1 hy).resolve_right hne); exact ⟨this.1, hS _ this.2⟩
  have O : ∀ {f f' : Nat → Option Nat}, OR S f f' → OR T (upd f x none) (upd f' x none) := by
    intro f f' hf y hy
    rw [upd_apply, upd_apply]
    split
    · exact ⟨rfl, OS.none⟩
    · rename_i hne; have := hf y (((hT y).1 hy).resolve_right hne); exact ⟨this.1, fun z hz => hS _ (this.2 z hz)⟩
  exact ⟨F k h.key, F v h.value, O h.parent, P h.left, P h.right, O h.headC, O h.tailC, F 0 h.numC⟩

omit [Rounding] in
theorem insert_rel (h : HRel S H H') (x k : Nat) (v : ℚ) : RRel (HRel (fun y => S y ∨ y = x)) (createInsertNode H x k v) (createInsertNode H' x k v) := by
  obtain ⟨k1, k2, k3, k4, k5, k6, k7, k8⟩ := createNode_rel h x k v (T := fun y => S y ∨ y = x) (fun y => Iff.rfl)
  have hS : ∀ y, S y → S y ∨ y = x := fun y hy => Or.inl hy
  have hx : S x ∨ x = x := Or.inr rfl
  have hm : FR (fun y => S y ∨ y = x) (upd H.marked x false) (upd H'.marked x false) := by
    intro y hy
    rw [upd_apply, upd_apply]
    split
    · rfl
    · rename_i hne; exact h.marked y (hy.resolve_right hne)
  have hr : FR (fun y => S y ∨ y = x) (upd H.isRoot x true) (upd H'.isRoot x true) := by
    intro y hy
    rw [upd_apply, upd_apply]
    split
    · rfl
    · rename_i hne; exact h.isRoot y (hy.resolve_right hne)
  unfold createInsertNode insertNode
  have base : HRel (fun y => S y ∨ y = x) { createNode H x k v with marked := upd (createNode H x k v).marked x false, isRoot := upd (createNode H x k v).isRoot x true }
      { createNode H' x k v with marked := upd (createNode H' x k v).marked x false, isRoot := upd (createNode H' x k v).isRoot x true } :=
    ⟨k1, k2, k3, k4, k5, k6, k7, k8, hm, hr, ⟨h.minRoot.1, fun y e => hS y (h.minRoot.2 y e)⟩, ⟨h.head.1, fun y e => hS y (h.head.2 y e)⟩, ⟨h.tail.1, fun y e => hS y (h.tail.2 y e)⟩,
      h.numNodes, h.numTrees⟩
  generalize ({ createNode H x k v with marked := upd (createNode H x k v).marked x false, isRoot := upd (createNode H x k v).isRoot x true } : Heap) = A at base ⊢
  generalize ({ createNode H' x k v with marked := upd (createNode H' x k v).marked x false, isRoot := upd (createNode H' x k v).isRoot x true } : Heap) = B at base ⊢
  dsimp only
  refine RRel.bind (R := HRel (fun y => S y ∨ y = x)) ?_ ?_
  · refine RRel.ite (by rw [base.numTrees]) (fun _ => ?_) (fun _ => ?_)
    · exact RRel.pure { base with minRoot := ⟨rfl, OS.some hx⟩, head := ⟨rfl, OS.some hx⟩, tail := ⟨rfl, OS.some hx⟩ }
    · refine RRel.bind (deref_rel base.minRoot) ?_
      rintro _ m ⟨rfl, hm⟩
      rw [base.value x hx, base.value m hm]
      split
      · exact appendRoot_rel (base.setMin hx) hx
      · exact appendRoot_rel base hx
  · intro a b hab
    exact RRel.pure { hab with numNodes := by rw [hab.numNodes], numTrees := by rw [hab.numTrees] }

omit [Rounding] in
theorem linkTrees_rel (h : HRel S H H') {ch fa : Nat} (hc : S ch) (hf : S fa) : RRel (HRel S) (linkTrees H ch fa) (linkTrees H' ch fa) := by
  unfold linkTrees
  have h2 := unlink_rel (H := { H with marked := upd H.marked ch false }) (H' := { H' with marked := upd H'.marked ch false }) { h with marked := h.marked.upd ch rfl } hc
  dsimp only at h2 ⊢
  generalize unlink { H with marked := upd H.marked ch false } ch = A at h2 ⊢
  generalize unlink { H' with marked := upd H'.marked ch false } ch = B at h2 ⊢
  have hn : B.numC fa = A.numC fa := h2.numC fa hf
  have h3 : HRel S { A with isRoot := upd A.isRoot ch false, numTrees := A.numTrees - 1, parent := upd A.parent ch (some fa), numC := upd A.numC fa (A.numC fa + 1) }
      { B with isRoot := upd B.isRoot ch false, numTrees := B.numTrees - 1, parent := upd B.parent ch (some fa), numC := upd B.numC fa (B.numC fa + 1) } :=
    { h2 with
      isRoot := h2.isRoot.upd ch rfl
      numTrees := by show B.numTrees - 1 = A.numTrees - 1; rw [h2.numTrees]
      parent := h2.parent.upd ch rfl (OS.some hf)
      numC := h2.numC.upd fa (by rw [hn]) }
  refine RRel.ite (by rw [upd_self, upd_self, hn]) (fun _ => ?_) (fun _ => ?_)
  · exact RRel.pure { h3 with
      headC := h3.headC.upd fa rfl (OS.some hc)
      tailC := h3.tailC.upd fa rfl (OS.some hc)
      left := h3.left.upd ch rfl hc
      right := h3.right.upd ch rfl hc }
  · refine RRel.bind (deref_rel (h3.tailC fa hf)) ?_
    rintro _ t ⟨rfl, ht⟩
    refine RRel.bind (deref_rel (h3.headC fa hf)) ?_
    rintro _ d ⟨rfl, hd⟩
    exact RRel.pure { h3 with
      right := (h3.right.upd t rfl hc).upd ch rfl hd
      left := (h3.left.upd d rfl hc).upd ch rfl ht
      tailC := h3.tailC.upd fa rfl (OS.some hc) }

/-- heaps with the table of `consolidate` -/
def HT (S : Nat → Prop) (a b : Heap × (Nat → Option Nat)) : Prop := HRel S a.1 b.1 ∧ b.2 = a.2 ∧ ∀ i, OS S (a.2 i)

omit [Rounding] in
theorem OS_upd {dl : Nat → Option Nat} (h : ∀ i, OS S (dl i)) (j : Nat) {o : Option Nat} (ho : OS S o) : ∀ i, OS S (upd dl j o i) := by
  intro i; rw [upd_apply]; split
  · exact ho
  · exact h i

omit [Rounding] in
theorem linkLoop_rel (dim : Nat) : ∀ (fuel : Nat) {H H' : Heap} {dl : Nat → Option Nat} {cur : Nat} (deg : Nat), HRel S H H' → (∀ i, OS S (dl i)) → S cur →
    RRel (HT S) (linkLoop dim fuel H dl cur deg) (linkLoop dim fuel H' dl cur deg) := by
  intro fuel
  induction fuel with
  | zero => intros; rfl
  | succ fuel ih =>
    intro H H' dl cur deg h hdl hc
    rw [linkLoop, linkLoop]
    refine RRel.ite Iff.rfl (fun _ => RRel.err _) (fun _ => ?_)
    cases hd : dl deg with
    | none => exact RRel.pure ⟨h, rfl, OS_upd hdl deg (OS.some hc)⟩
    | some same =>
      have hs : S same := hdl deg same hd
      dsimp only
      rw [h.value cur hc, h.value same hs]
      have hpq : ∃ p q, (if H.value cur > H.value same then (same, cur) else (cur, same)) = (p, q) ∧ S p ∧ S q := by
        split
        · exact ⟨_, _, rfl, hs, hc⟩
        · exact ⟨_, _, rfl, hc, hs⟩
      obtain ⟨p, q, e, hp, hq⟩ := hpq
      rw [e]
      exact RRel.bind (linkTrees_rel h hq hp) (fun a b hab => ih _ hab (OS_upd hdl deg OS.none) hp)

omit [Rounding] in
theorem scanRoots_rel (dim : Nat) : ∀ (k : Nat) {H H' : Heap} {dl : Nat → Option Nat} {iter : Nat}, HRel S H H' → (∀ i, OS S (dl i)) → S iter →
    RRel (HT S) (scanRoots dim k H dl iter) (scanRoots dim k H' dl iter) := by
  intro k
  induction k with
  | zero => intro H H' dl iter h hdl _; exact RRel.pure ⟨h, rfl, hdl⟩
  | succ k ih =>
    intro H H' dl iter h hdl hi
    rw [scanRoots, scanRoots]
    dsimp only
    rw [h.numC iter hi, (h.right iter hi).1]
    refine RRel.bind (linkLoop_rel dim (dim + 1) _ h hdl hi) ?_
    rintro ⟨a, d⟩ ⟨b, d'⟩ ⟨hab, hd, hos⟩
    dsimp only at hd hos hab ⊢
    rw [hd]
    exact ih hab hos (h.right iter hi).2

omit [Rounding] in
theorem rebuild_rel {dl : Nat → Option Nat} (hdl : ∀ i, OS S (dl i)) : ∀ (k i : Nat) {H H' : Heap}, HRel S H H' → RRel (HRel S) (rebuild dl k i H) (rebuild dl k i H') := by
  intro k
  induction k with
  | zero => intro i H H' h; exact RRel.pure h
  | succ k ih =>
    intro i H H' h
    rw [rebuild, rebuild]
    cases hd : dl i with
    | none => exact ih _ h
    | some d =>
      have hs : S d := hdl i d hd
      dsimp only
      rw [h.minRoot.1]
      cases hm : H.minRoot with
      | none =>
        have h' : HRel S { H with minRoot := some d, head := some d, tail := some d } { H' with minRoot := some d, head := some d, tail := some d } :=
          { h with minRoot := ⟨rfl, OS.some hs⟩, head := ⟨rfl, OS.some hs⟩, tail := ⟨rfl, OS.some hs⟩ }
        exact ih _ h'
      | some m =>
        have hms : S m := h.minRoot.2 m hm
        dsimp only
        rw [h.value m hms, h.value d hs]
        refine RRel.bind (R := HRel S) ?_ (fun a b hab => ih _ hab)
        split
        · exact appendRoot_rel (h.setMin hs) hs
        · exact appendRoot_rel h hs

omit [Rounding] in
theorem consolidate_rel (h : HRel S H H') : RRel (HRel S) (consolidate H) (consolidate H') := by
  unfold consolidate
  dsimp only
  rw [h.numNodes, h.numTrees]
  refine RRel.bind (deref_rel h.head) ?_
  rintro _ it ⟨rfl, hi⟩
  refine RRel.bind (scanRoots_rel _ _ h (fun _ => OS.none) hi) ?_
  rintro ⟨a, d⟩ ⟨b, d'⟩ ⟨hab, hd, hos⟩
  dsimp only at hd hos hab ⊢
  rw [hd]
  exact rebuild_rel hos _ _ { hab with minRoot := ⟨rfl, OS.none⟩ }

omit [Rounding] in
/-- unlinking a child of `m`, the common part of `promote` and `cut` -/
theorem detach_rel (h : HRel S H H') {m ch : Nat} (hm : S m) (hc : S ch) : RRel (HRel S)
    (do let h ← deref (H.headC m)
        let H2 := if H.key h = H.key ch then { H with headC := upd H.headC m (some (H.right ch)) } else H
        let t ← deref (H2.tailC m)
        let H3 := if H2.key t = H2.key ch then { H2 with tailC := upd H2.tailC m (some (H2.left ch)) } else H2
        pure (unlink H3 ch))
    (do let h ← deref (H'.headC m)
        let H2 := if H'.key h = H'.key ch then { H' with headC := upd H'.headC m (some (H'.right ch)) } else H'
        let t ← deref (H2.tailC m)
        let H3 := if H2.key t = H2.key ch then { H2 with tailC := upd H2.tailC m (some (H2.left ch)) } else H2
        pure (unlink H3 ch)) := by
  refine RRel.bind (deref_rel (h.headC m hm)) ?_
  rintro _ d ⟨rfl, hd⟩
  have h2 : HRel S (if H.key d = H.key ch then { H with headC := upd H.headC m (some (H.right ch)) } else H)
      (if H'.key d = H'.key ch then { H' with headC := upd H'.headC m (some (H'.right ch)) } else H') := by
    rw [h.key d hd, h.key ch hc]
    split
    · exact { h with headC := h.headC.upd m (by rw [(h.right ch hc).1]) (OS.some (h.right ch hc).2) }
    · exact h
  dsimp only
  generalize (if H.key d = H.key ch then { H with headC := upd H.headC m (some (H.right ch)) } else H) = A at h2 ⊢
  generalize (if H'.key d = H'.key ch then { H' with headC := upd H'.headC m (some (H'.right ch)) } else H') = B at h2 ⊢
  refine RRel.bind (deref_rel (h2.tailC m hm)) ?_
  rintro _ t ⟨rfl, ht⟩
  refine RRel.pure (unlink_rel ?_ hc)
  rw [h2.key t ht, h2.key ch hc]
  split
  · exact { h2 with tailC := h2.tailC.upd m (by rw [(h2.left ch hc).1]) (OS.some (h2.left ch hc).2) }
  · exact h2

omit [Rounding] in
theorem promote_rel {m : Nat} (hm : S m) : ∀ (k : Nat) {H H' : Heap} {o : Option Nat}, HRel S H H' → OS S o → RRel (HRel S) (promote m k H o) (promote m k H' o) := by
  intro k
  induction k with
  | zero => intro H H' o h _; exact RRel.pure h
  | succ k ih =>
    intro H H' o h ho
    rw [promote, promote]
    refine RRel.bind (deref_rel ⟨rfl, ho⟩) ?_
    rintro _ ch ⟨rfl, hc⟩
    have h1 : HRel S { H with parent := upd H.parent ch none, isRoot := upd H.isRoot ch true, marked := upd H.marked ch false }
        { H' with parent := upd H'.parent ch none, isRoot := upd H'.isRoot ch true, marked := upd H'.marked ch false } :=
      { h with parent := h.parent.upd ch rfl OS.none, isRoot := h.isRoot.upd ch rfl, marked := h.marked.upd ch rfl }
    generalize ({ H with parent := upd H.parent ch none, isRoot := upd H.isRoot ch true, marked := upd H.marked ch false } : Heap) = A at h1 ⊢
    generalize ({ H' with parent := upd H'.parent ch none, isRoot := upd H'.isRoot ch true, marked := upd H'.marked ch false } : Heap) = B at h1 ⊢
    refine RRel.bind (R := HRel S) ?_ ?_
    · refine RRel.ite Iff.rfl (fun _ => ?_) (fun _ => detach_rel h1 hm hc)
      exact RRel.pure { h1 with headC := h1.headC.upd m rfl OS.none, tailC := h1.tailC.upd m rfl OS.none }
    · intro a b hab
      refine RRel.bind (appendRoot_rel hab hc) ?_
      intro a b hab
      dsimp only
      rw [(hab.headC m hm).1]
      refine ih ?_ (hab.headC m hm).2
      exact { hab with numTrees := by show b.numTrees + 1 = a.numTrees + 1; rw [hab.numTrees], numC := hab.numC.upd m (by rw [hab.numC m hm]) }

theorem extract_rel (h : HRel S H H') : RRel (fun a b => b.1 = a.1 ∧ HRel S a.2 b.2) (extractMin H) (extractMin H') := by
  unfold extractMin
  rw [h.minRoot.1]
  cases hmr : H.minRoot with
  | none => exact RRel.pure ⟨rfl, h⟩
  | some m =>
    have hm : S m := h.minRoot.2 m hmr
    dsimp only
    rw [h.key m hm, h.numC m hm, (h.headC m hm).1]
    refine RRel.bind (promote_rel hm _ h (h.headC m hm).2) ?_
    intro a b hab
    refine RRel.bind (deref_rel hab.head) ?_
    rintro _ d ⟨rfl, hd⟩
    have h3 : HRel S (if a.key d = a.key m then { a with numTrees := a.numTrees - 1, head := some (a.right d) } else { a with numTrees := a.numTrees - 1 })
        (if b.key d = b.key m then { b with numTrees := b.numTrees - 1, head := some (b.right d) } else { b with numTrees := b.numTrees - 1 }) := by
      rw [hab.key d hd, hab.key m hm]
      split
      · exact { hab with numTrees := by show b.numTrees - 1 = a.numTrees - 1; rw [hab.numTrees], head := ⟨by show some (b.right d) = some (a.right d); rw [(hab.right d hd).1], OS.some (hab.right d hd).2⟩ }
      · exact { hab with numTrees := by show b.numTrees - 1 = a.numTrees - 1; rw [hab.numTrees] }
    generalize (if a.key d = a.key m then ({ a with numTrees := a.numTrees - 1, head := some (a.right d) } : Heap) else { a with numTrees := a.numTrees - 1 }) = A at h3 ⊢
    generalize (if b.key d = b.key m then ({ b with numTrees := b.numTrees - 1, head := some (b.right d) } : Heap) else { b with numTrees := b.numTrees - 1 }) = B at h3 ⊢
    refine RRel.bind (deref_rel h3.tail) ?_
    rintro _ t ⟨rfl, ht⟩
    have h4 : HRel S (if A.key t = A.key m then { A with tail := some (A.left t) } else A) (if B.key t = B.key m then { B with tail := some (B.left t) } else B) := by
      rw [h3.key t ht, h3.key m hm]
      split
      · exact { h3 with tail := ⟨by show some (B.left t) = some (A.left t); rw [(h3.left t ht).1], OS.some (h3.left t ht).2⟩ }
      · exact h3
    have h5 := unlink_rel h4 hm
    generalize unlink (if A.key t = A.key m then { A with tail := some (A.left t) } else A) m = A5 at h5 ⊢
    generalize unlink (if B.key t = B.key m then { B with tail := some (B.left t) } else B) m = B5 at h5 ⊢
    have hr := h5.right m hm
    refine RRel.bind (R := HRel S) ?_ ?_
    · refine RRel.ite (by rw [hr.1, h5.key m hm, h5.key _ hr.2]) (fun _ => ?_) (fun _ => ?_)
      · exact RRel.pure { h5 with minRoot := ⟨rfl, OS.none⟩, tail := ⟨rfl, OS.none⟩, head := ⟨rfl, OS.none⟩, numTrees := rfl }
      · exact consolidate_rel { h5 with minRoot := ⟨by show some (B5.right m) = some (A5.right m); rw [hr.1], OS.some hr.2⟩ }
    · intro a b hab
      exact RRel.pure ⟨rfl, { hab with numNodes := by show b.numNodes - 1 = a.numNodes - 1; rw [hab.numNodes] }⟩

omit [Rounding] in
theorem cut_rel (h : HRel S H H') {x p : Nat} (hx : S x) (hp : S p) : RRel (HRel S) (cut H x p) (cut H' x p) := by
  unfold cut
  have h1 : HRel S { H with parent := upd H.parent x none, isRoot := upd H.isRoot x true, marked := upd H.marked x false, numC := upd H.numC p (H.numC p - 1) }
      { H' with parent := upd H'.parent x none, isRoot := upd H'.isRoot x true, marked := upd H'.marked x false, numC := upd H'.numC p (H'.numC p - 1) } :=
    { h with parent := h.parent.upd x rfl OS.none, isRoot := h.isRoot.upd x rfl, marked := h.marked.upd x rfl, numC := h.numC.upd p (by rw [h.numC p hp]) }
  generalize ({ H with parent := upd H.parent x none, isRoot := upd H.isRoot x true, marked := upd H.marked x false, numC := upd H.numC p (H.numC p - 1) } : Heap) = A at h1 ⊢
  generalize ({ H' with parent := upd H'.parent x none, isRoot := upd H'.isRoot x true, marked := upd H'.marked x false, numC := upd H'.numC p (H'.numC p - 1) } : Heap) = B at h1 ⊢
  refine RRel.bind (R := HRel S) ?_ ?_
  · refine RRel.ite (by rw [h1.numC p hp]) (fun _ => ?_) (fun _ => detach_rel h1 hp hx)
    exact RRel.pure { h1 with headC := h1.headC.upd p rfl OS.none, tailC := h1.tailC.upd p rfl OS.none }
  · intro a b hab
    refine RRel.bind (appendRoot_rel hab hx) ?_
    intro a b hab
    exact RRel.pure { hab with numTrees := by show b.numTrees + 1 = a.numTrees + 1; rw [hab.numTrees] }

omit [Rounding] in
theorem cascadingCut_rel : ∀ (k : Nat) {H H' : Heap} {x : Nat}, HRel S H H' → S x → RRel (HRel S) (cascadingCut k H x) (cascadingCut k H' x) := by
  intro k
  induction k with
  | zero => intros; rfl
  | succ k ih =>
    intro H H' x h hx
    rw [cascadingCut, cascadingCut, (h.parent x hx).1]
    cases hp : H.parent x with
    | none => exact RRel.pure h
    | some p =>
      have hps : S p := (h.parent x hx).2 p hp
      dsimp only
      rw [h.marked x hx]
      refine RRel.ite Iff.rfl (fun _ => RRel.pure { h with marked := h.marked.upd x rfl }) (fun _ => ?_)
      exact RRel.bind (cut_rel h hx hps) (fun a b hab => ih hab hps)

omit [Rounding] in
theorem decrease_rel (h : HRel S H H') {x : Nat} (hx : S x) (v : ℚ) : RRel (HRel S) (decreaseValue H x v) (decreaseValue H' x v) := by
  unfold decreaseValue
  rw [h.value x hx]
  refine RRel.ite Iff.rfl (fun _ => RRel.err _) (fun _ => ?_)
  have h1 : HRel S { H with value := upd H.value x v } { H' with value := upd H'.value x v } := { h with value := h.value.upd x rfl }
  dsimp only
  rw [(h1.parent x hx).1]
  refine RRel.bind (R := HRel S) ?_ ?_
  · cases hp : H.parent x with
    | none => exact RRel.pure h1
    | some p =>
      have hps : S p := (h.parent x hx).2 p hp
      dsimp only
      have e := h1.value p hps
      dsimp only at e
      refine RRel.ite (by rw [e, upd_self, upd_self]) (fun _ => ?_) (fun _ => RRel.pure h1)
      refine RRel.bind (cut_rel h1 hx hps) (fun a b hab => ?_)
      rw [hab.numNodes]
      exact cascadingCut_rel _ hab hps
  · intro a b hab
    refine RRel.bind (deref_rel hab.minRoot) ?_
    rintro _ m ⟨rfl, hm⟩
    rw [hab.value x hx, hab.value m hm]
    refine RRel.pure ?_
    split
    · exact { hab with minRoot := ⟨rfl, OS.some hx⟩ }
    · exact hab

end Fib
end Verif
