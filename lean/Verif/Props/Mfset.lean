import Verif.Proofs.Mfset
import Verif.Spec.Partition

/-!
# Properties C06–C09: the merge-find set
-/
namespace Verif.Mf
open Verif Verif.Spec
set_option autoImplicit false

/-- a history of calls; `k` bounds the recursion depth of each `find` -/
def run (k : Nat) (f : Forest) : List MfOp → Res Forest
  | [] => .ok f
  | .find x :: ops => do let (_, f') ← find k f x; run k f' ops
  | .merge x y :: ops => do let f' ← merge k f x y; run k f' ops

/-- following `d` parent pointers from `x` -/
def climb (f : Forest) : Nat → Nat → Option Nat
  | 0, x => some x
  | d + 1, x => match f x with
    | some r => match r.parent with
      | some p => climb f d p
      | none => none
    | none => none

theorem joined_cons {P : List (Nat × Nat)} {x y u v : Nat} :
    Joined ((x, y) :: P) u v ↔ Joined P u v ∨ (Joined P u x ∧ Joined P y v) ∨ (Joined P u y ∧ Joined P x v) := by
  have tr : ∀ {a b c}, Joined P a b → Joined P b c → Joined P a c := fun h1 h2 => .trans _ _ _ h1 h2
  have sy : ∀ {a b}, Joined P a b → Joined P b a := fun h => .symm _ _ h
  have rf : ∀ a, Joined P a a := fun a => .refl a
  constructor
  · intro h
    induction h with
    | rel a b h =>
      rcases List.mem_cons.1 h with h | h
      · cases h; exact Or.inr (Or.inl ⟨rf _, rf _⟩)
      · exact Or.inl (.rel _ _ h)
    | refl a => exact Or.inl (rf a)
    | symm a b _ ih =>
      rcases ih with h | ⟨h1, h2⟩ | ⟨h1, h2⟩
      · exact Or.inl (sy h)
      · exact Or.inr (Or.inr ⟨sy h2, sy h1⟩)
      · exact Or.inr (Or.inl ⟨sy h2, sy h1⟩)
    | trans a b c _ _ ih1 ih2 =>
      rcases ih1 with h | ⟨h1, h2⟩ | ⟨h1, h2⟩ <;> rcases ih2 with g | ⟨g1, g2⟩ | ⟨g1, g2⟩
      · exact Or.inl (tr h g)
      · exact Or.inr (Or.inl ⟨tr h g1, g2⟩)
      · exact Or.inr (Or.inr ⟨tr h g1, g2⟩)
      · exact Or.inr (Or.inl ⟨h1, tr h2 g⟩)
      · exact Or.inr (Or.inl ⟨h1, g2⟩)
      · exact Or.inl (tr h1 g2)
      · exact Or.inr (Or.inr ⟨h1, tr h2 g⟩)
      · exact Or.inl (tr h1 g2)
      · exact Or.inr (Or.inr ⟨h1, g2⟩)
  · have mono : ∀ {a b}, Joined P a b → Joined ((x, y) :: P) a b := by
      intro a b h
      unfold Joined at h
      induction h with
      | rel a b h => exact .rel _ _ (List.mem_cons_of_mem _ h)
      | refl a => exact .refl a
      | symm a b _ ih => exact .symm _ _ ih
      | trans a b c _ _ i1 i2 => exact .trans _ _ _ i1 i2
    have hxy : Joined ((x, y) :: P) x y := .rel _ _ (by simp)
    rintro (h | ⟨h1, h2⟩ | ⟨h1, h2⟩)
    · exact mono h
    · exact .trans _ _ _ (mono h1) (.trans _ _ _ hxy (mono h2))
    · exact .trans _ _ _ (mono h1) (.trans _ _ _ (.symm _ _ hxy) (mono h2))

theorem joined_perm {P Q : List (Nat × Nat)} (h : ∀ p, p ∈ P ↔ p ∈ Q) (u v : Nat) : Joined P u v ↔ Joined Q u v := by
  unfold Joined; simp only [h]

/-- the roots are equal exactly for the nodes joined by `P` -/
def Part (S : Finset Nat) (ρ : Nat → Nat) (P : List (Nat × Nat)) : Prop :=
  ∀ u ∈ S, ∀ v ∈ S, (ρ u = ρ v ↔ Joined P u v)

theorem link_part {S : Finset Nat} {ρ : Nat → Nat} {P : List (Nat × Nat)} (h : Part S ρ P) {x y : Nat}
    (hx : x ∈ S) (hy : y ∈ S) (hne : ρ x ≠ ρ y) :
    Part S (link ρ (ρ x) (ρ y)) ((x, y) :: P) ∧ Part S (link ρ (ρ y) (ρ x)) ((x, y) :: P) := by
  constructor <;>
  · intro u hu v hv
    rw [joined_cons, ← h u hu v hv, ← h u hu x hx, ← h y hy v hv, ← h u hu y hy, ← h x hx v hv]
    unfold link
    by_cases h1 : ρ u = ρ y <;> by_cases h2 : ρ v = ρ y <;> by_cases h3 : ρ u = ρ x <;> by_cases h4 : ρ v = ρ x <;>
      simp_all [eq_comm]

theorem run_ok {k : Nat} {f : Forest} {S : Finset Nat} {ρ : Nat → Nat} {P : List (Nat × Nat)}
    (hk : Nat.log 2 S.card + 1 ≤ k) (h : Rep f S ρ) (hp : Part S ρ P) (ops : List MfOp)
    (hop : ∀ op ∈ ops, op.over (· ∈ S)) :
    ∃ f' ρ', run k f ops = .ok f' ∧ Rep f' S ρ' ∧ Part S ρ' ((mergedPairs ops).reverse ++ P) ∧
      ∀ z, z ∉ S → f' z = f z := by
  induction ops generalizing f ρ P with
  | nil => exact ⟨f, ρ, rfl, h, by simpa [mergedPairs] using hp, fun _ _ => rfl⟩
  | cons op ops ih =>
    have hop' : ∀ op ∈ ops, op.over (· ∈ S) := fun o ho => hop o (List.mem_cons_of_mem _ ho)
    cases op with
    | find x =>
      obtain ⟨f1, e1, h1, _, o1⟩ := find_ok h (hop (.find x) (by simp)) hk
      obtain ⟨f2, ρ2, e2, h2, p2, o2⟩ := ih h1 hp hop'
      exact ⟨f2, ρ2, by simp [run, e1, e2], h2, p2, fun z hz => by rw [o2 z hz, o1 z hz]⟩
    | merge x y =>
      obtain ⟨hx, hy⟩ := hop (.merge x y) (by simp)
      obtain ⟨f1, ρ1, e1, h1, o1, hc⟩ := merge_ok h hx hy hk
      have p1 : Part S ρ1 ((x, y) :: P) := by
        rcases hc with ⟨rfl, he⟩ | ⟨hne, rfl | rfl⟩
        · intro u hu v hv
          rw [hp u hu v hv, joined_cons]
          have hxy := (hp x hx y hy).1 he
          constructor
          · exact Or.inl
          · rintro (h | ⟨h1, h2⟩ | ⟨h1, h2⟩)
            · exact h
            · exact .trans _ _ _ h1 (.trans _ _ _ hxy h2)
            · exact .trans _ _ _ h1 (.trans _ _ _ (.symm _ _ hxy) h2)
        · exact (link_part hp hx hy hne).1
        · exact (link_part hp hx hy hne).2
      obtain ⟨f2, ρ2, e2, h2, p2, o2⟩ := ih h1 p1 hop'
      exact ⟨f2, ρ2, by simp [run, e1, e2], h2, by simpa [mergedPairs] using p2,
        fun z hz => by rw [o2 z hz, o1 z hz]⟩

theorem part_id (S : Finset Nat) : Part S id [] := by
  intro u hu v hv
  clear hu hv
  constructor
  · intro h; cases h; exact .refl _
  · intro h; unfold Joined at h; induction h with
    | rel a b h => simp at h
    | refl a => rfl
    | symm a b _ ih => exact ih.symm
    | trans a b c _ _ i1 i2 => exact i1.trans i2

theorem log_card_range {n k : Nat} (h : Nat.log 2 n + 1 ≤ k) : Nat.log 2 (Finset.range n).card + 1 ≤ k := by
  simpa using h

/-- **C06, C07.** After any history of `find`/`merge` calls on nodes `< n` of a forest made by
`create_forest`, run with recursion depth at most `log2 n + 1` per `find` (no call faults or runs deeper):
`find x` and `find y` return the same set exactly when `x` and `y` are joined by the merged pairs
(the equivalence closure), `find` is idempotent on its results, and a `find x` changes the result of no
later `find y`. -/
theorem C06_C07_find_is_equivalence_closure (n : Nat) (ops : List MfOp) (h : ∀ op ∈ ops, op.over (· < n))
    (k : Nat) (hk : Nat.log 2 n + 1 ≤ k) :
    ∃ f, run k (createForest n) ops = .ok f ∧
      ∀ x y, x < n → y < n → ∃ rx fx ry fy fy',
        find k f x = .ok (rx, fx) ∧ find k f y = .ok (ry, fy) ∧
        (rx = ry ↔ Joined (mergedPairs ops) x y) ∧
        find k fx y = .ok (ry, fy') ∧ rx < n ∧ Joined (mergedPairs ops) x rx ∧ (find k f rx).map (·.1) = .ok rx := by
  obtain ⟨f, ρ, e, hr, hp, _⟩ := run_ok (log_card_range hk) (rep_create n) (part_id _) ops (by
    intro op ho; have := h op ho; cases op <;> simpa [MfOp.over] using this)
  have hp' : Part (Finset.range n) ρ (mergedPairs ops) := by
    intro u hu v hv; rw [hp u hu v hv]; exact joined_perm (by simp) u v
  refine ⟨f, e, ?_⟩
  intro x y hx hy
  have hx' : x ∈ Finset.range n := by simpa using hx
  have hy' : y ∈ Finset.range n := by simpa using hy
  obtain ⟨fx, e1, h1, _, _⟩ := find_ok hr hx' (log_card_range hk)
  obtain ⟨fy, e2, h2, _, _⟩ := find_ok hr hy' (log_card_range hk)
  obtain ⟨fy', e3, h3, _, _⟩ := find_ok h1 hy' (log_card_range hk)
  have hrm := hr.root_mem hx'
  obtain ⟨fz, e4, _⟩ := find_ok hr hrm (log_card_range hk)
  refine ⟨ρ x, fx, ρ y, fy, fy', e1, e2, hp' x hx' y hy', e3, by simpa using hrm, ?_, ?_⟩
  · rw [← hp' x hx' _ hrm, hr.root_root hx']
  · rw [e4]; simp [Except.map, hr.root_root hx']

/-- **C07 (one merge).** `merge` on a reachable forest makes exactly the pairs of the two classes equivalent:
stated as the special case of the previous theorem where the last call is a merge. -/
theorem C07_merge_joins (n : Nat) (ops : List MfOp) (a b : Nat) (h : ∀ op ∈ ops ++ [.merge a b], op.over (· < n)) :
    ∃ f, run (Nat.log 2 n + 1) (createForest n) (ops ++ [.merge a b]) = .ok f ∧
      ∀ x y, x < n → y < n → ∃ rx fx ry fy,
        find (Nat.log 2 n + 1) f x = .ok (rx, fx) ∧ find (Nat.log 2 n + 1) f y = .ok (ry, fy) ∧
        (rx = ry ↔ Joined (mergedPairs ops) x y ∨
          (Joined (mergedPairs ops) x a ∧ Joined (mergedPairs ops) b y) ∨
          (Joined (mergedPairs ops) x b ∧ Joined (mergedPairs ops) a y)) := by
  obtain ⟨f, e, hf⟩ := C06_C07_find_is_equivalence_closure n _ h _ (le_refl _)
  refine ⟨f, e, ?_⟩
  intro x y hx hy
  obtain ⟨rx, fx, ry, fy, _, e1, e2, e3, _⟩ := hf x y hx hy
  refine ⟨rx, fx, ry, fy, e1, e2, ?_⟩
  rw [e3, ← joined_cons]
  apply joined_perm
  have : ∀ l : List MfOp, mergedPairs (l ++ [.merge a b]) = mergedPairs l ++ [(a, b)] := by
    intro l; induction l with
    | nil => rfl
    | cons o l ih => cases o <;> simp [mergedPairs, ih]
  intro p; rw [this]; simp [or_comm]

theorem climb_le {f : Forest} {S : Finset Nat} {ρ : Nat → Nat} (h : Rep f S ρ) :
    ∀ d x z, x ∈ S → climb f d x = some z → z ∈ S ∧ rk f x + d ≤ rk f z := by
  intro d
  induction d with
  | zero => intro x z hx hz; simp [climb] at hz; subst hz; exact ⟨hx, by omega⟩
  | succ d ih =>
    intro x z hx hz
    obtain ⟨r, hr, _⟩ := h.dom x hx
    simp only [climb, hr] at hz
    cases hp : r.parent with
    | none => simp [hp] at hz
    | some p =>
      simp only [hp] at hz
      obtain ⟨hpS, _, hlt, _⟩ := h.par x r p hx hr hp
      obtain ⟨h1, h2⟩ := ih p z hpS hz
      exact ⟨h1, by omega⟩

/-- **C08.** In every forest reachable from `create_forest n` by `find`/`merge` calls (and no call needs a recursion
deeper than `log2 n + 1`): a chain of parent pointers from any node has at most `log2 n` links, and every rank is at most
`log2 n`; hence for `n` up to 65535 nodes the 16-bit rank is far from wrapping (at most 15). -/
theorem C08_union_by_rank_depth (n : Nat) (ops : List MfOp) (h : ∀ op ∈ ops, op.over (· < n)) :
    ∃ f, run (Nat.log 2 n + 1) (createForest n) ops = .ok f ∧
      (∀ x d z, x < n → climb f d x = some z → d ≤ Nat.log 2 n) ∧
      (∀ x, x < n → ∃ r, f x = some r ∧ r.rango ≤ Nat.log 2 n) ∧
      (n ≤ 65535 → ∀ x r, x < n → f x = some r → r.rango ≤ 15) := by
  obtain ⟨f, ρ, e, hr, _, _⟩ := run_ok (log_card_range (le_refl _)) (rep_create n) (part_id _) ops (by
    intro op ho; have := h op ho; cases op <;> simpa [MfOp.over] using this)
  have hlog : ∀ x ∈ Finset.range n, rk f x ≤ Nat.log 2 n := by
    intro x hx; have := hr.rk_le_log hx; simpa using this
  refine ⟨f, e, ?_, ?_, ?_⟩
  · intro x d z hx hz
    obtain ⟨h1, h2⟩ := climb_le hr d x z (by simpa using hx) hz
    have := hlog z h1
    omega
  · intro x hx
    obtain ⟨r, h1, _⟩ := hr.dom x (by simpa using hx)
    have := hlog x (by simpa using hx)
    exact ⟨r, h1, by simpa [rk, h1] using this⟩
  · intro hn x r hx hf
    have := hlog x (by simpa using hx)
    have h2 : Nat.log 2 n ≤ Nat.log 2 65535 := Nat.log_mono_right hn
    have h3 : Nat.log 2 65535 = 15 := by
      rw [Nat.log_eq_iff] <;> decide
    simp only [rk, hf] at this
    omega

/-- **C09.** `create_forest_constrained` makes every node except the candidate a singleton set: initially each other
node is its own representative. After any history on the other nodes nothing faults, the candidate's
(uninitialised) entry is never touched, the sets are those generated by the merged pairs, and no representative is the
candidate. -/
theorem C09_constrained_forest (n c : Nat) (ops : List MfOp) (h : ∀ op ∈ ops, op.over (fun x => x < n ∧ x ≠ c)) :
    (∀ x, x < n → x ≠ c → (find 1 (createForestConstrained n c) x).map (·.1) = .ok x) ∧
    ∃ f, run (Nat.log 2 n + 1) (createForestConstrained n c) ops = .ok f ∧
      f c = none ∧
      ∀ x y, x < n → x ≠ c → y < n → y ≠ c → ∃ rx fx ry fy,
        find (Nat.log 2 n + 1) f x = .ok (rx, fx) ∧ find (Nat.log 2 n + 1) f y = .ok (ry, fy) ∧
        (rx = ry ↔ Joined (mergedPairs ops) x y) ∧ rx ≠ c := by
  have hk : Nat.log 2 ((Finset.range n).erase c).card + 1 ≤ Nat.log 2 n + 1 := by
    have : ((Finset.range n).erase c).card ≤ n := by
      refine le_trans (Finset.card_le_card (Finset.erase_subset _ _)) (by simp)
    have := Nat.log_mono_right (b := 2) this
    omega
  obtain ⟨f, ρ, e, hr, hp, ho⟩ := run_ok hk (rep_create_constrained n c) (part_id _) ops (by
    intro op ho; have := h op ho; cases op <;> simp [MfOp.over] at this ⊢ <;> tauto)
  refine ⟨?_, f, e, ?_, ?_⟩
  · intro x hx hc; simp [find, createForestConstrained, hx, hc, Except.map]
  · rw [ho c (by simp)]; simp [createForestConstrained]
  · intro x y hx hxc hy hyc
    have hx' : x ∈ (Finset.range n).erase c := by simp [hx, hxc]
    have hy' : y ∈ (Finset.range n).erase c := by simp [hy, hyc]
    obtain ⟨fx, e1, _⟩ := find_ok hr hx' hk
    obtain ⟨fy, e2, _⟩ := find_ok hr hy' hk
    refine ⟨ρ x, fx, ρ y, fy, e1, e2, ?_, ?_⟩
    · rw [hp x hx' y hy']; exact joined_perm (by simp) x y
    · have := hr.root_mem hx'
      intro hc; rw [hc] at this; simp at this

example : ∀ op ∈ [MfOp.merge 0 1, .merge 2 3, .find 1, .merge 1 3], op.over (· < 5) := by
  simp [MfOp.over]
example : (do let f ← run 3 (createForest 5) [MfOp.merge 0 1, .merge 2 3, .merge 1 3]; (find 3 f 3).map Prod.fst) = .ok 0 := by
  decide
example : ∀ op ∈ [MfOp.merge 0 1, .merge 3 4], op.over (fun x => x < 5 ∧ x ≠ 2) := by
  simp [MfOp.over]

end Verif.Mf
