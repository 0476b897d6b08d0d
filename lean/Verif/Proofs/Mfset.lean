import Verif.Model.Mfset
import Mathlib.Data.Nat.Log
import Mathlib.Data.Finset.Card
import Mathlib.Data.Finset.Lattice.Fold
import Mathlib.Logic.Relation

namespace Verif.Mf
open Verif
set_option autoImplicit false

/-- rank of an entry (0 if absent) -/
def rk (f : Forest) (x : Nat) : Nat := match f x with | some r => r.rango | none => 0

/-- The forest on the initialised nodes `S` has root function `ρ`. -/
structure Rep (f : Forest) (S : Finset Nat) (ρ : Nat → Nat) : Prop where
  dom : ∀ x ∈ S, ∃ r, f x = some r ∧ r.num = x
  root : ∀ x r, x ∈ S → f x = some r → r.parent = none → ρ x = x
  par : ∀ x r p, x ∈ S → f x = some r → r.parent = some p →
    p ∈ S ∧ ρ p = ρ x ∧ rk f x < rk f p ∧ ρ x ≠ x
  size : ∀ x ∈ S, ρ x = x → 2 ^ rk f x ≤ (S.filter (fun y => ρ y = x)).card

variable {f : Forest} {S : Finset Nat} {ρ : Nat → Nat}

theorem Rep.parent_of_root (h : Rep f S ρ) {x : Nat} {r : SetRec} (hx : x ∈ S) (hr : f x = some r)
    (hρ : ρ x = x) : r.parent = none := by
  cases hp : r.parent with
  | none => rfl
  | some p => exact absurd hρ (h.par x r p hx hr hp).2.2.2

theorem Rep.rk_le_root (h : Rep f S ρ) : ∀ d x, x ∈ S → S.sup (rk f) - rk f x ≤ d →
    ρ x ∈ S ∧ ρ (ρ x) = ρ x ∧ (ρ x = x ∨ rk f x < rk f (ρ x)) := by
  intro d
  induction d with
  | zero =>
    intro x hx hd
    obtain ⟨r, hr, _⟩ := h.dom x hx
    cases hp : r.parent with
    | none => have := h.root x r hx hr hp; rw [this, this]; simp [hx]
    | some p =>
      obtain ⟨hpS, _, hlt, _⟩ := h.par x r p hx hr hp
      have := Finset.le_sup (f := rk f) hpS
      omega
  | succ d ih =>
    intro x hx hd
    obtain ⟨r, hr, _⟩ := h.dom x hx
    cases hp : r.parent with
    | none => have := h.root x r hx hr hp; rw [this, this]; simp [hx]
    | some p =>
      obtain ⟨hpS, hpρ, hlt, _⟩ := h.par x r p hx hr hp
      have hle := Finset.le_sup (f := rk f) hpS
      obtain ⟨h1, h2, h3⟩ := ih p hpS (by omega)
      rw [hpρ] at h1 h2 h3
      refine ⟨h1, h2, Or.inr ?_⟩
      rcases h3 with h3 | h3
      · rw [h3]; exact hlt
      · omega

theorem Rep.root_mem (h : Rep f S ρ) {x : Nat} (hx : x ∈ S) : ρ x ∈ S :=
  (h.rk_le_root _ x hx (le_refl _)).1
theorem Rep.root_root (h : Rep f S ρ) {x : Nat} (hx : x ∈ S) : ρ (ρ x) = ρ x :=
  (h.rk_le_root _ x hx (le_refl _)).2.1
theorem Rep.rk_lt (h : Rep f S ρ) {x : Nat} (hx : x ∈ S) : ρ x = x ∨ rk f x < rk f (ρ x) :=
  (h.rk_le_root _ x hx (le_refl _)).2.2

theorem Rep.rk_le_log (h : Rep f S ρ) {x : Nat} (hx : x ∈ S) : rk f x ≤ Nat.log 2 S.card := by
  have h1 := h.size (ρ x) (h.root_mem hx) (h.root_root hx)
  have h2 : (S.filter (fun y => ρ y = ρ x)).card ≤ S.card := Finset.card_filter_le _ _
  have h3 : rk f (ρ x) ≤ Nat.log 2 S.card := by
    apply Nat.le_log_of_pow_le (by omega); omega
  rcases h.rk_lt hx with h4 | h4
  · rw [← h4]; exact h3
  · omega

theorem log_lt_card {n : Nat} (h : 0 < n) : Nat.log 2 n < n := Nat.log_lt_self 2 (by omega)

/-- writing an entry that keeps its rank leaves all ranks -/
theorem rk_upd_same {f : Forest} {x : Nat} {r r' : SetRec} (hr : f x = some r) (hk : r'.rango = r.rango) (y : Nat) :
    rk (upd f x (some r')) y = rk f y := by
  unfold rk; simp only [upd_apply]
  by_cases h : y = x
  · subst h; simp [hr, hk]
  · simp only [h, ↓reduceIte]

/-- path compression step -/
theorem Rep.compress (h : Rep f S ρ) {x : Nat} {r : SetRec} (hx : x ∈ S) (hr : f x = some r) (hne : ρ x ≠ x) :
    Rep (upd f x (some { r with parent := some (ρ x) })) S ρ := by
  have hk := rk_upd_same (f := f) (x := x) (r := r) (r' := { r with parent := some (ρ x) }) hr rfl
  constructor
  · intro y hy
    by_cases hyx : y = x
    · subst hyx
      obtain ⟨r0, hr0, hn⟩ := h.dom y hy
      rw [hr] at hr0; cases hr0
      exact ⟨_, upd_self _ _ _, hn⟩
    · rw [upd_ne _ _ hyx]; exact h.dom y hy
  · intro y r' hy hr' hp
    by_cases hyx : y = x
    · subst hyx; rw [upd_self] at hr'; cases hr'; simp at hp
    · rw [upd_ne _ _ hyx] at hr'; exact h.root y r' hy hr' hp
  · intro y r' p hy hr' hp
    rw [hk, hk]
    by_cases hyx : y = x
    · subst hyx; rw [upd_self] at hr'; cases hr'; simp at hp; subst hp
      refine ⟨h.root_mem hx, h.root_root hx, ?_, hne⟩
      rcases h.rk_lt hx with h4 | h4
      · exact absurd h4 hne
      · exact h4
    · rw [upd_ne _ _ hyx] at hr'; exact h.par y r' p hy hr' hp
  · intro y hy hρ; rw [hk]; exact h.size y hy hρ

/-- `find` returns the root and changes neither the roots nor the ranks -/
theorem find_rep (h : Rep f S ρ) : ∀ d x, x ∈ S → rk f (ρ x) - rk f x ≤ d →
    ∃ f', find (d + 1) f x = .ok (ρ x, f') ∧ Rep f' S ρ ∧ (∀ y, rk f' y = rk f y) ∧
      (∀ y, y ∉ S → f' y = f y) := by
  intro d
  induction d with
  | zero =>
    intro x hx hd
    obtain ⟨r, hr, _⟩ := h.dom x hx
    rcases h.rk_lt hx with h4 | h4
    · refine ⟨f, ?_, h, fun _ => rfl, fun _ _ => rfl⟩
      simp [find, hr, h.parent_of_root hx hr h4, h4]
    · omega
  | succ d ih =>
    intro x hx hd
    obtain ⟨r, hr, _⟩ := h.dom x hx
    cases hp : r.parent with
    | none =>
      refine ⟨f, ?_, h, fun _ => rfl, fun _ _ => rfl⟩
      have := h.root x r hx hr hp
      rw [find]; simp [hr, hp, this]
    | some p =>
      obtain ⟨hpS, hpρ, hlt, hne⟩ := h.par x r p hx hr hp
      obtain ⟨f', e, h', hk, ho⟩ := ih p hpS (by rw [hpρ]; omega)
      obtain ⟨r', hr', _⟩ := h'.dom x hx
      refine ⟨_, ?_, h'.compress hx hr' hne, ?_, ?_⟩
      · rw [find]; simp [hr, hp, e, hr', hpρ]
      · intro y; rw [rk_upd_same (r := r') hr' (by rfl), hk]
      · intro y hy
        have : y ≠ x := by rintro rfl; exact hy hx
        rw [upd_ne _ _ this]; exact ho y hy

theorem find_mono : ∀ k f x v, find k f x = .ok v → find (k + 1) f x = .ok v := by
  intro k
  induction k with
  | zero => intro f x v h; simp [find] at h
  | succ k ih =>
    intro f x v h
    rw [find] at h ⊢
    cases hx : f x with
    | none => simp [hx] at h
    | some r =>
      simp only [hx, deref_some, ok_bind] at h ⊢
      cases hp : r.parent with
      | none => simpa [hp] using h
      | some p =>
        simp only [hp] at h ⊢
        obtain ⟨⟨a, b⟩, e1, e2⟩ := bind_eq_ok.1 h
        rw [ih _ _ _ e1]; exact e2

theorem find_mono_le {k k' : Nat} (hk : k ≤ k') {f : Forest} {x : Nat} {v : Nat × Forest}
    (h : find k f x = .ok v) : find k' f x = .ok v := by
  induction hk with
  | refl => exact h
  | step _ ih => exact find_mono _ _ _ _ ih

/-- `find` with the fuel `|S|` (in fact `log2 |S| + 1` is enough) -/
theorem find_ok (h : Rep f S ρ) {x : Nat} (hx : x ∈ S) {k : Nat} (hk : Nat.log 2 S.card + 1 ≤ k) :
    ∃ f', find k f x = .ok (ρ x, f') ∧ Rep f' S ρ ∧ (∀ y, rk f' y = rk f y) ∧
      (∀ y, y ∉ S → f' y = f y) := by
  have := h.rk_le_log (h.root_mem hx)
  obtain ⟨f', e, r⟩ := find_rep h (Nat.log 2 S.card) x hx (by omega)
  exact ⟨f', find_mono_le hk e, r⟩

/-- the root function after linking root `b` under root `a` -/
def link (ρ : Nat → Nat) (a b : Nat) : Nat → Nat := fun z => if ρ z = b then a else ρ z

theorem Rep.link_rep (h : Rep f S ρ) {a b : Nat} {ra rb : SetRec} (ha : a ∈ S) (hb : b ∈ S)
    (hra : ρ a = a) (hrb : ρ b = b) (hab : a ≠ b) (fa : f a = some ra) (fb : f b = some rb) (na : Nat)
    (hna : ra.rango ≤ na) (hlt : rb.rango < na) (hsz : 2 ^ na ≤ 2 ^ ra.rango + 2 ^ rb.rango) :
    Rep (upd (upd f b (some { rb with parent := some a })) a (some { ra with rango := na })) S (link ρ a b) := by
  have hka : rk f a = ra.rango := by simp [rk, fa]
  have hkb : rk f b = rb.rango := by simp [rk, fb]
  generalize hg : upd (upd f b (some { rb with parent := some a })) a (some { ra with rango := na }) = g
  have ga : g a = some { ra with rango := na } := by simp [← hg]
  have gb : g b = some { rb with parent := some a } := by rw [← hg, upd_ne _ _ hab.symm]; simp
  have go : ∀ y, y ≠ a → y ≠ b → g y = f y := by intro y h1 h2; rw [← hg, upd_ne _ _ h1, upd_ne _ _ h2]
  have kga : rk g a = na := by simp [rk, ga]
  have kgo : ∀ y, y ≠ a → rk g y = rk f y := by
    intro y hy
    by_cases hyb : y = b
    · subst hyb; simp [rk, gb, fb]
    · simp [rk, go y hy hyb]
  have kge : ∀ y, rk f y ≤ rk g y := by
    intro y; by_cases hy : y = a
    · subst hy; rw [kga, hka]; exact hna
    · rw [kgo y hy]
  have pa := h.parent_of_root ha fa hra
  have pb := h.parent_of_root hb fb hrb
  have dom' : ∀ x ∈ S, ∃ r, g x = some r ∧ r.num = x := by
    intro x hx
    by_cases hxa : x = a
    · subst hxa
      obtain ⟨r, hr, hn⟩ := h.dom x hx
      rw [fa] at hr; cases hr; exact ⟨_, ga, hn⟩
    · by_cases hxb : x = b
      · subst hxb
        obtain ⟨r, hr, hn⟩ := h.dom x hx
        rw [fb] at hr; cases hr; exact ⟨_, gb, hn⟩
      · rw [go x hxa hxb]; exact h.dom x hx
  refine ⟨dom', ?_, ?_, ?_⟩
  · intro x r hx hr hp
    by_cases hxa : x = a
    · subst hxa; simp [link, hra]
    · by_cases hxb : x = b
      · subst hxb; rw [gb] at hr; cases hr; simp at hp
      · rw [go x hxa hxb] at hr
        have := h.root x r hx hr hp
        simp [link, this, hxb]
  · intro x r p hx hr hp
    by_cases hxa : x = a
    · subst hxa; rw [ga] at hr; cases hr; simp [pa] at hp
    · by_cases hxb : x = b
      · subst hxb; rw [gb] at hr; cases hr; simp at hp; subst hp
        refine ⟨ha, by simp [link, hra, hrb], ?_, by simpa [link, hrb] using hab⟩
        rw [kga, kgo _ hxa, hkb]; exact hlt
      · rw [go x hxa hxb] at hr
        obtain ⟨h1, h2, h3, h4⟩ := h.par x r p hx hr hp
        refine ⟨h1, by simp [link, h2], ?_, ?_⟩
        · rw [kgo x hxa]; exact lt_of_lt_of_le h3 (kge p)
        · simp only [link]; split
          · exact fun e => hxa e.symm
          · exact h4
  · intro x hx hρ
    have hxb : x ≠ b := by
      rintro rfl; simp [link, hrb] at hρ; exact hab hρ
    by_cases hxa : x = a
    · subst hxa
      rw [kga]
      have e : S.filter (fun y => link ρ x b y = x) = S.filter (fun y => ρ y = x) ∪ S.filter (fun y => ρ y = b) := by
        ext y
        rw [Finset.mem_union, Finset.mem_filter, Finset.mem_filter, Finset.mem_filter]
        by_cases hy : ρ y = b
        · simp only [link, hy, ↓reduceIte]; tauto
        · simp [link, hy]
      rw [e, Finset.card_union_of_disjoint]
      · have h1 := h.size x ha hra
        have h2 := h.size b hb hrb
        rw [hka] at h1; rw [hkb] at h2; omega
      · rw [Finset.disjoint_left]
        intro y h1 h2
        simp only [Finset.mem_filter] at h1 h2
        exact hab (h1.2.symm.trans h2.2)
    · rw [kgo x hxa]
      have hρ' : ρ x = x := by
        simp only [link] at hρ; split at hρ
        · exact absurd hρ.symm hxa
        · exact hρ
      refine le_trans (h.size x hx hρ') (Finset.card_le_card ?_)
      intro y
      intro hy
      rw [Finset.mem_filter] at hy ⊢
      refine ⟨hy.1, ?_⟩
      simp [link, hy.2, hxb]

/-- `merge` joins the two classes -/
theorem merge_ok (h : Rep f S ρ) {x y : Nat} (hx : x ∈ S) (hy : y ∈ S) {k : Nat} (hk : Nat.log 2 S.card + 1 ≤ k) :
    ∃ f' ρ', merge k f x y = .ok f' ∧ Rep f' S ρ' ∧ (∀ z, z ∉ S → f' z = f z) ∧
      (ρ' = ρ ∧ ρ x = ρ y ∨ (ρ x ≠ ρ y ∧ (ρ' = link ρ (ρ x) (ρ y) ∨ ρ' = link ρ (ρ y) (ρ x)))) := by
  obtain ⟨f1, e1, h1, k1, o1⟩ := find_ok h hx hk
  obtain ⟨f2, e2, h2, k2, o2⟩ := find_ok h1 hy hk
  have o : ∀ z, z ∉ S → f2 z = f z := fun z hz => by rw [o2 z hz, o1 z hz]
  have ha := h.root_mem hx
  have hb := h.root_mem hy
  have ra := h.root_root hx
  have rb := h.root_root hy
  obtain ⟨sa, fa, na⟩ := h2.dom _ ha
  obtain ⟨sb, fb, nb⟩ := h2.dom _ hb
  have pa := h2.parent_of_root ha fa ra
  have pb := h2.parent_of_root hb fb rb
  have hne_mem : ∀ {z w : Nat}, z ∉ S → w ∈ S → z ≠ w := by rintro z w h1 h2 rfl; exact h1 h2
  unfold merge
  simp only [e1, ok_bind, e2, fa, fb, deref_some]
  by_cases hab : ρ x = ρ y
  · refine ⟨f2, ρ, by simp [na, nb, hab], h2, o, Or.inl ⟨rfl, hab⟩⟩
  · have hnum : sa.num ≠ sb.num := by rw [na, nb]; exact hab
    simp only [hnum, ne_eq, not_false_eq_true, ↓reduceIte]
    by_cases hgt : sa.rango > sb.rango
    · refine ⟨_, link ρ (ρ x) (ρ y), by simp only [hgt, ↓reduceIte]; rfl, ?_, ?_, Or.inr ⟨hab, Or.inl rfl⟩⟩
      · have := h2.link_rep ha hb ra rb hab fa fb sa.rango (le_refl _) hgt (Nat.le_add_right _ _)
        have e : ({ sa with rango := sa.rango } : SetRec) = sa := rfl
        rw [e] at this
        have e2 : upd (upd f2 (ρ y) (some { sb with parent := some (ρ x) })) (ρ x) (some sa) =
            upd f2 (ρ y) (some { sb with parent := some (ρ x) }) := by
          funext z; simp only [upd_apply]; split
          · rename_i hz; subst hz; simp [hab, fa]
          · rfl
        rw [e2] at this; exact this
      · intro z hz; rw [upd_ne _ _ (hne_mem hz hb)]; exact o z hz
    · by_cases hlt : sa.rango < sb.rango
      · refine ⟨_, link ρ (ρ y) (ρ x), by simp only [hgt, hlt, ↓reduceIte]; rfl, ?_, ?_, Or.inr ⟨hab, Or.inr rfl⟩⟩
        · have := h2.link_rep hb ha rb ra (Ne.symm hab) fb fa sb.rango (le_refl _) hlt (Nat.le_add_right _ _)
          have e : ({ sb with rango := sb.rango } : SetRec) = sb := rfl
          rw [e] at this
          have e2 : upd (upd f2 (ρ x) (some { sa with parent := some (ρ y) })) (ρ y) (some sb) =
              upd f2 (ρ x) (some { sa with parent := some (ρ y) }) := by
            funext z; simp only [upd_apply]; split
            · rename_i hz; subst hz; simp [Ne.symm hab, fb]
            · rfl
          rw [e2] at this; exact this
        · intro z hz; rw [upd_ne _ _ (hne_mem hz ha)]; exact o z hz
      · have heq : sa.rango = sb.rango := by omega
        refine ⟨upd (upd f2 (ρ y) (some { sb with parent := some (ρ x) })) (ρ x)
            (some { sa with rango := sa.rango + 1 }), link ρ (ρ x) (ρ y), ?_, ?_, ?_, Or.inr ⟨hab, Or.inl rfl⟩⟩
        · simp only [hgt, hlt, ↓reduceIte, upd_ne _ _ hab, fa, deref_some, ok_bind]; rfl
        · exact h2.link_rep ha hb ra rb hab fa fb (sa.rango + 1) (by omega) (by omega)
            (by rw [heq, pow_succ]; omega)
        · intro z hz
          rw [upd_ne _ _ (hne_mem hz ha), upd_ne _ _ (hne_mem hz hb)]; exact o z hz

theorem rep_create (n : Nat) : Rep (createForest n) (Finset.range n) id := by
  constructor
  · intro x hx; simp at hx; exact ⟨_, by simp [createForest, hx]; rfl, rfl⟩
  · intro x r _ _ _; rfl
  · intro x r p hx hr hp
    simp at hx; simp [createForest, hx] at hr; subst hr; simp at hp
  · intro x hx _
    have : x < n := by simpa using hx
    simp [rk, createForest, this, Finset.filter_eq']

theorem rep_create_constrained (n c : Nat) : Rep (createForestConstrained n c) ((Finset.range n).erase c) id := by
  constructor
  · intro x hx; simp at hx; exact ⟨_, by simp [createForestConstrained, hx]; rfl, rfl⟩
  · intro x r _ _ _; rfl
  · intro x r p hx hr hp
    simp at hx; simp [createForestConstrained, hx] at hr; subst hr; simp at hp
  · intro x hx _
    have : x ≠ c ∧ x < n := by simpa using hx
    simp [rk, createForestConstrained, this.1, this.2, Finset.filter_eq']

end Verif.Mf
