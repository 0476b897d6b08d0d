import Verif.Spec.Tree
import Mathlib.Algebra.Order.BigOperators.Group.Finset
import Mathlib.Tactic.Linarith

/-!
# Facts about spanning trees: component counting, the exchange lemma
-/
namespace Verif.Spec
set_option autoImplicit false

variable {E F S T : EdgeSet} {V : Finset Nat}

theorem Conn.refl' (E : EdgeSet) (u : Nat) : Conn E u u := Relation.ReflTransGen.refl
theorem Conn.trans' {a b c : Nat} (h : Conn E a b) (h' : Conn E b c) : Conn E a c := Relation.ReflTransGen.trans h h'
theorem Conn.symm' {a b : Nat} (h : Conn E a b) : Conn E b a := by
  induction h with
  | refl => exact Conn.refl' E a
  | tail _ e ih => exact Conn.trans' (Relation.ReflTransGen.single (by rw [Sym2.eq_swap]; exact e)) ih
theorem Conn.edge {a b : Nat} (h : s(a, b) ∈ E) : Conn E a b := Relation.ReflTransGen.single h
theorem Conn.mono {a b : Nat} (h : E ⊆ F) (c : Conn E a b) : Conn F a b :=
  Relation.ReflTransGen.mono (p := fun a b => s(a, b) ∈ F) (fun _ _ e => h e) _ _ c

/-- if every edge of `E` is bridged by `F` then connections carry over -/
theorem Conn.lift {a b : Nat} (h : ∀ x y, s(x, y) ∈ E → Conn F x y) (c : Conn E a b) : Conn F a b := by
  induction c with
  | refl => exact Conn.refl' F a
  | tail _ e ih => exact Conn.trans' ih (h _ _ e)

/-- a set closed under edges of `E` is closed under connection -/
theorem Conn.closed {C : Nat → Prop} (h : ∀ x y, s(x, y) ∈ E → C x → C y) {a b : Nat} (c : Conn E a b) (ha : C a) : C b := by
  induction c with
  | refl => exact ha
  | tail _ e ih => exact h _ _ e ih

/-- connection after adding one edge -/
theorem conn_insert {a b u v : Nat} : Conn (insert s(u, v) E) a b ↔
    Conn E a b ∨ (Conn E a u ∧ Conn E v b) ∨ (Conn E a v ∧ Conn E u b) := by
  constructor
  · intro h
    induction h with
    | refl => exact Or.inl (Conn.refl' E a)
    | @tail x y _ e ih =>
      rcases Finset.mem_insert.1 e with e | e
      · rw [Sym2.eq_iff] at e
        rcases e with ⟨rfl, rfl⟩ | ⟨rfl, rfl⟩
        · rcases ih with h | ⟨h1, h2⟩ | ⟨h1, h2⟩
          · exact Or.inr (Or.inl ⟨h, Conn.refl' _ _⟩)
          · exact Or.inr (Or.inl ⟨h1, Conn.refl' _ _⟩)
          · exact Or.inl h1
        · rcases ih with h | ⟨h1, h2⟩ | ⟨h1, h2⟩
          · exact Or.inr (Or.inr ⟨h, Conn.refl' _ _⟩)
          · exact Or.inl h1
          · exact Or.inr (Or.inr ⟨h1, Conn.refl' _ _⟩)
      · have e' := Conn.edge e
        rcases ih with h | ⟨h1, h2⟩ | ⟨h1, h2⟩
        · exact Or.inl (h.trans' e')
        · exact Or.inr (Or.inl ⟨h1, h2.trans' e'⟩)
        · exact Or.inr (Or.inr ⟨h1, h2.trans' e'⟩)
  · have m : E ⊆ insert s(u, v) E := Finset.subset_insert _ _
    have e : Conn (insert s(u, v) E) u v := Conn.edge (Finset.mem_insert_self _ _)
    rintro (h | ⟨h1, h2⟩ | ⟨h1, h2⟩)
    · exact h.mono m
    · exact (h1.mono m).trans' (e.trans' (h2.mono m))
    · exact (h1.mono m).trans' (e.symm'.trans' (h2.mono m))

/-- adding an edge between unconnected nodes creates no cycle -/
theorem Acyclic.insert (h : Acyclic F) {u v : Nat} (hn : ¬ Conn F u v) : Acyclic (insert s(u, v) F) := by
  have hni : s(u, v) ∉ F := fun hm => hn (Conn.edge hm)
  intro a b hab hc
  by_cases heq : s(a, b) = s(u, v)
  · rw [heq, Finset.erase_insert hni] at hc
    rw [Sym2.eq_iff] at heq
    rcases heq with ⟨rfl, rfl⟩ | ⟨rfl, rfl⟩
    · exact hn hc
    · exact hn hc.symm'
  · have hab' : s(a, b) ∈ F := (Finset.mem_insert.1 hab).resolve_left heq
    rw [Finset.erase_insert_of_ne (fun h => heq h.symm)] at hc
    have hsub : F.erase s(a, b) ⊆ F := Finset.erase_subset _ _
    have hcab := Conn.edge hab'
    rcases conn_insert.1 hc with h1 | ⟨h1, h2⟩ | ⟨h1, h2⟩
    · exact h a b hab' h1
    · exact hn ((h1.mono hsub).symm'.trans' (hcab.trans' (h2.mono hsub).symm'))
    · exact hn (((h2.mono hsub).trans' hcab.symm').trans' (h1.mono hsub))

theorem Acyclic.subset (h : Acyclic T) (hs : F ⊆ T) : Acyclic F := by
  intro u v huv hc
  exact h u v (hs huv) (hc.mono (Finset.erase_subset_erase _ hs))

theorem acyclic_empty : Acyclic ∅ := by intro u v h; simp at h

/-- all edges have both ends in `V` -/
def Within (V : Finset Nat) (E : EdgeSet) : Prop := ∀ u v, s(u, v) ∈ E → u ∈ V ∧ v ∈ V

theorem Within.subset (h : Within V E) (hs : F ⊆ E) : Within V F := fun u v huv => h u v (hs huv)

/-- component counting: an acyclic edge set on `V` has a choice of component representatives, and
`number of components + number of edges = number of nodes`. -/
theorem Acyclic.count : ∀ (F : EdgeSet), Acyclic F → Within V F →
    ∃ ρ : Nat → Nat, (∀ u v, ρ u = ρ v ↔ Conn F u v) ∧ (V.image ρ).card + F.card = V.card := by
  intro F
  induction F using Finset.induction_on with
  | empty =>
    intro _ _
    refine ⟨id, ?_, by simp⟩
    intro u v
    constructor
    · intro h; rw [show u = v from h]; exact Conn.refl' _ _
    · intro h
      induction h with
      | refl => rfl
      | tail _ e _ => simp at e
  | insert e F he ih =>
    intro hac hw
    have hac' := hac.subset (Finset.subset_insert e F)
    obtain ⟨ρ, hρ, hc⟩ := ih hac' (hw.subset (Finset.subset_insert e F))
    induction e using Sym2.ind with
    | _ u v =>
      have hn : ¬ Conn F u v := by
        have := hac u v (Finset.mem_insert_self _ _)
        rwa [Finset.erase_insert he] at this
      obtain ⟨hu, hv⟩ := hw u v (Finset.mem_insert_self _ _)
      have hne : ρ u ≠ ρ v := fun h => hn ((hρ u v).1 h)
      refine ⟨fun x => if ρ x = ρ u then ρ v else ρ x, ?_, ?_⟩
      · intro a b
        rw [conn_insert, ← hρ, ← hρ, ← hρ, ← hρ, ← hρ]
        by_cases ha : ρ a = ρ u <;> by_cases hb : ρ b = ρ u <;> simp only [ha, hb, ↓reduceIte]
        · simp
        · constructor
          · intro h; exact Or.inr (Or.inl ⟨trivial, h⟩)
          · rintro (h | ⟨_, h⟩ | ⟨h, _⟩)
            · exact absurd h.symm hb
            · exact h
            · exact absurd h hne
        · constructor
          · intro h; exact Or.inr (Or.inr ⟨h, trivial⟩)
          · rintro (h | ⟨h, _⟩ | ⟨h, _⟩)
            · exact h.elim
            · exact h.elim
            · exact h
        · constructor
          · intro h; exact Or.inl h
          · rintro (h | ⟨h, _⟩ | ⟨_, h⟩)
            · exact h
            · exact h.elim
            · exact absurd h.symm hb
      · have himg : V.image (fun x => if ρ x = ρ u then ρ v else ρ x) = (V.image ρ).erase (ρ u) := by
          ext z
          simp only [Finset.mem_image, Finset.mem_erase]
          constructor
          · rintro ⟨x, hx, rfl⟩
            by_cases h : ρ x = ρ u
            · simp only [h, ↓reduceIte]; exact ⟨hne.symm, v, hv, rfl⟩
            · simp only [h, ↓reduceIte]; exact ⟨h, x, hx, rfl⟩
          · rintro ⟨hz, x, hx, rfl⟩
            exact ⟨x, hx, by simp [hz]⟩
        rw [himg, Finset.card_erase_of_mem (Finset.mem_image_of_mem _ hu), Finset.card_insert_of_notMem he]
        have : 0 < (V.image ρ).card := Finset.card_pos.2 ⟨_, Finset.mem_image_of_mem _ hu⟩
        omega

/-- an acyclic set with one edge less than nodes connects everything -/
theorem Acyclic.connected_of_card (h : Acyclic F) (hw : Within V F) (hc : F.card + 1 = V.card) : Connected V F := by
  obtain ⟨ρ, hρ, hcount⟩ := h.count F hw
  have h1 : (V.image ρ).card = 1 := by omega
  obtain ⟨r, hr⟩ := Finset.card_eq_one.1 h1
  intro u hu v hv
  have hu' : ρ u ∈ V.image ρ := Finset.mem_image_of_mem _ hu
  have hv' : ρ v ∈ V.image ρ := Finset.mem_image_of_mem _ hv
  rw [hr, Finset.mem_singleton] at hu' hv'
  exact (hρ u v).1 (hu'.trans hv'.symm)

/-- an acyclic connected set has one edge less than nodes -/
theorem Acyclic.card_of_connected (h : Acyclic F) (hw : Within V F) (hne : V.Nonempty) (hc : Connected V F) : F.card + 1 = V.card := by
  obtain ⟨ρ, hρ, hcount⟩ := h.count F hw
  obtain ⟨r, hr⟩ := hne
  have : V.image ρ = {ρ r} := by
    ext z
    simp only [Finset.mem_image, Finset.mem_singleton]
    constructor
    · rintro ⟨x, hx, rfl⟩; exact (hρ _ _).2 (hc x hx r hr)
    · rintro rfl; exact ⟨r, hr, rfl⟩
  rw [this, Finset.card_singleton] at hcount
  omega

theorem Acyclic.card_lt (h : Acyclic F) (hw : Within V F) (hne : V.Nonempty) : F.card + 1 ≤ V.card := by
  obtain ⟨ρ, hρ, hcount⟩ := h.count F hw
  have : 0 < (V.image ρ).card := Finset.card_pos.2 (hne.image ρ)
  omega

/-- a connected set on `V` has at least `|V| - 1` edges, and with exactly that many it is acyclic -/
theorem exists_acyclic_sub (V : Finset Nat) : ∀ (S : EdgeSet), Within V S → ∃ F ⊆ S, Acyclic F ∧ ∀ u v, Conn S u v → Conn F u v := by
  intro S
  induction S using Finset.induction_on with
  | empty => intro _; exact ⟨∅, by simp, acyclic_empty, fun _ _ h => h⟩
  | insert e S he ih =>
    intro hw
    obtain ⟨F, hF, ha, hc⟩ := ih (hw.subset (Finset.subset_insert _ _))
    induction e using Sym2.ind with
    | _ x y =>
      by_cases hxy : Conn F x y
      · refine ⟨F, hF.trans (Finset.subset_insert _ _), ha, ?_⟩
        intro u v h
        refine Conn.lift ?_ h
        intro a b hab
        rcases Finset.mem_insert.1 hab with e | e
        · rw [Sym2.eq_iff] at e
          rcases e with ⟨rfl, rfl⟩ | ⟨rfl, rfl⟩
          · exact hxy
          · exact hxy.symm'
        · exact hc _ _ (Conn.edge e)
      · refine ⟨insert s(x, y) F, Finset.insert_subset_insert _ hF, ha.insert hxy, ?_⟩
        intro u v h
        refine Conn.lift ?_ h
        intro a b hab
        rcases Finset.mem_insert.1 hab with e | e
        · exact Conn.edge (by rw [e]; exact Finset.mem_insert_self _ _)
        · exact (hc _ _ (Conn.edge e)).mono (Finset.subset_insert _ _)

theorem Connected.acyclic_of_card (h : Connected V S) (hw : Within V S) (hne : V.Nonempty) (hc : S.card + 1 = V.card) : Acyclic S := by
  obtain ⟨F, hF, ha, hcF⟩ := exists_acyclic_sub V S hw
  have hconn : Connected V F := fun u hu v hv => hcF u v (h u hu v hv)
  have := ha.card_of_connected (hw.subset hF) hne hconn
  have : F = S := Finset.eq_of_subset_of_card_le hF (by omega)
  rwa [← this]

/-- A walk that leaves `C` uses an edge of `S` crossing out of `C` whose removal keeps its two sides attached to the ends of
the walk. -/
theorem crossing (C : Nat → Prop) : ∀ (k : Nat) (S : EdgeSet), S.card = k → ∀ u v, C u → ¬ C v → Conn S u v →
    ∃ x y, s(x, y) ∈ S ∧ C x ∧ ¬ C y ∧ Conn (S.erase s(x, y)) u x ∧ Conn (S.erase s(x, y)) y v := by
  intro k
  induction k using Nat.strong_induction_on with
  | _ k ih =>
    intro S hS u v hu hv huv
    -- the first edge leaving `C`
    obtain ⟨x, y, hxy, hx, hy, hux⟩ : ∃ x y, s(x, y) ∈ S ∧ C x ∧ ¬ C y ∧ Conn (S.erase s(x, y)) u x := by
      by_contra hno
      push Not at hno
      have : C v ∧ ∀ a b, C a → ¬ C b → Conn (S.erase s(a, b)) u v := by
        refine Conn.closed (C := fun z => C z ∧ ∀ a b, C a → ¬ C b → Conn (S.erase s(a, b)) u z) ?_ huv
          ⟨hu, fun a b _ _ => Conn.refl' _ _⟩
        rintro x y e ⟨hx, hx'⟩
        have hy : C y := by
          by_contra hy
          exact hno x y e hx hy (hx' x y hx hy)
        refine ⟨hy, fun a b ha hb => (hx' a b ha hb).trans' (Conn.edge (Finset.mem_erase.2 ⟨?_, e⟩))⟩
        intro h
        rw [Sym2.eq_iff] at h
        rcases h with ⟨rfl, rfl⟩ | ⟨rfl, rfl⟩
        · exact hb hy
        · exact hb hx
      exact hv this.1
    have again : Conn (S.erase s(x, y)) u v → ∃ x y, s(x, y) ∈ S ∧ C x ∧ ¬ C y ∧ Conn (S.erase s(x, y)) u x ∧ Conn (S.erase s(x, y)) y v := by
      intro h
      have hlt : (S.erase s(x, y)).card < k := by rw [Finset.card_erase_of_mem hxy]; have := Finset.card_pos.2 ⟨_, hxy⟩; omega
      obtain ⟨a, b, hab, ha, hb, h1, h2⟩ := ih _ hlt _ rfl u v hu hv h
      have hsub : (S.erase s(x, y)).erase s(a, b) ⊆ S.erase s(a, b) := Finset.erase_subset_erase _ (Finset.erase_subset _ _)
      exact ⟨a, b, Finset.mem_of_mem_erase hab, ha, hb, h1.mono hsub, h2.mono hsub⟩
    rcases (conn_insert (E := S.erase s(x, y)) (a := u) (b := v) (u := x) (v := y)).1
      (by rw [Finset.insert_erase hxy]; exact huv) with h | ⟨_, h2⟩ | ⟨_, h2⟩
    · exact again h
    · exact ⟨x, y, hxy, hx, hy, hux, h2⟩
    · exact again (hux.trans' h2)

/-- exchange: the connected set `S` can be changed to contain a lightest edge `uv` leaving `C`, dropping a no lighter edge -/
theorem exchange (w : Sym2 Nat → ℚ) (C : Nat → Prop) {u v : Nat} (huV : u ∈ V) (hvV : v ∈ V) (hu : C u) (hv : ¬ C v)
    (hS : Connected V S) (hF : F ⊆ S) (hcross : ∀ x y, s(x, y) ∈ F → C x → C y)
    (hmin : ∀ x y, s(x, y) ∈ S → C x → ¬ C y → w s(u, v) ≤ w s(x, y)) :
    ∃ S', S' ⊆ insert s(u, v) S ∧ insert s(u, v) F ⊆ S' ∧ Connected V S' ∧ S'.card = S.card ∧ total w S' ≤ total w S := by
  by_cases he : s(u, v) ∈ S
  · exact ⟨S, Finset.subset_insert _ _, Finset.insert_subset he hF, hS, rfl, le_refl _⟩
  obtain ⟨x, y, hxy, hx, hy, h1, h2⟩ := crossing C _ S rfl u v hu hv (hS u huV v hvV)
  have hne : s(u, v) ∉ S.erase s(x, y) := fun h => he (Finset.mem_of_mem_erase h)
  have hsub : S.erase s(x, y) ⊆ insert s(u, v) (S.erase s(x, y)) := Finset.subset_insert _ _
  have hxy' : Conn (insert s(u, v) (S.erase s(x, y))) x y :=
    (h1.mono hsub).symm'.trans' ((Conn.edge (Finset.mem_insert_self _ _)).trans' (h2.mono hsub).symm')
  refine ⟨insert s(u, v) (S.erase s(x, y)), Finset.insert_subset_insert _ (Finset.erase_subset _ _), ?_, ?_, ?_, ?_⟩
  · apply Finset.insert_subset_insert
    intro e hf
    refine Finset.mem_erase.2 ⟨?_, hF hf⟩
    rintro rfl
    exact hy (hcross x y hf hx)
  · intro a ha b hb
    refine Conn.lift ?_ (hS a ha b hb)
    intro p q hpq
    by_cases h : s(p, q) = s(x, y)
    · rw [Sym2.eq_iff] at h
      rcases h with ⟨rfl, rfl⟩ | ⟨rfl, rfl⟩
      · exact hxy'
      · exact hxy'.symm'
    · exact Conn.edge (hsub (Finset.mem_erase.2 ⟨h, hpq⟩))
  · rw [Finset.card_insert_of_notMem hne, Finset.card_erase_of_mem hxy]
    have := Finset.card_pos.2 ⟨_, hxy⟩; omega
  · unfold total
    rw [Finset.sum_insert hne]
    have := Finset.sum_erase_add S w hxy
    have := hmin x y hxy hx hy
    linarith

/-- connected spanning set with one edge less than nodes -/
structure Span (V : Finset Nat) (E S : EdgeSet) : Prop where
  sub : S ⊆ E
  conn : Connected V S
  card : S.card + 1 = V.card

theorem SpanningTree.span (h : SpanningTree V E T) (hw : Within V E) (hne : V.Nonempty) : Span V E T :=
  ⟨h.sub, h.conn, h.acyclic.card_of_connected (hw.subset h.sub) hne h.conn⟩

theorem Span.tree (h : Span V E T) (hw : Within V E) (hne : V.Nonempty) : SpanningTree V E T :=
  ⟨h.sub, h.conn, h.conn.acyclic_of_card (hw.subset h.sub) hne h.card⟩

/-- `F` can be completed to a spanning set no heavier than any given one -/
def Promising (w : Sym2 Nat → ℚ) (V : Finset Nat) (E F : EdgeSet) : Prop :=
  ∀ S, Span V E S → ∃ S', Span V E S' ∧ F ⊆ S' ∧ total w S' ≤ total w S

theorem promising_empty (w : Sym2 Nat → ℚ) (V : Finset Nat) (E : EdgeSet) : Promising w V E ∅ :=
  fun S h => ⟨S, h, by simp, le_refl _⟩

theorem Promising.insert {w : Sym2 Nat → ℚ} (h : Promising w V E F) (C : Nat → Prop) {u v : Nat} (huV : u ∈ V) (hvV : v ∈ V)
    (hu : C u) (hv : ¬ C v) (he : s(u, v) ∈ E) (hcross : ∀ x y, s(x, y) ∈ F → C x → C y)
    (hmin : ∀ x y, s(x, y) ∈ E → C x → ¬ C y → w s(u, v) ≤ w s(x, y)) : Promising w V E (insert s(u, v) F) := by
  intro S hS
  obtain ⟨S1, h1, hF, hw1⟩ := h S hS
  obtain ⟨S2, hsub, hF2, hc2, hcard, hw2⟩ := exchange w C huV hvV hu hv h1.conn hF hcross (fun x y e => hmin x y (h1.sub e))
  exact ⟨S2, ⟨hsub.trans (Finset.insert_subset he h1.sub), hc2, by rw [hcard]; exact h1.card⟩, hF2, hw2.trans hw1⟩

/-- a promising set of full size is minimum -/
theorem Promising.minimum {w : Sym2 Nat → ℚ} (h : Promising w V E F) (hc : F.card + 1 = V.card) {S : EdgeSet} (hS : Span V E S) :
    total w F ≤ total w S := by
  obtain ⟨S1, h1, hF, hw⟩ := h S hS
  have : F = S1 := Finset.eq_of_subset_of_card_le hF (by have := h1.card; omega)
  rwa [this]

end Verif.Spec
