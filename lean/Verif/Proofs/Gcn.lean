import Verif.Spec.GcnSpec
import Mathlib.Algebra.BigOperators.Field

/-!
# The network commutes with renumbering
-/
namespace Verif.Gcn
set_option autoImplicit false

noncomputable section

/-- other order of the instances, other numbers of the nodes of each -/
def moveN {B n h : Nat} (τ : Equiv.Perm (Fin B)) (σ : Fin B → Equiv.Perm (Fin n)) (x : NodeTensor B n h) : NodeTensor B n h := fun b i => x (τ b) (σ b i)
def moveE {B n h : Nat} (τ : Equiv.Perm (Fin B)) (σ : Fin B → Equiv.Perm (Fin n)) (e : EdgeTensor B n h) : EdgeTensor B n h := fun b i j => e (τ b) (σ b i) (σ b j)
def moveI {B n d v : Nat} (τ : Equiv.Perm (Fin B)) (σ : Fin B → Equiv.Perm (Fin n)) (x : Input B n d v) : Input B n d v where
  edges b i j := x.edges (τ b) (σ b i) (σ b j)
  values b i j := x.values (τ b) (σ b i) (σ b j)
  coord b i := x.coord (τ b) (σ b i)

section
variable {B n h : Nat} (τ : Equiv.Perm (Fin B)) (σ : Fin B → Equiv.Perm (Fin n))

theorem sum_moveN (f : Fin B → Fin n → ℝ) : ∑ b, ∑ i, f (τ b) (σ b i) = ∑ b, ∑ i, f b i := by
  have h1 : ∀ b, ∑ i, f (τ b) (σ b i) = ∑ i, f (τ b) i := fun b => Equiv.sum_comp (σ b) (fun i => f (τ b) i)
  rw [Finset.sum_congr rfl fun b _ => h1 b]
  exact Equiv.sum_comp τ fun b => ∑ i, f b i

theorem sum_moveE (f : Fin B → Fin n → Fin n → ℝ) : ∑ b, ∑ i, ∑ j, f (τ b) (σ b i) (σ b j) = ∑ b, ∑ i, ∑ j, f b i j := by
  have h1 : ∀ b i, ∑ j, f (τ b) (σ b i) (σ b j) = ∑ j, f (τ b) (σ b i) j := fun b i => Equiv.sum_comp (σ b) (fun j => f (τ b) (σ b i) j)
  simp only [h1]
  exact sum_moveN τ σ fun b i => ∑ j, f b i j

theorem BatchNorm.node_move (bn : BatchNorm h) (x : NodeTensor B n h) : bn.node (moveN τ σ x) = moveN τ σ (bn.node x) := by
  funext b i c
  have h1 : ∑ b', ∑ i', moveN τ σ x b' i' c = ∑ b', ∑ i', x b' i' c := sum_moveN τ σ fun b i => x b i c
  have h2 : ∀ m : ℝ, ∑ b', ∑ i', (moveN τ σ x b' i' c - m) ^ 2 = ∑ b', ∑ i', (x b' i' c - m) ^ 2 := fun m => sum_moveN τ σ fun b i => (x b i c - m) ^ 2
  simp only [BatchNorm.node, h1, h2]
  rfl

theorem BatchNorm.edge_move (bn : BatchNorm h) (e : EdgeTensor B n h) : bn.edge (moveE τ σ e) = moveE τ σ (bn.edge e) := by
  funext b i j c
  have h1 : ∑ b', ∑ j', ∑ i', moveE τ σ e b' i' j' c = ∑ b', ∑ j', ∑ i', e b' i' j' c := sum_moveE τ σ fun b j i => e b i j c
  have h2 : ∀ m : ℝ, ∑ b', ∑ j', ∑ i', (moveE τ σ e b' i' j' c - m) ^ 2 = ∑ b', ∑ j', ∑ i', (e b' i' j' c - m) ^ 2 := fun m => sum_moveE τ σ fun b j i => (e b i j c - m) ^ 2
  simp only [BatchNorm.edge, h1, h2]
  rfl

theorem NodeFeatures.forward_move (l : NodeFeatures h) (x : NodeTensor B n h) (g : EdgeTensor B n h) :
    l.forward (moveN τ σ x) (moveE τ σ g) = moveN τ σ (l.forward x g) := by
  funext b i c
  have h1 : ∑ j, moveE τ σ g b i j c * l.V.app (moveN τ σ x b j) c = ∑ j, g (τ b) (σ b i) j c * l.V.app (x (τ b) j) c :=
    Equiv.sum_comp (σ b) fun j => g (τ b) (σ b i) j c * l.V.app (x (τ b) j) c
  have h2 : ∑ j, moveE τ σ g b i j c = ∑ j, g (τ b) (σ b i) j c := Equiv.sum_comp (σ b) fun j => g (τ b) (σ b i) j c
  have h3 : l.U.app (moveN τ σ x b i) c = l.U.app (x (τ b) (σ b i)) c := rfl
  unfold NodeFeatures.forward moveN
  unfold moveN at h1 h3
  simp only [h1, h2]

theorem EdgeFeatures.forward_move (l : EdgeFeatures h) (x : NodeTensor B n h) (e : EdgeTensor B n h) :
    l.forward (moveN τ σ x) (moveE τ σ e) = moveE τ σ (l.forward x e) := rfl

theorem Layer.forward_move (l : Layer h) (x : NodeTensor B n h) (e : EdgeTensor B n h) :
    l.forward (moveN τ σ x, moveE τ σ e) = (moveN τ σ (l.forward (x, e)).1, moveE τ σ (l.forward (x, e)).2) := by
  have h1 := l.edgeFeat.forward_move τ σ x e
  have h2 : (fun b i j c => sigmoid (moveE τ σ (l.edgeFeat.forward x e) b i j c)) = moveE τ σ (fun b i j c => sigmoid (l.edgeFeat.forward x e b i j c)) := rfl
  unfold Layer.forward
  simp only [h1, h2, l.nodeFeat.forward_move τ σ, l.bnEdge.edge_move τ σ, l.bnNode.node_move τ σ]
  rfl

theorem layers_move (ls : List (Layer h)) (x : NodeTensor B n h) (e : EdgeTensor B n h) :
    ls.foldl (fun xe l => l.forward xe) (moveN τ σ x, moveE τ σ e) = (moveN τ σ (ls.foldl (fun xe l => l.forward xe) (x, e)).1, moveE τ σ (ls.foldl (fun xe l => l.forward xe) (x, e)).2) := by
  induction ls generalizing x e with
  | nil => rfl
  | cons l ls ih => rw [List.foldl_cons, List.foldl_cons, l.forward_move τ σ, ih]

theorem Net.forward_move {d v k o : Nat} (w : Net d v k o) (x : Input B n d v) : w.forward (moveI τ σ x) = moveE τ σ (w.forward x) := by
  have h1 : w.embed (moveI τ σ x) = (moveN τ σ (w.embed x).1, moveE τ σ (w.embed x).2) := rfl
  funext b i j
  unfold Net.forward
  rw [h1, layers_move]
  rfl

end

/-! ### Symmetry -/

/-- no direction -/
def SymE {B n h : Nat} (e : EdgeTensor B n h) : Prop := ∀ b i j c, e b i j c = e b j i c

theorem Layer.forward_sym {B n h : Nat} (l : Layer h) {x : NodeTensor B n h} {e : EdgeTensor B n h} (he : SymE e) : SymE (l.forward (x, e)).2 := by
  intro b i j c
  have h1 : l.edgeFeat.forward x e b i j c = l.edgeFeat.forward x e b j i c := by
    unfold EdgeFeatures.forward
    have : e b i j = e b j i := funext (he b i j)
    rw [this]; ring
  show e b i j c + relu (l.bnEdge.edge (l.edgeFeat.forward x e) b i j c) = e b j i c + relu (l.bnEdge.edge (l.edgeFeat.forward x e) b j i c)
  rw [he b i j c]
  unfold BatchNorm.edge
  simp only [h1]

theorem layers_sym {B n h : Nat} (ls : List (Layer h)) {x : NodeTensor B n h} {e : EdgeTensor B n h} (he : SymE e) : SymE (ls.foldl (fun xe l => l.forward xe) (x, e)).2 := by
  induction ls generalizing x e with
  | nil => exact he
  | cons l ls ih => rw [List.foldl_cons]; exact ih (l.forward_sym he)

theorem Net.forward_sym {B n d v k o : Nat} (w : Net d v k o) {x : Input B n d v} (h1 : ∀ b i j, x.edges b i j = x.edges b j i) (h2 : ∀ b i j, x.values b i j = x.values b j i) (b : Fin B) (i j : Fin n) :
    w.forward x b i j = w.forward x b j i := by
  have he : SymE (w.embed x).2 := by
    intro b i j c
    show Fin.append (fun c => w.valueEmb c * x.values b i j) (w.tagEmb (x.edges b i j)) c = Fin.append (fun c => w.valueEmb c * x.values b j i) (w.tagEmb (x.edges b j i)) c
    rw [h1 b i j, h2 b i j]
  have := layers_sym w.layers (x := (w.embed x).1) he
  unfold Net.forward
  have hx : w.embed x = ((w.embed x).1, (w.embed x).2) := rfl
  rw [hx, funext (this b i j)]

/-! ### A mini-batch of copies -/

def oneN {B n h : Nat} (x : NodeTensor 1 n h) : NodeTensor B n h := fun _ => x 0
def oneE {B n h : Nat} (e : EdgeTensor 1 n h) : EdgeTensor B n h := fun _ => e 0

section
variable {B n h : Nat}

theorem mean_copies (hB : 0 < B) (s m : ℝ) : (∑ _b : Fin B, s) / ((B : ℝ) * m) = (∑ _b : Fin 1, s) / (((1 : Nat) : ℝ) * m) := by
  have : (B : ℝ) ≠ 0 := by exact_mod_cast hB.ne'
  simp only [Finset.sum_const, Finset.card_univ, Fintype.card_fin, nsmul_eq_mul, Nat.cast_one, one_mul]
  rw [mul_div_mul_left _ _ this]

theorem BatchNorm.node_copies (hB : 0 < B) (bn : BatchNorm h) (x : NodeTensor 1 n h) : bn.node (oneN (B := B) x) = oneN (bn.node x) := by
  funext b i c
  have h0 : ∀ b : Fin 1, x b = x 0 := fun b => by rw [Subsingleton.elim b 0]
  have h1 := mean_copies hB (∑ i', x 0 i' c) n
  have h2 : ∀ m : ℝ, (∑ _b : Fin B, ∑ i', (x 0 i' c - m) ^ 2) / ((B : ℝ) * n) = (∑ _b : Fin 1, ∑ i', (x 0 i' c - m) ^ 2) / (((1 : Nat) : ℝ) * n) := fun m => mean_copies hB _ n
  unfold oneN BatchNorm.node
  simp only [h0]
  simp only [h1, h2]

theorem BatchNorm.edge_copies (hB : 0 < B) (bn : BatchNorm h) (e : EdgeTensor 1 n h) : bn.edge (oneE (B := B) e) = oneE (bn.edge e) := by
  funext b i j c
  have h0 : ∀ b : Fin 1, e b = e 0 := fun b => by rw [Subsingleton.elim b 0]
  have h1 := mean_copies hB (∑ j', ∑ i', e 0 i' j' c) ((n : ℝ) * n)
  have h2 : ∀ m : ℝ, (∑ _b : Fin B, ∑ j', ∑ i', (e 0 i' j' c - m) ^ 2) / ((B : ℝ) * (n * n)) = (∑ _b : Fin 1, ∑ j', ∑ i', (e 0 i' j' c - m) ^ 2) / (((1 : Nat) : ℝ) * (n * n)) :=
    fun m => mean_copies hB _ _
  unfold oneE BatchNorm.edge
  simp only [h0, mul_assoc]
  simp only [h1, h2]

theorem Layer.forward_copies (hB : 0 < B) (l : Layer h) (x : NodeTensor 1 n h) (e : EdgeTensor 1 n h) :
    l.forward (oneN (B := B) x, oneE (B := B) e) = (oneN (l.forward (x, e)).1, oneE (l.forward (x, e)).2) := by
  have h1 : l.edgeFeat.forward (oneN (B := B) x) (oneE (B := B) e) = oneE (l.edgeFeat.forward x e) := rfl
  have h2 : (fun b i j c => sigmoid (oneE (B := B) (l.edgeFeat.forward x e) b i j c)) = oneE (fun b i j c => sigmoid (l.edgeFeat.forward x e b i j c)) := rfl
  have h3 : ∀ g, l.nodeFeat.forward (oneN (B := B) x) (oneE g) = oneN (l.nodeFeat.forward x g) := fun g => rfl
  unfold Layer.forward
  simp only [h1, h2, h3, l.bnEdge.edge_copies hB, l.bnNode.node_copies hB]
  rfl

theorem Net.forward_copies {d v k o : Nat} (hB : 0 < B) (w : Net d v k o) (x : Input B n d v) (b : Fin B) (hx : ∀ b', x.edges b' = x.edges b ∧ x.values b' = x.values b ∧ x.coord b' = x.coord b)
    (i j : Fin n) : w.forward x b i j = w.forward (Spec.alone x b) 0 i j := by
  have key : ∀ (ls : List (Layer (k + k))) (y : NodeTensor 1 n (k + k)) (e : EdgeTensor 1 n (k + k)),
      ls.foldl (fun xe l => l.forward xe) (oneN (B := B) y, oneE (B := B) e) = (oneN (ls.foldl (fun xe l => l.forward xe) (y, e)).1, oneE (ls.foldl (fun xe l => l.forward xe) (y, e)).2) := by
    intro ls
    induction ls with
    | nil => intro y e; rfl
    | cons l ls ih => intro y e; rw [List.foldl_cons, List.foldl_cons, l.forward_copies hB, ih]
  have h1 : w.embed x = (oneN (w.embed (Spec.alone x b)).1, oneE (w.embed (Spec.alone x b)).2) := by
    have : x = ⟨fun _ => x.edges b, fun _ => x.values b, fun _ => x.coord b⟩ := by
      cases x with
      | mk a1 a2 a3 =>
        congr
        · exact funext fun b' => (hx b').1
        · exact funext fun b' => (hx b').2.1
        · exact funext fun b' => (hx b').2.2
    rw [this]
    rfl
  unfold Net.forward
  rw [h1, key]
  rfl

end

/-! ### Softmax -/

theorem expSum_pos {o : Nat} (y : Fin o → ℝ) (c : Fin o) : 0 < ∑ c', Real.exp (y c') :=
  Finset.sum_pos (fun c _ => Real.exp_pos _) ⟨c, Finset.mem_univ _⟩

theorem softmax_pos {o : Nat} (y : Fin o → ℝ) (c : Fin o) : 0 < softmax y c := div_pos (Real.exp_pos _) (expSum_pos y c)

theorem softmax_sum {o : Nat} (y : Fin o → ℝ) (c : Fin o) : ∑ c', softmax y c' = 1 := by
  unfold softmax
  rw [← Finset.sum_div]
  exact div_self (expSum_pos y c).ne'

theorem logSoftmax_eq {o : Nat} (y : Fin o → ℝ) (c : Fin o) : logSoftmax y c = Real.log (softmax y c) := by
  unfold logSoftmax softmax
  rw [Real.log_div (Real.exp_pos _).ne' (expSum_pos y c).ne', Real.log_exp]

theorem softmax_le_one {o : Nat} (y : Fin o → ℝ) (c : Fin o) : softmax y c ≤ 1 := by
  rw [← softmax_sum y c]
  exact Finset.single_le_sum (f := softmax y) (fun c' _ => (softmax_pos y c').le) (Finset.mem_univ c)

end
end Verif.Gcn
