import Verif.Props.Candidate
import Verif.Props.BoundExamples

/-!
# C39, C46, C47 meet non-trivial cases
-/
namespace Verif
open Verif.Spec
set_option autoImplicit false

namespace Ex

def env : Env := ⟨fun _ => sub, fun _ => sub, fun _ => sub, fun _ => loc, sub, fun _ _ => sub, fun _ _ => loc, fun _ => false⟩

/-- classic and hybrid mode -/
def cN (hybrid : Bool) : Cfg := ⟨5, hybrid, 1 / 1000, 0, 1 / 20, 1 / 2⟩

/-- no best value yet -/
def probN (g : Graph) : Problem := ⟨g, g, 0, 1, sub, INFINITE, 1, 0, 0, false⟩

theorem probN_ready {b : Bool} {g : Graph} (e : createEuclideanGraph (cN b) (fun a b => w5 a.pos b.pos) mem (nodes 5) = .ok g)
    (hp : (List.range 5).all (fun u => (List.range 5).all fun v => decide (-1 < (g.mat u v).prob)) = true) :
    Instance (cN b) (probN g) ∧ ProbsAbove (cN b) (probN g) := by
  have hI : Instance (cN b) (probN g) := by
    refine prob_instance (g := g) (d := w5) rfl (show 3 ≤ 5 by decide) (show (0 : Nat) < 5 by decide) ?_ e
    intro u v huv hv
    have : v < 5 := hv
    interval_cases v <;> interval_cases u <;> decide +kernel
  refine ⟨hI, ?_⟩
  intro _ e he
  rw [List.all_eq_true] at hp
  induction e using Sym2.ind with
  | _ u v =>
    have h1 := hI.stored.within u v he
    rw [hI.nodes, Finset.mem_range, Finset.mem_range] at h1
    have hs : s(u, v).inf < 5 ∧ s(u, v).sup < 5 := by
      have h1' : u < 5 ∧ v < 5 := h1
      simp only [Sym2.inf_mk, Sym2.sup_mk]
      omega
    have h2 := hp _ (List.mem_range.2 hs.1)
    rw [List.all_eq_true] at h2
    exact of_decide_eq_true (h2 _ (List.mem_range.2 hs.2))

end Ex

/-- C39: in both modes, from node 3 the heuristic finds the tour `3, 2, 1, 0, 4` (or, the probabilities being equal, another one in
hybrid mode) and records its length 7. -/
example (b : Bool) : ∃ (p p' : Problem), Instance (Ex.cN b) p ∧ ProbsAbove (Ex.cN b) p ∧ nearestNeighbour (Ex.cN b) Ex.sub Ex.sub p 3 = .ok p' ∧
    p'.bestValue = 7 ∧ p.bestValue = INFINITE := by
  have h : Ex.okAnd (createEuclideanGraph (Ex.cN b) (fun a b => Ex.w5 a.pos b.pos) Ex.mem (Ex.nodes 5)) (fun g =>
      (List.range 5).all (fun u => (List.range 5).all fun v => decide (-1 < (g.mat u v).prob)) &&
      Ex.okAnd (nearestNeighbour (Ex.cN b) Ex.sub Ex.sub (Ex.probN g) 3) (fun p' => decide (p'.bestValue = 7))) = true := by
    cases b <;> decide +kernel
  obtain ⟨g, e, h⟩ := Ex.okAnd_elim h
  rw [Bool.and_eq_true] at h
  obtain ⟨hp, h⟩ := h
  obtain ⟨p', e', h⟩ := Ex.okAnd_elim h
  obtain ⟨k1, k2⟩ := Ex.probN_ready e hp
  exact ⟨Ex.probN g, p', k1, k2, e', of_decide_eq_true h, rfl⟩

/-- C47: in both modes node 2, whose 1-tree weighs 7, is chosen. -/
example (b : Bool) : ∃ (p p' : Problem), Instance (Ex.cN b) p ∧ ProbsAbove (Ex.cN b) p ∧ 0 ≤ (Ex.cN b).eps ∧ findCandidate (Ex.cN b) Ex.env p = .ok (p', 2) := by
  have h : Ex.okAnd (createEuclideanGraph (Ex.cN b) (fun a b => Ex.w5 a.pos b.pos) Ex.mem (Ex.nodes 5)) (fun g =>
      (List.range 5).all (fun u => (List.range 5).all fun v => decide (-1 < (g.mat u v).prob)) &&
      Ex.okAnd (findCandidate (Ex.cN b) Ex.env (Ex.probN g)) (fun r => decide (r.2 = 2))) = true := by
    cases b <;> decide +kernel
  obtain ⟨g, e, h⟩ := Ex.okAnd_elim h
  rw [Bool.and_eq_true] at h
  obtain ⟨hp, h⟩ := h
  obtain ⟨⟨p', cand⟩, e', h⟩ := Ex.okAnd_elim h
  obtain rfl : cand = 2 := of_decide_eq_true h
  obtain ⟨k1, k2⟩ := Ex.probN_ready e hp
  exact ⟨Ex.probN g, p', k1, k2, by norm_num [Ex.cN], e'⟩

/-- C46: the complete graph on five nodes is accepted -/
example : ∃ g, Stored g ∧ 3 ≤ g.numNodes ∧ checkFeasibility g = true := by
  have h : Ex.okAnd (createEuclideanGraph Ex.c5 (fun a b => Ex.w5 a.pos b.pos) Ex.mem (Ex.nodes 5)) (fun g => checkFeasibility g) = true := by decide +kernel
  obtain ⟨g, e, h⟩ := Ex.okAnd_elim h
  obtain ⟨g', e', st, -, -, hn, -⟩ := Ex.complete Ex.c5 Ex.mem 5 (by decide) Ex.w5
  rw [e] at e'; cases e'
  exact ⟨g, st, by omega, h⟩

/-- C46: a triangle with a fourth node joined to one of its corners is rejected -/
example : ∃ g, Stored g ∧ 3 ≤ g.numNodes ∧ checkFeasibility g = false := by
  let L : List Edge := [⟨0, 1, 0, 1, 0, 0⟩, ⟨1, 2, 1, 1, 0, 1⟩, ⟨0, 2, 2, 1, 0, 2⟩, ⟨2, 3, 3, 1, 0, 3⟩]
  obtain ⟨g, e, st, -⟩ := C51_create_graph_simple (c := Ex.c5) (mem := Ex.mem) (xs := [(0, 0), (0, 0), (0, 0), (0, 0)]) (L := L) (by decide) (by unfold SimpleList; decide) (by decide)
  have h : Ex.okAnd (createGraph Ex.c5 Ex.mem [(0, 0), (0, 0), (0, 0), (0, 0)] L) (fun g => decide (g.numNodes = 4) && !checkFeasibility g) = true := by decide +kernel
  obtain ⟨g', e', h⟩ := Ex.okAnd_elim h
  rw [e] at e'; cases e'
  simp only [Bool.and_eq_true, decide_eq_true_eq, Bool.not_eq_true'] at h
  exact ⟨g, st, by omega, h.2⟩

end Verif
