import Verif.Model.SubProblem
import Verif.Spec.GraphSpec

/-!
# What a subproblem requires and forbids
-/
namespace Verif.Spec
open Verif
set_option autoImplicit false

/-- the subproblem's fields say: the edges in `M` are mandatory, those in `F` are forbidden, on the nodes below `n`.
(The matrix is only consulted when the matching counter is positive, branch_and_bound.c:101-107, 540, 620. An entry of
the list of mandatory edges may have become forbidden since it was recorded: `branch` does that.) -/
structure Describes (n : Nat) (sp : SubProblem) (M F : EdgeSet) : Prop where
  mand : ∀ u < n, ∀ v < n, u ≠ v → (s(u, v) ∈ M ↔ sp.numMandatory > 0 ∧ sp.cons u v = .mandatory)
  forb : ∀ u < n, ∀ v < n, u ≠ v → (s(u, v) ∈ F ↔ sp.numForbidden > 0 ∧ sp.cons u v = .forbidden)
  free : ∀ u < n, ∀ v < n, u ≠ v → ((sp.numForbidden = 0 ∨ sp.cons u v = .nothing) ∧ ¬ (sp.numMandatory > 0 ∧ sp.cons u v = .mandatory) ↔
    s(u, v) ∉ M ∧ s(u, v) ∉ F)
  recorded : ∀ e ∈ M, ∃ k < sp.numMandatory, s((sp.mandatory k).1, (sp.mandatory k).2) = e
  list : ∀ k < sp.numMandatory, (sp.mandatory k).1 < n ∧ (sp.mandatory k).2 < n ∧ (sp.mandatory k).1 ≠ (sp.mandatory k).2 ∧
    s((sp.mandatory k).1, (sp.mandatory k).2) ∈ M ∪ F
  within : ∀ u v, s(u, v) ∈ M ∪ F → u < n ∧ v < n ∧ u ≠ v

/-- the nodes other than the candidate -/
def others (g : Graph) (cand : Nat) : Finset Nat := (Finset.range g.numNodes).erase cand

/-- edges of the set that do not touch the candidate -/
def away (cand : Nat) (E : EdgeSet) : EdgeSet := E.filter fun e => cand ∉ e

/-- edges of the set that touch the candidate -/
def spokes (cand : Nat) (E : EdgeSet) : EdgeSet := E.filter fun e => cand ∈ e

/-- the edges of the graph that are neither forbidden nor at the candidate -/
def usable (g : Graph) (cand : Nat) (F : EdgeSet) : EdgeSet := away cand (edgeSet g \ F)

/-- a 1-tree of the graph `(0 … n-1, E)` with special node `cand`: a spanning tree of the other nodes and two edges at `cand` -/
structure OneTree (n cand : Nat) (E T : EdgeSet) : Prop where
  sub : T ⊆ E
  tree : SpanningTree ((Finset.range n).erase cand) (away cand E) (away cand T)
  two : (spokes cand T).card = 2

end Verif.Spec
