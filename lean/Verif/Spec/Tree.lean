import Mathlib.Logic.Relation
import Mathlib.Data.Sym.Sym2
import Mathlib.Data.Finset.Card
import Mathlib.Algebra.BigOperators.Group.Finset.Basic
import Mathlib.Algebra.Order.Ring.Rat

/-!
# Connectivity, cycles and spanning trees of finite edge sets

Edges are unordered pairs of nodes.
-/
namespace Verif.Spec
set_option autoImplicit false

/-- a finite set of undirected edges -/
abbrev EdgeSet := Finset (Sym2 Nat)

/-- `u` and `v` are joined by a walk along edges of `E` -/
def Conn (E : EdgeSet) (u v : Nat) : Prop := Relation.ReflTransGen (fun a b => s(a, b) ∈ E) u v

/-- any two nodes of `V` are joined by a walk along edges of `E` -/
def Connected (V : Finset Nat) (E : EdgeSet) : Prop := ∀ u ∈ V, ∀ v ∈ V, Conn E u v

/-- no cycle: the ends of an edge are not joined by the other edges -/
def Acyclic (T : EdgeSet) : Prop := ∀ u v, s(u, v) ∈ T → ¬ Conn (T.erase s(u, v)) u v

/-- `T` is a spanning tree of the graph `(V, E)` -/
structure SpanningTree (V : Finset Nat) (E T : EdgeSet) : Prop where
  sub : T ⊆ E
  conn : Connected V T
  acyclic : Acyclic T

/-- total weight of a set of edges -/
def total (w : Sym2 Nat → ℚ) (T : EdgeSet) : ℚ := ∑ e ∈ T, w e

end Verif.Spec
