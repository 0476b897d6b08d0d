import Verif.Base

/-!
# Specification of a priority queue

The contents of the queue map each client node to its key and current value; `none` means the node is not in
the queue.
-/
namespace Verif.Spec
open Verif
set_option autoImplicit false

/-- contents of a priority queue: node ↦ (key, value) -/
abbrev Bag := Nat → Option (Nat × ℚ)

/-- no node is in the queue -/
def Bag.Empty (s : Bag) : Prop := ∀ x, s x = none

/-- node `x` is in the queue with key `k` and a value that no other node undercuts -/
def Bag.IsMin (s : Bag) (x k : Nat) : Prop :=
  ∃ w, s x = some (k, w) ∧ ∀ y k' w', s y = some (k', w') → w ≤ w'

/-- no node in the queue has key `k` -/
def Bag.FreshKey (s : Bag) (k : Nat) : Prop := ∀ y k' w, s y = some (k', w) → k' ≠ k

/-- the queue holds exactly `n` nodes -/
def Bag.Size (s : Bag) (n : Nat) : Prop := ∃ xs : List Nat, xs.Nodup ∧ (∀ x, x ∈ xs ↔ s x ≠ none) ∧ xs.length = n

end Verif.Spec
