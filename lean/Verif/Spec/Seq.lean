/-!
# Specification of the lists: mathematical sequences

Independent of the model: only `List`.
-/
namespace Verif.Spec
set_option autoImplicit false

/-- The mutating operations of the list API. -/
inductive SeqOp (α : Type) where
  | append (v : α)
  | insert (v : α) (i : Nat)
  | erase (i : Nat)

variable {α : Type}

/-- Effect of an operation on a mathematical sequence; out-of-range requests do nothing. -/
def seqStep (l : List α) : SeqOp α → List α
  | .append v => l ++ [v]
  | .insert v i => if i ≤ l.length then l.take i ++ v :: l.drop i else l
  | .erase i => if i < l.length then l.take i ++ l.drop (i + 1) else l

def seqRun (l : List α) (ops : List (SeqOp α)) : List α := ops.foldl seqStep l

/-- The histories of property C01: no insertion at exactly the end of a non-empty list. -/
def okOp (l : List α) : SeqOp α → Prop
  | .insert _ i => i ≠ l.length ∨ l = []
  | _ => True

def okRun (l : List α) : List (SeqOp α) → Prop
  | [] => True
  | op :: ops => okOp l op ∧ okRun (seqStep l op) ops

end Verif.Spec
