import Verif.Base

/-!
# Model of the doubly linked list and its iterator

`data_structures/doubly_linked_list/list_functions.c`, `list_iterator.c`, `linked_list.h`.

Cells live in a store indexed by addresses; `malloc` returns a fresh address and never fails
(simplification); `free` removes the cell, so a later access to it is a `null` fault.
A stored value is a non-NULL pointer in every use of the list in the code base; the model is
polymorphic in it.
-/

namespace Verif.Dll
open Verif

/-- `DllElem`, linked_list.h:28-32. -/
structure Cell (α : Type) where
  value : α
  next : Option Nat
  prev : Option Nat

/-- `List`, linked_list.h:36-40, together with the part of the memory it uses
(`cells`, and `fresh` = the next address `malloc` will return). -/
structure DList (α : Type) where
  cells : Nat → Option (Cell α)
  fresh : Nat
  head : Option Nat
  tail : Option Nat
  size : Nat

set_option autoImplicit false
variable {α : Type}

/-- read `p->…` -/
def rd (s : DList α) (p : Option Nat) : Res (Nat × Cell α) := do
  let a ← deref p
  let c ← deref (s.cells a)
  pure (a, c)

/-- write a whole cell -/
def wr (s : DList α) (a : Nat) (c : Cell α) : DList α := { s with cells := upd s.cells a (some c) }

/-- assignment `p->next = v` -/
def setNext (s : DList α) (p : Option Nat) (v : Option Nat) : Res (DList α) := do
  let (a, c) ← rd s p
  pure (wr s a { c with next := v })

/-- assignment `p->prev = v` -/
def setPrev (s : DList α) (p : Option Nat) (v : Option Nat) : Res (DList α) := do
  let (a, c) ← rd s p
  pure (wr s a { c with prev := v })

/-- `free(p)` -/
def free (s : DList α) (a : Nat) : DList α := { s with cells := upd s.cells a none }

/-- `new_list`, list_functions.c:18-25. -/
def newList : DList α := { cells := fun _ => none, fresh := 0, head := none, tail := none, size := 0 }

/-- `build_dll_elem`, list_functions.c:46-53: returns the new address. -/
def build (s : DList α) (v : α) (next prev : Option Nat) : Nat × DList α :=
  (s.fresh, { s with cells := upd s.cells s.fresh (some ⟨v, next, prev⟩), fresh := s.fresh + 1 })

/-- `is_list_empty`, list_functions.c:56-58 (non-NULL list). -/
def isEmpty (s : DList α) : Bool := s.head.isNone

/-- `get_list_size`, list_functions.c:61-63. -/
def getSize (s : DList α) : Nat := s.size

/-- `add_elem_list_bottom`, list_functions.c:66-79. -/
def addBottom (s : DList α) (v : α) : Res (DList α) := do
  let (e, s1) := build s v none s.tail
  let s2 ← if isEmpty s then pure { s1 with head := some e } else setNext s1 s1.tail (some e)
  pure { s2 with tail := some e, size := s2.size + 1 }

/-- the loop `for (i = 0; i < index; ++i) supp = supp->next;`, list_functions.c:96-97. -/
def walk (s : DList α) : Nat → Option Nat → Res (Option Nat)
  | 0, p => pure p
  | n + 1, p => do
    let (_, c) ← rd s p
    walk s n c.next

/-- `add_elem_list_index`, list_functions.c:86-122. -/
def addIndex (s : DList α) (v : α) (index : Nat) : Res (DList α) := do
  if index > getSize s then pure s else
  let supp ← walk s index s.head
  if supp = s.head then
    let (e, s1) := build s v supp none
    let s2 ← (match supp with
      | none => pure { s1 with head := some e, tail := some e }
      | some _ => do
        let s2 ← setPrev s1 s1.head (some e)
        pure { s2 with head := some e })
    pure { s2 with size := s2.size + 1 }
  else
    match supp with
    | none =>
      let (e, s1) := build s v none s.tail
      let s2 ← setNext s1 s1.tail (some e)
      pure { s2 with size := s2.size + 1 }
    | some a => do
      let (_, c) ← rd s (some a)
      let (e, s1) := build s v (some a) c.prev
      let s2 ← setPrev s1 (some a) (some e)
      let (_, ce) ← rd s2 (some e)
      let s3 ← setNext s2 ce.prev (some e)
      pure { s3 with size := s3.size + 1 }

/-- `delete_list_elem_bottom`, list_functions.c:127-140. -/
def deleteBottom (s : DList α) : Res (DList α) := do
  if isEmpty s then pure s else
  let (t, c) ← rd s s.tail
  let s1 := { s with tail := c.prev }
  let s2 ← setNext s1 s1.tail none
  let s3 := free s2 t
  pure { s3 with size := s3.size - 1 }

/-- `delete_list_elem_index`, list_functions.c:147-179. -/
def deleteIndex (s : DList α) (index : Nat) : Res (DList α) := do
  if isEmpty s || decide (index ≥ getSize s) then pure s else
  let old ← walk s index s.head
  let (a, c) ← rd s old
  let s1 ← (if old ≠ s.head then do
      let s1 ← setNext s c.prev c.next
      match c.next with
      | some n => setPrev s1 (some n) c.prev
      | none => pure { s1 with tail := c.prev }
    else if s.head = s.tail then pure { s with head := none, tail := none }
    else do
      let (_, h) ← rd s s.head
      let s1 := { s with head := h.next }
      setPrev s1 s1.head none)
  let s2 := free s1 a
  pure { s2 with size := s2.size - 1 }

/-- `get_list_elem_index`, list_functions.c:185-196; `none` is the NULL result. -/
def getIndex (s : DList α) (index : Nat) : Res (Option α) := do
  if index ≥ getSize s then pure none else
  let supp ← walk s index s.head
  let (_, c) ← rd s supp
  pure (some c.value)

/-- `del_list`, list_functions.c:28-43: frees all cells; `fuel` bounds the loop. -/
def delList (s : DList α) : Nat → Option Nat → Res (DList α)
  | _, none => pure s
  | 0, some _ => .error .fuel
  | n + 1, some a => do
    let (_, c) ← rd s (some a)
    delList (free s a) n c.next

/-! ## The open-subproblem list, b_and_b_data.c

Same code as the generic list except that emptiness is tested on `size` and elements are stored by value. -/

/-- `is_SubProblemList_empty`, b_and_b_data.c:38-40 (non-NULL list). -/
def spIsEmpty (s : DList α) : Bool := s.size == 0

/-- `add_elem_SubProblemList_bottom`, b_and_b_data.c:58-71. -/
def spAddBottom (s : DList α) (v : α) : Res (DList α) := do
  let (e, s1) := build s v none s.tail
  let s2 ← if spIsEmpty s then pure { s1 with head := some e } else setNext s1 s1.tail (some e)
  pure { s2 with tail := some e, size := s2.size + 1 }

/-- `add_elem_SubProblemList_index`, b_and_b_data.c:74-109: textually the generic insertion. -/
def spAddIndex (s : DList α) (v : α) (index : Nat) : Res (DList α) := addIndex s v index

/-- `delete_SubProblemList_elem_index`, b_and_b_data.c:112-142. -/
def spDeleteIndex (s : DList α) (index : Nat) : Res (DList α) := do
  if spIsEmpty s || decide (index ≥ getSize s) then pure s else
  let old ← walk s index s.head
  let (a, c) ← rd s old
  let s1 ← (if old ≠ s.head then do
      let s1 ← setNext s c.prev c.next
      match c.next with
      | some n => setPrev s1 (some n) c.prev
      | none => pure { s1 with tail := c.prev }
    else if s.head = s.tail then pure { s with head := none, tail := none }
    else do
      let (_, h) ← rd s s.head
      let s1 := { s with head := h.next }
      setPrev s1 s1.head none)
  let s2 := free s1 a
  pure { s2 with size := s2.size - 1 }

/-- `get_SubProblemList_elem_index`, b_and_b_data.c:145-156: textually the generic access. -/
def spGetIndex (s : DList α) (index : Nat) : Res (Option α) := getIndex s index

/-- `ListIterator`, linked_list.h:44-48 (the list is passed separately). -/
structure Iter where
  curr : Option Nat
  index : Nat

/-- `create_list_iterator`, list_iterator.c:18-27. -/
def createIter (s : DList α) : Iter := { curr := s.head, index := 0 }

/-- `is_list_iterator_valid`, list_iterator.c:35-37. -/
def iterValid (s : DList α) (it : Iter) : Bool := it.index < getSize s

/-- `get_current_list_iterator_element`, list_iterator.c:30-32. -/
def iterCurrent (s : DList α) (it : Iter) : Res (Option α) :=
  match it.curr with
  | none => pure none
  | some a => do
    let (_, c) ← rd s (some a)
    pure (some c.value)

/-- `list_iterator_next`, list_iterator.c:40-48. -/
def iterNext (s : DList α) (it : Iter) : Res Iter :=
  if iterValid s it then
    let it1 := { it with index := it.index + 1 }
    if iterValid s it1 then do
      let (_, c) ← rd s it1.curr
      pure { it1 with curr := c.next }
    else pure it1
  else pure it

/-- `list_iterator_get_next`, list_iterator.c:56-64. -/
def iterGetNext (s : DList α) (it : Iter) : Res (Option α × Iter) :=
  if iterValid s it then do
    let e ← iterCurrent s it
    let it' ← iterNext s it
    pure (e, it')
  else pure (none, it)

end Verif.Dll
