import Verif.C.Basic
/-!
# Model of the intrusive doubly linked list `src/shared/shl_dlist.h`

Addresses are numbers, 0 is NULL.  A heap maps each address to the two pointers of the
`struct shl_dlist` there.  Dereferencing NULL is undefined (`none`).
-/
namespace Verif.Dlist
open Verif.C

/-- `struct shl_dlist`, `shl_dlist.h:27-30`. -/
structure Node where
  next : Nat
  prev : Nat
deriving DecidableEq, Repr

/-- All nodes of the process. -/
abbrev Heap := Nat → Node

/-- `p->next`. -/
def getNext (h : Heap) (p : Nat) : Option Nat := if p = 0 then none else some (h p).next
/-- `p->prev`. -/
def getPrev (h : Heap) (p : Nat) : Option Nat := if p = 0 then none else some (h p).prev
/-- `p->next = v`. -/
def setNext (h : Heap) (p v : Nat) : Option Heap :=
  if p = 0 then none else some (fun q => if q = p then { h q with next := v } else h q)
/-- `p->prev = v`. -/
def setPrev (h : Heap) (p v : Nat) : Option Heap :=
  if p = 0 then none else some (fun q => if q = p then { h q with prev := v } else h q)

/-- `shl_dlist_init`, `shl_dlist.h:34-38`. -/
def init (h : Heap) (list : Nat) : Option Heap := do
  let h ← setNext h list list
  setPrev h list list

/-- `shl_dlist__link`, `shl_dlist.h:40-48`. -/
def link2 (h : Heap) (prev next n : Nat) : Option Heap := do
  let h ← setPrev h next n
  let h ← setNext h n next
  let h ← setPrev h n prev
  setNext h prev n

/-- `shl_dlist_link`, `shl_dlist.h:50-54`. -/
def link (h : Heap) (head n : Nat) : Option Heap := do
  let x ← getNext h head
  link2 h head x n

/-- `shl_dlist_link_tail`, `shl_dlist.h:56-60`. -/
def linkTail (h : Heap) (head n : Nat) : Option Heap := do
  let x ← getPrev h head
  link2 h x head n

/-- `shl_dlist__unlink`, `shl_dlist.h:62-67`. -/
def unlink2 (h : Heap) (prev next : Nat) : Option Heap := do
  let h ← setPrev h next prev
  setNext h prev next

/-- `shl_dlist_unlink`, `shl_dlist.h:69-76`. -/
def unlink (h : Heap) (e : Nat) : Option Heap := do
  let p ← getPrev h e
  let n ← getNext h e
  if p ≠ 0 ∧ n ≠ 0 then do
    let h ← unlink2 h p n
    let h ← setPrev h e 0
    setNext h e 0
  else some h

/-- `shl_dlist_linked`, `shl_dlist.h:78-81`. -/
def linked (h : Heap) (e : Nat) : Option Bool := do
  let n ← getNext h e
  let p ← getPrev h e
  return decide (n ≠ 0 ∧ p ≠ 0)

/-- `shl_dlist_empty`, `shl_dlist.h:83-86`. -/
def empty (h : Heap) (head : Nat) : Option Bool := do
  let n ← getNext h head
  return decide (n = head)

/-- `shl_dlist_first`, `shl_dlist.h:88-91`. -/
def first (h : Heap) (head : Nat) : Option Nat := getNext h head
/-- `shl_dlist_last`, `shl_dlist.h:93-96`. -/
def last (h : Heap) (head : Nat) : Option Nat := getPrev h head

/-- `shl_dlist_for_each`, `shl_dlist.h:107-108`, from `iter` on: the entries visited.  At most
`fuel` of them (`none` if the walk takes longer or dereferences NULL). -/
def walkFrom (h : Heap) (head : Nat) : Nat → Nat → Option (List Nat)
  | 0, _ => none
  | fuel + 1, iter =>
    if iter = head then some []
    else do
      let n ← getNext h iter
      let l ← walkFrom h head fuel n
      return iter :: l

/-- `shl_dlist_for_each(iter, head)`. -/
def walk (h : Heap) (head fuel : Nat) : Option (List Nat) := do
  let n ← getNext h head
  walkFrom h head fuel n

/-- `shl_dlist_for_each_reverse`, `shl_dlist.h:123-124`, from `iter` on. -/
def walkBackFrom (h : Heap) (head : Nat) : Nat → Nat → Option (List Nat)
  | 0, _ => none
  | fuel + 1, iter =>
    if iter = head then some []
    else do
      let n ← getPrev h iter
      let l ← walkBackFrom h head fuel n
      return iter :: l

/-- `shl_dlist_for_each_reverse(iter, head)`. -/
def walkBack (h : Heap) (head fuel : Nat) : Option (List Nat) := do
  let n ← getPrev h head
  walkBackFrom h head fuel n

/-- `shl_dlist_for_each_safe`, `shl_dlist.h:119-121`, with a loop body that unlinks the
current entry when `drop iter`; from `iter` with `tmp` already loaded.  Returns the heap and
the visited entries. -/
def walkSafeFrom (drop : Nat → Bool) (head : Nat) : Nat → Heap → Nat → Nat → Option (Heap × List Nat)
  | 0, _, _, _ => none
  | fuel + 1, h, iter, tmp =>
    if iter = head then some (h, [])
    else do
      let h ← (if drop iter then unlink h iter else some h)
      let t ← getNext h tmp
      let r ← walkSafeFrom drop head fuel h tmp t
      return (r.1, iter :: r.2)

/-- `shl_dlist_for_each_safe(iter, tmp, head) if (drop(iter)) shl_dlist_unlink(iter);`. -/
def walkSafe (drop : Nat → Bool) (h : Heap) (head fuel : Nat) : Option (Heap × List Nat) := do
  let i ← getNext h head
  let t ← getNext h i
  walkSafeFrom drop head fuel h i t

/-- A call of the API. -/
inductive Op where
  | link (head n : Nat)
  | linkTail (head n : Nat)
  | unlink (e : Nat)
deriving DecidableEq, Repr

/-- One call. -/
def step (h : Heap) : Op → Option Heap
  | .link a n => link h a n
  | .linkTail a n => linkTail h a n
  | .unlink e => unlink h e

/-- A sequence of calls. -/
def run (h : Heap) : List Op → Option Heap
  | [] => some h
  | o :: t => do
    let h ← step h o
    run h t

end Verif.Dlist
