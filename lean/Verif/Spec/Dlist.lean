import Verif.Model.Dlist
/-! # Ideal lists: each list head owns a sequence of entries -/
namespace Verif.Dlist.Spec
open Verif.Dlist

/-- The sequences, by list head. -/
abbrev Lists := Nat → List Nat

/-- Is `e` in one of the lists `heads`? -/
def isLinked (heads : List Nat) (s : Lists) (e : Nat) : Prop := ∃ a ∈ heads, e ∈ s a

/-- The effect of a call on the ideal lists. -/
def step (s : Lists) : Op → Lists
  | .link a n => fun b => if b = a then n :: s b else s b
  | .linkTail a n => fun b => if b = a then s b ++ [n] else s b
  | .unlink e => fun b => (s b).filter (· ≠ e)

/-- Several calls. -/
def run (s : Lists) (ops : List Op) : Lists := ops.foldl step s

/-- A call that respects the contract: only known heads are used as heads, only entries
(not heads, not NULL) are linked and unlinked, and only unlinked entries are linked. -/
def Allowed (heads : List Nat) (s : Lists) : Op → Prop
  | .link a n => a ∈ heads ∧ n ∉ heads ∧ n ≠ 0 ∧ ¬ isLinked heads s n
  | .linkTail a n => a ∈ heads ∧ n ∉ heads ∧ n ≠ 0 ∧ ¬ isLinked heads s n
  | .unlink e => e ∉ heads ∧ e ≠ 0

/-- Every call of a sequence is allowed when it is made. -/
def AllAllowed (heads : List Nat) : Lists → List Op → Prop
  | _, [] => True
  | s, o :: t => Allowed heads s o ∧ AllAllowed heads (step s o) t

/-- Heads just initialised (`SHL_DLIST_INIT`/`shl_dlist_init`), every other node zeroed. -/
def Fresh (heads : List Nat) (h : Heap) : Prop :=
  0 ∉ heads ∧ (∀ a ∈ heads, h a = ⟨a, a⟩) ∧ ∀ x, x ∉ heads → h x = ⟨0, 0⟩

end Verif.Dlist.Spec
