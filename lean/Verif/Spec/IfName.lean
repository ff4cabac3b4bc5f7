import Verif.Model.IfName
/-! # Specification: interfaces by name -/
namespace Verif.IfName.Spec
open Verif.C

/-- A name Linux gives to interfaces (`dev_valid_name`): 1 to 15 bytes, no zero byte, no colon. -/
def Valid (n : List Byte) : Prop := n ≠ [] ∧ n.length ≤ 15 ∧ 0 ∉ n ∧ ch ':' ∉ n

/-- A machine: valid names, each once, with positive numbers. -/
structure Machine (t : Table) : Prop where
  valid : ∀ e ∈ t, Valid e.1
  once : ∀ e ∈ t, ∀ f ∈ t, e.1 = f.1 → e = f
  pos : ∀ e ∈ t, 0 < e.2

/-- The interface of this name has this number. -/
def Has (t : Table) (n : List Byte) (i : Nat) : Prop := (n, i) ∈ t

end Verif.IfName.Spec
