import Verif.Model.HtableMap
/-! # A typed hash table as a finite map from keys to addresses -/
namespace Verif.HtableMap.Spec
open Verif.Htable

/-- The map: the address of the element with a key. -/
abbrev Map (K : Type) := K → Option W

/-- What a call may return. -/
def Allowed {K : Type} (M : Map K) : Call K → Out → Prop
  | .insert mem _ _ _, out => out = .ok true ∨ (mem = false ∧ out = .ok false)
  | .remove k _, out => out = .found (M k)
  | .lookup k _, out => out = .found (M k)
  | _, out => ∃ l, out = .seen l ∧ l.Nodup ∧ ∀ p, p ∈ l ↔ ∃ k, M k = some p

/-- The map after a call that returned `out`. -/
def next {K : Type} [DecidableEq K] (M : Map K) : Call K → Out → Map K
  | .insert _ p k _, .ok true => fun x => if x = k then some p else M x
  | .remove k _, _ => fun x => if x = k then none else M x
  | .clear, _ => fun _ => none
  | _, _ => M

/-- The results of a whole history. -/
def AllAllowed {K : Type} [DecidableEq K] (M : Map K) : List (Call K) → List Out → Prop
  | [], [] => True
  | o :: t, r :: rs => Allowed M o r ∧ AllAllowed (next M o r) t rs
  | _, _ => False

/-- A remembered hash is right: none, unset, or that of the key. -/
def Right {K : Type} (T : Sort' K) (k : K) (c : Option W) : Prop := c = none ∨ c = some 0#64 ∨ c = some (T.hash k)

/-- The caller's side: a new element has a new key and an address that is not in use, with the highest bit `B`
(see C11); remembered hashes belong to the key. -/
def Legal {K : Type} (T : Sort' K) (B : Nat) (M : Map K) : Call K → Prop
  | .insert _ p k c => M k = none ∧ (∀ x, M x ≠ some p) ∧ (2 ^ B ≤ p.toNat ∧ p.toNat < 2 ^ (B + 1)) ∧ Right T k c
  | .remove k c => Right T k c
  | .lookup k c => Right T k c
  | _ => True

/-- The caller, who sees the results, keeps to the rules all along. -/
def LegalRun {K : Type} [DecidableEq K] (T : Sort' K) (B : Nat) : St K → Map K → List (Call K) → Prop
  | _, _, [] => True
  | s, M, o :: t => Legal T B M o ∧ ∀ s' out, step T s o = some (s', out) → LegalRun T B s' (next M o out) t

end Verif.HtableMap.Spec
