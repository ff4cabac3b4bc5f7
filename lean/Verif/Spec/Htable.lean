import Verif.Model.Htable
/-! # The hash table as a bag of pointers -/
namespace Verif.Htable.Spec
open Verif.Htable

/-- What one call may return on a bag `s`, and the bag afterwards. -/
inductive Step : List W → Op → Out → List W → Prop
  | inserted {s mem p} : Step s (.insert mem p) (.ok true) (p :: s)
  | oom {s p} : Step s (.insert false p) (.ok false) s
  | removed {s cmp h c} : c ∈ s → cmp c = true → Step s (.remove cmp h) (.found (some c)) (s.erase c)
  | notRemoved {s cmp h} : (∀ c ∈ s, cmp c = false) → Step s (.remove cmp h) (.found none) s
  | found {s cmp h c} : c ∈ s → cmp c = true → Step s (.lookup cmp h) (.found (some c)) s
  | notFound {s cmp h} : (∀ c ∈ s, cmp c = false) → Step s (.lookup cmp h) (.found none) s
  | iterate {s l} : l.Perm s → Step s .iterate (.seen l) s
  | visit {s l} : l.Perm s → Step s .visit (.seen l) s
  | clear {s l} : l.Perm s → Step s .clear (.seen l) []

/-- A whole history. -/
inductive Steps : List W → List Op → List Out → List W → Prop
  | nil {s} : Steps s [] [] s
  | cons {s o r s' t rs s''} : Step s o r s' → Steps s' t rs s'' → Steps s (o :: t) (r :: rs) s''

/-- The caller's side of the contract: elements are not NULL; a lookup passes a hash that agrees
with the hash of every element its compare function accepts. -/
def Lawful (rehash : W → W) : Op → Prop
  | .insert _ p => p ≠ 0#64
  | .remove cmp h => ∀ c, cmp c = true → rehash c = h
  | .lookup cmp h => ∀ c, cmp c = true → rehash c = h
  | _ => True

/-- Pointers whose highest set bit is bit `K`. -/
def TopBit (K : Nat) : Op → Prop
  | .insert _ p => 2 ^ K ≤ p.toNat ∧ p.toNat < 2 ^ (K + 1)
  | _ => True

end Verif.Htable.Spec
