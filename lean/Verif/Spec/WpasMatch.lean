import Verif.Model.WpasMatch
/-! # Specification of match callbacks -/
namespace Verif.WpasMatch.Spec

/-- The keys of the matches registered. -/
def keys (r : Reg) : List Nat := r.list.map (·.key)

/-- The keys added by a sequence of changes. -/
def added (ops : List MOp) : List Nat :=
  ops.filterMap (fun o => match o with
    | .add k => some k
    | .remove _ => none)

/-- The keys removed by a sequence of changes. -/
def gone (ops : List MOp) : List Nat :=
  ops.filterMap (fun o => match o with
    | .remove k => some k
    | .add _ => none)

/-- The keys left when for each key in `g` the last one is taken out. -/
def survivors (g : List Nat) : List Nat → List Nat
  | [] => []
  | k :: t => if k ∈ g ∧ k ∉ t then survivors g t else k :: survivors g t

/-- Everything the callbacks do. -/
def allOps (b : List (List MOp × Int)) : List MOp := b.flatMap (·.1)

end Verif.WpasMatch.Spec
