import Verif.Model.Mkdir
/-! # Specification of creating directories -/
namespace Verif.Mkdir.Spec
open Verif.C

/-- A file system: the root and the working directory are directories, whatever exists lies in a directory, and a
refusal has an error code of its own (not EEXIST, 17). -/
structure Sound (fs : FS) : Prop where
  root : ∃ m, fs.node [] = some (.dir m)
  up : ∀ q c, fs.node (q ++ [c]) ≠ none → ∃ m, fs.node q = some (.dir m)
  cwd : ∃ m, fs.node fs.cwd = some (.dir m)
  err : ∀ q e, fs.deny q = some e → 0 < e ∧ e ≠ 17

/-- The directory lies below the prefix that must be there already, or is the one that is asked for. -/
def Below (fs : FS) (pre : Option (List Byte)) (l q : Loc) : Prop :=
  match pre with
  | none => True
  | some p => ¬ q <+: fs.loc p ∨ q = l

/-- The path begins with the prefix. -/
def Starts (pre : Option (List Byte)) (path : List Byte) : Prop :=
  match pre with
  | none => True
  | some p => (path.head? = some (ch '/') ↔ p.head? = some (ch '/')) ∧ Str.Spec.comps p <+: Str.Spec.comps path

/-- When the directory can be made: nothing but directories on the way, and what is missing may be made and lies below
the prefix. -/
def Possible (fs : FS) (pre : Option (List Byte)) (path : List Byte) : Prop :=
  path ≠ [] ∧ Starts pre path ∧
  ∀ q, q <+: fs.loc path → fs.node q ≠ some .file ∧
    (fs.node q = none → fs.deny q = none ∧ Below fs pre (fs.loc path) q)

/-- The new file system: the missing directories of the way are there with the mode, all else is as it was. -/
def Added (fs fs' : FS) (l : Loc) (mode : Nat) : Prop :=
  fs'.cwd = fs.cwd ∧ fs'.deny = fs.deny ∧
  ∀ q, (q <+: l ∧ fs.node q = none → fs'.node q = some (.dir mode)) ∧
    (¬ (q <+: l ∧ fs.node q = none) → fs'.node q = fs.node q)

/-- After a failure: some of the missing parents may be there, below the prefix; all else is as it was. -/
def Some (fs fs' : FS) (pre : Option (List Byte)) (l : Loc) (mode : Nat) : Prop :=
  fs'.cwd = fs.cwd ∧ fs'.deny = fs.deny ∧
  ∀ q, fs'.node q = fs.node q ∨
    (q <+: l ∧ q ≠ l ∧ fs.node q = none ∧ fs.deny q = none ∧ Below fs pre l q ∧ fs'.node q = some (.dir mode))

end Verif.Mkdir.Spec
