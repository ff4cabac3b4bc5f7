import Verif.Model.Cli
/-! # Specification of the command line -/
namespace Verif.Cli
open Verif.C

/-- May a command be used here (`rl`: at the prompt)? -/
def usable {σ : Type} (rl : Bool) (c : Cmd σ) : Prop := (c.cli = .no → rl = false) ∧ (c.cli = .yes → rl = true)

instance {σ : Type} (rl : Bool) (c : Cmd σ) : Decidable (usable rl c) := by unfold usable; infer_instance

/-- Does the number of arguments satisfy what the command declares? -/
def legal {σ : Type} (c : Cmd σ) (n : Nat) : Prop :=
  match c.cmp with
  | .equal => (n : Int) = c.argc
  | .more => c.argc ≤ (n : Int)
  | .less => (n : Int) ≤ c.argc

instance {σ : Type} (c : Cmd σ) (n : Nat) : Decidable (legal c n) := by unfold legal; split <;> infer_instance

/-- What is printed otherwise. -/
def complaint {σ : Type} (c : Cmd σ) : List Byte :=
  match c.cmp with
  | .equal => bytes "Invalid number of arguments\n"
  | .more => bytes "too few arguments\n"
  | .less => bytes "too many arguments\n"

/-- The command a name stands for: the first usable one of that name. -/
def chosen {σ : Type} (rl : Bool) (cmds : List (Cmd σ)) (name : List Byte) : Option (Cmd σ) :=
  cmds.find? (fun c => decide (name = c.cmd ∧ usable rl c))

/-- What the help shows. -/
def shownIn {σ : Type} (rl : Bool) (cmds : List (Cmd σ)) : List (Cmd σ) :=
  cmds.filter (fun c => decide (c.desc ≠ none ∧ usable rl c))

/-- Cut at every blank. -/
def fields : List Byte → List (List Byte)
  | [] => [[]]
  | c :: rest =>
    if c = ch ' ' then [] :: fields rest
    else match fields rest with
      | [] => [[c]]
      | f :: fs => (c :: f) :: fs

/-- The words of a line that are complete, that is followed by a blank. -/
def closed (line : List Byte) : List (List Byte) := (fields line).dropLast.filter (· ≠ [])

end Verif.Cli
