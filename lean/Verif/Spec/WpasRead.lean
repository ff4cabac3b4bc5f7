import Verif.Model.Wpas
/-! # Specification of reading the arguments of a message -/
namespace Verif.Wpas.Spec
open Verif.C

/-- What a user does with the arguments of a message. -/
inductive Use
  | read (ty : Ty)
  | skip (ty : Ty)
  | rewind
  deriving DecidableEq, Repr

/-- The arguments of a message: what follows the name. -/
def args (m : Msg) : List (List Byte) :=
  match m.name with
  | some _ => m.argv.tail
  | none => m.argv

/-- Use a message; `none` = undefined behaviour. -/
def use (m : Msg) : List Use → Option Msg
  | [] => some m
  | .read ty :: t => do
    let r ← readBasic m ty
    use r.2.1 t
  | .skip ty :: t => do
    let r ← skipBasic m ty
    use r.2 t
  | .rewind :: t => use (Wpas.rewind m) t

/-- The number of arguments consumed since the last rewind. -/
def cursor (as : List (List Byte)) : Nat → List Use → Nat
  | n, [] => n
  | _, .rewind :: t => cursor as 0 t
  | n, .read ty :: t =>
    cursor as (match as[n]? with
      | some a => if (convert a ty).bind (fun v => v) |>.isSome then n + 1 else n
      | none => n) t
  | n, .skip ty :: t =>
    cursor as (match as[n]? with
      | some a => if (convert a ty).bind (fun v => v) |>.isSome then n + 1 else n
      | none => n) t

end Verif.Wpas.Spec
