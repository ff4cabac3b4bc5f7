import Verif.Model.RtspRead
import Verif.Model.Mac
/-!
# What reading from a message should give
-/
namespace Verif.Rtsp.Spec
open Verif.C

/-- What to do with one token. -/
inductive Conv
  | str
  | i32
  | u32
  | hex
  | skip
  deriving DecidableEq, Repr

/-- The format character. -/
def Conv.rd : Conv → Rd
  | .str => .str
  | .i32 => .i32
  | .u32 => .u32
  | .hex => .hex
  | .skip => .skip

/-- The value of one token; the outer `none` is a number out of range, the inner one no number. -/
def Conv.value : Conv → List Byte → Option (Option (List Val))
  | .str, e => some (some [.text e])
  | .i32, e => (sscanfD e).map fun r => r.map fun i => [.int i]
  | .u32, e => (sscanfU e).map fun r => r.map fun n => [.nat n]
  | .hex, e => (sscanfX e).map fun r => r.map fun n => [.nat n]
  | .skip, _ => some (some [])

/-- The values of the tokens of a line, one after the other: the return value and what is stored. -/
def values : List Conv → List (List Byte) → Option (Int × List Val)
  | [], _ => some (0, [])
  | _ :: _, [] => some (-ENOENT, [])
  | c :: cs, e :: es =>
    match c.value e with
    | none => none
    | some none => some (-EINVAL, [])
    | some (some v) =>
      match values cs es with
      | none => none
      | some r => some (r.1, v ++ r.2)

/-- The first line with a name, in any case. -/
def named (hs : List Header) (name : List Byte) : Option Header := hs.find? fun h => caseEq h.key name

/-- Reading the line `name` of a list of lines. -/
def line (hs : List Header) (name : List Byte) (cs : List Conv) : Option (Int × List Val) :=
  match named hs name with
  | none => some (-ENOENT, [])
  | some h => values cs h.tokens

/-- Nothing is entered. -/
def AtRest (m : Msg) : Prop := m.isSealed = true ∧ m.type ≠ .data ∧ m.iterBody = false ∧ m.iterHeader = none

/-- The same message except for the position in it. -/
def SameText (a b : Msg) : Prop := { a with iterBody := false, iterHeader := none, iterToken := 0 } = { b with iterBody := false, iterHeader := none, iterToken := 0 }

/-- Calls that read. -/
inductive Look2
  | read (ts : List Rd)
  | skip (ts : List Rd)
  | basic (t : Rd)
  | rewind (complete : Bool)
  deriving DecidableEq, Repr

/-- The message after a call that reads, with the return value. -/
def lookAt (m : Msg) : Look2 → Option (Int × Msg)
  | .read ts => (Rtsp.read m ts).map fun r => (r.1, r.2.1)
  | .skip ts => Rtsp.skip m ts
  | .basic t => (readBasic m t).map fun r => (r.1, r.2.1)
  | .rewind c => some (Rtsp.rewind m c)

/-- A sequence of calls that read: the message after it. -/
def looks : Msg → List Look2 → Option Msg
  | m, [] => some m
  | m, l :: ls => (lookAt m l).bind fun r => looks r.2 ls

/-- Whether a call may convert a number. -/
def hasNumber : List Rd → Bool := fun ts => ts.any fun t => t = .i32 ∨ t = .u32 ∨ t = .hex

/-- The hexadecimal digits of a number below 2^32, eight of them: `printf("%08x")`. -/
def hex8 (n : Nat) : List Byte := ((List.range 8).map fun i => Mac.hexDigit (n / 16 ^ (7 - i) % 16))

end Verif.Rtsp.Spec
