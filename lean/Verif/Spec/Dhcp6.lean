import Verif.C.Basic
/-!
# Specification of DHCPv6 option lists (RFC 8415 §21.1)
-/
namespace Verif.Dhcp6.Spec
open Verif.C

/-- An option: a 16-bit code and data. -/
structure Opt where
  code : Nat
  data : List Byte

/-- The code fits 16 bits; the data is short enough for the 16-bit length arithmetic of a receiver
(a UDP packet cannot be longer anyway). -/
def Opt.Ok (o : Opt) : Prop := o.code < 65536 ∧ o.data.length < 65532

/-- Wire format: code, length (both big-endian), data. -/
def Opt.bytes (o : Opt) : List Byte :=
  [(o.code / 256).toUInt8, (o.code % 256).toUInt8, (o.data.length / 256).toUInt8, (o.data.length % 256).toUInt8] ++ o.data

def enc : List Opt → List Byte
  | [] => []
  | o :: t => o.bytes ++ enc t

/-- Offset of the data and data of the last option with the code, the first option being at `pos`. -/
def last (code : Nat) : (pos : Nat) → List Opt → Option (Nat × List Byte)
  | _, [] => none
  | pos, o :: t =>
    match last code (pos + o.bytes.length) t with
    | some r => some r
    | none => if o.code = code then some (pos + 4, o.data) else none

/-- Number of options with the code. -/
def count (code : Nat) (os : List Opt) : Nat := (os.filter (fun o => o.code = code)).length

end Verif.Dhcp6.Spec
