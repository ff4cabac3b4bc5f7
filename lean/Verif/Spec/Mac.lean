import Verif.C.Basic
/-!
# Specification of MAC address text
-/
namespace Verif.Mac.Spec
open Verif.C

/-- Lower-case hexadecimal digits; the value of a digit is its position. -/
def lower : List Byte := bytes "0123456789abcdef"

/-- Upper-case hexadecimal digits. -/
def upper : List Byte := bytes "0123456789ABCDEF"

/-- `c` writes the digit `v`, in either case. -/
def Digit (c : Byte) (v : Nat) : Prop := lower[v]? = some c ∨ upper[v]? = some c

/-- `s` writes the byte `b` with one or two digits. -/
def Writes (s : List Byte) (b : Byte) : Prop :=
  (∃ c, s = [c] ∧ Digit c b.toNat) ∨ (∃ c d h l, s = [c, d] ∧ Digit c h ∧ Digit d l ∧ b.toNat = h * 16 + l)

/-- Fields joined with colons. -/
def join : List (List Byte) → List Byte
  | [] => []
  | [s] => s
  | s :: t => s ++ 58 :: join t

/-- The canonical text: two lower-case digits per byte. -/
def IsCanon (s : List Byte) (bs : List Byte) : Prop :=
  bs.length = 6 ∧ ∃ fs : List (List Byte), s = join fs ∧ fs.length = 6 ∧
    ∀ (i : Nat) (f : List Byte) (b : Byte), fs[i]? = some f → bs[i]? = some b → ∃ c d, f = [c, d] ∧ lower[b.toNat / 16]? = some c ∧ lower[b.toNat % 16]? = some d

/-- Fields that write the bytes of an address, in order. -/
inductive WritesAll : List (List Byte) → List Byte → Prop
  | nil : WritesAll [] []
  | cons {s b fs bs} : Writes s b → WritesAll fs bs → WritesAll (s :: fs) (b :: bs)

end Verif.Mac.Spec
