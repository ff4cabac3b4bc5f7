import Verif.C.Basic
/-! # Messages of the user input back channel, and text -/
namespace Verif.Uibc.Spec
open Verif.C

/-- The fields of a text with delimiter `d`. -/
def fields (d : Byte) : List Byte → List (List Byte)
  | [] => [[]]
  | c :: t =>
    if c = d then [] :: fields d t
    else match fields d t with
      | [] => [[c]]
      | f :: fs => (c :: f) :: fs

/-- Fields written with the delimiter between them. -/
def join (d : Byte) : List (List Byte) → List Byte
  | [] => []
  | [f] => f
  | f :: g :: fs => f ++ [d] ++ join d (g :: fs)

/-- A 16 bit number, most significant byte first. -/
def u16 (v : Int) : List Byte := [UInt8.ofNat (v / 256 % 256).toNat, UInt8.ofNat (v % 256).toNat]
/-- An 8 bit number. -/
def u8 (v : Int) : List Byte := [UInt8.ofNat (v % 256).toNat]

/-- A message: header with the length of everything, and the body padded to an even length. -/
def message (body : List Byte) : List Byte :=
  let b := if body.length % 2 = 0 then body else body ++ [0]
  [0, 0] ++ u16 (b.length + 4) ++ b

/-- The body of a touch event: type, length, the number of pointers, and for each its number and position. -/
def touchBody (ty : Int) (ps : List (Int × Int × Int)) : List Byte :=
  let d := u8 ps.length ++ (ps.map fun p => u8 p.1 ++ u16 p.2.1 ++ u16 p.2.2).flatten
  u8 ty ++ u16 d.length ++ d

/-- The body of a key event: type, length, a reserved byte, and two key codes. -/
def keyBody (ty k1 k2 : Int) : List Byte :=
  let d := [0] ++ u16 k1 ++ u16 k2
  u8 ty ++ u16 d.length ++ d

/-- The value of a hexadecimal digit. -/
def hexOf (c : Byte) : Option Nat :=
  if 48 ≤ c.toNat ∧ c.toNat ≤ 57 then some (c.toNat - 48)
  else if 97 ≤ c.toNat ∧ c.toNat ≤ 102 then some (c.toNat - 97 + 10)
  else if 65 ≤ c.toNat ∧ c.toNat ≤ 70 then some (c.toNat - 65 + 10)
  else none

/-- The value of hexadecimal digits. -/
def hexVal (ds : List Byte) : Nat := ds.foldl (fun a c => a * 16 + (hexOf c).getD 0) 0

/-- The lines of a text, with their newlines. -/
def lines : List Byte → List (List Byte)
  | [] => []
  | c :: t =>
    if c = 10 then [c] :: lines t
    else match lines t with
      | [] => [[c]]
      | l :: ls => (c :: l) :: ls

end Verif.Uibc.Spec
