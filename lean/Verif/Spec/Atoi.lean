import Verif.C.Basic
/-!
# Specification of integer parsing

Positional notation, written down without reference to the implementation.
-/
namespace Verif.Atoi.Spec
open Verif.C

/-- The alphabet of digits: position = value; letters count in both cases. -/
def lower : List Byte := bytes "0123456789abcdefghijklmnopqrstuvwxyz"
def upper : List Byte := bytes "0123456789ABCDEFGHIJKLMNOPQRSTUVWXYZ"

/-- Value of a digit character in base `b`, if it is one. -/
def digit (b : Nat) (c : Byte) : Option Nat :=
  ((List.range b).find? fun v => lower[v]? = some c ∨ upper[v]? = some c)

/-- The base to use and the length of the prefix to skip: `0` followed by an octal
digit means octal, `0x` followed by a hex digit means hexadecimal, else decimal. -/
def base0 (s : List Byte) : Nat × Nat :=
  if s[0]? = some (ch '0') ∧ (s[1]?.bind (digit 8)).isSome then (1, 8)
  else if s[0]? = some (ch '0') ∧ s[1]? = some (ch 'x') ∧ (s[2]?.bind (digit 16)).isSome then (2, 16)
  else (0, 10)

/-- (prefix length, effective base) for a requested base. -/
def effBase (s : List Byte) (base : Nat) : Nat × Nat :=
  if base = 0 then base0 s else (0, base)

/-- The longest prefix of digits, as digit values. -/
def digits (b : Nat) : List Byte → List Nat
  | [] => []
  | c :: t => match digit b c with
    | some v => v :: digits b t
    | none => []

/-- Positional value of a digit string, most significant first. -/
def value (b : Nat) (ds : List Nat) : Nat := ds.foldl (fun acc d => acc * b + d) 0

/-- The number written at the start of `s`. -/
def number (s : List Byte) (base : Nat) : Nat :=
  let (skip, b) := effBase s base
  value b (digits b (s.drop skip))

/-- Where the number written at the start of `s` ends. -/
def stop (s : List Byte) (base : Nat) : Nat :=
  let (skip, b) := effBase s base
  skip + (digits b (s.drop skip)).length

/-- The last digit of the number (0 if there is none). -/
def lastDigit (s : List Byte) (base : Nat) : Nat :=
  let (skip, b) := effBase s base
  ((digits b (s.drop skip)).getLast?).getD 0

end Verif.Atoi.Spec
