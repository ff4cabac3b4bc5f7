import Verif.C.Libc
/-!
# Model of `reformat_mac`, `src/shared/util.h:137-145`
-/
namespace Verif.Mac
open Verif.C

/-- One `%2hhx` of `sscanf`: skip blanks, then at most two characters making up an optionally signed
hexadecimal number.  A lone "0x" (which uses up the field width) is accepted as zero by some libcs and
rejected by others: `zx` says which.  `none` is a matching or input failure. -/
def scanHex2 (zx : Bool) (s : List Byte) : Option (Byte × List Byte) :=
  let s := s.dropWhile isSpace
  let neg := s.head? = some 45
  let sg := if s.head? = some 45 ∨ s.head? = some 43 then 1 else 0
  let s := s.drop sg
  let width := 2 - sg
  if width = 2 ∧ s.head? = some 48 ∧ (s[1]? = some 120 ∨ s[1]? = some 88) then
    if zx then some (0, s.drop 2) else none
  else
    let ds := (s.take width).takeWhile (isDigit 16)
    if ds = [] then none
    else some ((if neg then (256 - digitsVal 16 ds % 256) else digitsVal 16 ds).toUInt8, s.drop ds.length)

/-- `sscanf(src, "%2hhx:%2hhx:…")`, `src/shared/util.h:141-142`, for the remaining `n` fields; the
variables not assigned keep their initial zero (`src/shared/util.h:139`). -/
def scan (zx : Bool) : Nat → List Byte → List Byte
  | 0, _ => []
  | n + 1, s =>
    match scanHex2 zx s with
    | none => List.replicate (n + 1) 0
    | some (b, s') =>
      b :: (if n = 0 then [] else
        match s' with
        | 58 :: t => scan zx n t
        | _ => List.replicate n 0)

/-- A lower-case hexadecimal digit as printed by `%x`. -/
def hexDigit (n : Nat) : Byte := if n < 10 then (48 + n).toUInt8 else (87 + n).toUInt8

/-- `%02hhx`. -/
def hex2 (b : Byte) : List Byte := [hexDigit (b.toNat / 16), hexDigit (b.toNat % 16)]

/-- The text of `sprintf(dst, "%02hhx:…")`, `src/shared/util.h:143-144`. -/
def format : List Byte → List Byte
  | [] => []
  | [b] => hex2 b
  | b :: t => hex2 b ++ 58 :: format t

/-- `reformat_mac`, `src/shared/util.h:137-145`: the new content of the destination. -/
def reformat (zx : Bool) (dst src : List Byte) : Option (List Byte) :=
  wr dst 0 (format (scan zx 6 src) ++ [0])

end Verif.Mac
