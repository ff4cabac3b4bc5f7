import Verif.C.Basic
/-! # Specification of the quoted-string language

Words are separated by blanks.  A backslash protects the next byte, single or double quotes
protect everything up to the matching quote.  In a word the quotes are removed and escape
sequences replaced; an unknown escape sequence stands for itself; NUL bytes are dropped. -/
namespace Verif.Qstr.Spec
open Verif.C

/-- The meaning of `\c`, for the known escape sequences. -/
def escapes : List (Byte × Byte) :=
  [(ch 'a', 7), (ch 'b', 8), (ch 'f', 12), (ch 'n', 10), (ch 'r', 13), (ch 't', 9), (ch 'v', 11),
   (ch '"', ch '"'), (ch '\'', ch '\''), (ch '\\', ch '\\')]

/-- What `\c` stands for. -/
def escaped (c : Byte) : List Byte :=
  match escapes.lookup c with
  | some u => [u]
  | none => if c = 0 then [] else [ch '\\', c]

/-- The value of (the rest of) a word; `q` is the open quote, if any. -/
def value : Option Byte → List Byte → List Byte
  | _, [] => []
  | q, c :: rest =>
    if c = ch '\\' then
      match rest with
      | [] => [ch '\\']
      | d :: rest' => escaped d ++ value q rest'
    else if q = some c then value none rest
    else if q = none ∧ (c = ch '"' ∨ c = ch '\'') then value (some c) rest
    else if c = 0 then value q rest
    else c :: value q rest

/-- Cut a line into raw words at unprotected blanks; `cur` is the word being collected. -/
def words : Option Byte → List Byte → List Byte → List (List Byte)
  | _, cur, [] => if cur = [] then [] else [cur]
  | q, cur, c :: rest =>
    if c = ch '\\' then
      match rest with
      | [] => [cur ++ [c]]
      | d :: rest' => words q (cur ++ [c, d]) rest'
    else if q = some c then words none (cur ++ [c]) rest
    else if q = none ∧ (c = ch '"' ∨ c = ch '\'') then words (some c) (cur ++ [c]) rest
    else if q = none ∧ c = ch ' ' then
      if cur = [] then words none [] rest else cur :: words none [] rest
    else words q (cur ++ [c]) rest

/-- The tokens of a line. -/
def tokens (line : List Byte) : List (List Byte) := (words none [] line).map (value none)

end Verif.Qstr.Spec
