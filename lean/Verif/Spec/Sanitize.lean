import Verif.C.Basic
/-!
# Specification of a sanitised line

A line is a sequence of words separated by white space (blank, tab, CR, LF) outside of double quotes.
Inside of double quotes a backslash protects the next byte. NUL bytes do not count, except that
a NUL protected by a backslash is a `0`. The sanitised line has the words separated by single blanks.
-/
namespace Verif.Sanitize.Spec
open Verif.C

/-- Where we are in a line. -/
inductive Mode
  | plain
  | quoted
  | escaped
  deriving DecidableEq, Repr

/-- The mode behind a byte. -/
def next : Mode → Byte → Mode
  | .plain, c => if c = ch '"' then .quoted else .plain
  | .quoted, c => if c = ch '"' then .plain else if c = ch '\\' then .escaped else .quoted
  | .escaped, _ => .quoted

/-- The mode at the end of a line. -/
def endMode (m : Mode) (l : List Byte) : Mode := l.foldl next m

/-- White space. -/
def white (c : Byte) : Bool := c = ch ' ' || c = 9 || c = 10 || c = 13

/-- What a byte contributes to a word. -/
def keep (m : Mode) (c : Byte) : List Byte :=
  if c = 0 then (if m = .escaped then [ch '0'] else []) else [c]

/-- The words of a line; `cur` is the word being collected. -/
def words : Mode → List Byte → List Byte → List (List Byte)
  | _, cur, [] => if cur = [] then [] else [cur]
  | m, cur, c :: t =>
    if m = .plain ∧ white c = true then (if cur = [] then [] else [cur]) ++ words m [] t
    else words (next m c) (cur ++ keep m c) t

/-- Words separated by single blanks. -/
def joined : List (List Byte) → List Byte
  | [] => []
  | [w] => w
  | w :: t => w ++ ch ' ' :: joined t

/-- The sanitised line. -/
def text (l : List Byte) : List Byte := joined (words .plain [] l)

/-- Outside of quotes `l` has no CR, LF or tab and no two successive blanks; `b` says whether a blank
would be a repetition. -/
def Tidy : Mode → Bool → List Byte → Prop
  | _, _, [] => True
  | m, b, c :: t =>
    (m = .plain → c ≠ 13 ∧ c ≠ 10 ∧ c ≠ 9 ∧ (c = ch ' ' → b = false)) ∧
    Tidy (next m c) (m = .plain ∧ c = ch ' ') t

end Verif.Sanitize.Spec
