import Verif.C.Basic
/-! # Specification of string splitting -/
namespace Verif.Str.Spec
open Verif.C

/-- Cut a string at every separator (keeping empty pieces). -/
def pieces (sep : Byte → Bool) : List Byte → List (List Byte)
  | [] => [[]]
  | c :: t =>
    if sep c then [] :: pieces sep t
    else match pieces sep t with
      | p :: ps => (c :: p) :: ps
      | [] => [[c]]

/-- The non-empty pieces, i.e. the maximal runs of non-separators. -/
def tokens (sep : Byte → Bool) (s : List Byte) : List (List Byte) :=
  (pieces sep s).filter (· ≠ [])

/-- The components of a path. -/
def comps (p : List Byte) : List (List Byte) := tokens (· = ch '/') p

/-- Is the path absolute? -/
def absolute (p : List Byte) : Prop := p.head? = some (ch '/')

end Verif.Str.Spec
