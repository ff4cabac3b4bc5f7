import Verif.Model.Rtsp
/-!
# `rtsp_message_new_from_raw`

`src/shared/rtsp.c:1874-2056`. The text is given with its length; `behind` tells whether the byte behind it may be read (as
it may behind a C string). Memory is never short. The lines handed on are sanitised by `sanitize_line` (C11).
-/
namespace Verif.Rtsp
open Verif.C

/-- Neither CR nor LF: what `rtsp__strncspn(d, len, "\r\n")` runs over, `src/shared/rtsp.c:1874-1886`. -/
def inLine (c : Byte) : Bool := c ≠ 13 ∧ c ≠ 10

/-- The first line of a text and what comes behind its terminator: CR, LF or CR LF. `src/shared/rtsp.c:1996-2007`. -/
def cutLine (d : List Byte) : List Byte × List Byte :=
  (d.takeWhile inLine,
    match d.dropWhile inLine with
    | 13 :: 10 :: t => t
    | _ :: t => t
    | [] => [])

/-- The loop of `rtsp_message_append_body` as it is, `src/shared/rtsp.c:1925-1964`: behind a terminator it looks at the next byte, even if there is
none; whatever it finds, only the one byte of the terminator is skipped. The first argument bounds the number of rounds. -/
def rawBody (mv : Moves) (behind : Bool) : Nat → Msg → List Byte → Option (Int × Msg)
  | 0, m, _ => some (0, m)
  | f + 1, m, d =>
    if d = [] then some (0, m)
    else
      let l := d.takeWhile inLine
      let r := d.dropWhile inLine
      if r.length = 1 ∧ behind = false then none
      else if l = [] then rawBody mv behind f m (r.drop 1)
      else
        let a := appendHeaderLine mv m (Sanitize.Spec.text l)
        if a.1 < 0 then some a else rawBody mv behind f a.2 (r.drop 1)

/-- `rtsp_message_append_body`, `src/shared/rtsp.c:1888-1973`, on a text with nothing known behind it. -/
def rawAppendBody (mv : Moves) (behind : Bool) (m : Msg) (b : List Byte) : Option (Int × Msg) :=
  if b = [] then some (0, m)
  else do
    let ct ← contentType m
    if ct ≠ some (bytes "text/parameters") then some (0, { m with body := some b })
    else
      let r := openBody m
      if r.1 < 0 then some r
      else do
        let r ← rawBody mv behind b.length r.2 b
        if r.1 < 0 then some r else some (closeBody r.2)

/-- The loop over the lines, `src/shared/rtsp.c:1994-2043`; `m` is the message begun, if any. The first argument bounds the number of
rounds. -/
def rawLoop (mv : Moves) (behind : Bool) : Nat → Option Msg → List Byte → Option (Int × Option Msg)
  | 0, m, _ => some (0, m)
  | f + 1, m, d =>
    if d = [] then some (0, m)
    else
      let c := cutLine d
      if c.1 = [] then
        match (match m with | some m => some m | none => fromHead []) with
        | none => some (-EINVAL, none)
        | some m => (rawAppendBody mv behind m c.2).map fun r => (r.1, some r.2)
      else
        match m with
        | none =>
          match fromHead (Sanitize.Spec.text c.1) with
          | none => some (-EINVAL, none)
          | some m => rawLoop mv behind f (some m) c.2
        | some m =>
          let a := appendHeaderLine mv m (Sanitize.Spec.text c.1)
          if a.1 < 0 then some (a.1, some a.2) else rawLoop mv behind f (some a.2) c.2

/-- `rtsp_message_new_from_raw`, `src/shared/rtsp.c:1975-2056`: the return value, the counter of cookies of the bus and the
message given out. `none` is undefined behaviour. -/
def fromRaw (mv : Moves) (behind : Bool) (cookies : Nat) (data : List Byte) : Option (Int × Nat × Option Msg) := do
  let r ← rawLoop mv behind data.length none data
  if r.1 < 0 then some (r.1, cookies, none)
  else
    match r.2 with
    | none => some (-EINVAL, cookies, none)
    | some m => do
      let s ← sealMsg mv cookies m
      if s.1 < 0 then some (s.1, s.2.1, none) else some (0, s.2.1, some s.2.2)

end Verif.Rtsp
