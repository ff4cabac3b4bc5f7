import Verif.Model.Rtsp
/-!
# Model of reading a sealed message, `src/shared/rtsp.c:1469-1654`

`none` is undefined behaviour: a dangling `iter_header`, or a number in a token that does not fit into 32 bits (`sscanf`).
-/
namespace Verif.Rtsp
open Verif.C

/-- One character of the format of `rtsp_message_read`, `src/shared/rtsp.h:45-54`; `other` is any other character. -/
inductive Rd
  | raw
  | str
  | i32
  | u32
  | hex
  | skip
  | headerStart (name : List Byte)
  | headerEnd
  | bodyStart
  | bodyEnd
  | other
  deriving DecidableEq, Repr

/-- What is stored through one pointer argument. -/
inductive Val
  | text (s : List Byte)
  | int (i : Int)
  | nat (n : Nat)
  deriving DecidableEq, Repr

/-- `sscanf(s, "%x", &v)` with a 32 bit `v`: no match (`some none`) or the value; undefined if the value `strtoul` returns is not
representable. -/
def sscanfX (s : List Byte) : Option (Option Nat) :=
  let r := strtoul 16 s
  if r.2.1 = 0 then some none
  else if W32 ≤ r.1 then none else some (some r.1)

/-- The part of `rtsp_message_readv_basic` that looks at the next token, `src/shared/rtsp.c:1521-1571`. -/
def readTok (m : Msg) (t : Rd) : Option (Int × Msg × List Val) :=
  if m.iterHeader = none then some (-EINVAL, m, [])
  else do
    let h ← getIter m
    match h.tokens[m.iterToken]? with
    | none => some (-ENOENT, m, [])
    | some e =>
      let next := { m with iterToken := m.iterToken + 1 }
      match t with
      | .str => some (0, next, [.text e])
      | .i32 => (sscanfD e).map fun r => match r with
        | none => (-EINVAL, m, [])
        | some i => (0, next, [.int i])
      | .u32 => (sscanfU e).map fun r => match r with
        | none => (-EINVAL, m, [])
        | some n => (0, next, [.nat n])
      | .hex => (sscanfX e).map fun r => match r with
        | none => (-EINVAL, m, [])
        | some n => (0, next, [.nat n])
      | .skip => some (0, next, [])
      | _ => some (-EINVAL, m, [])

/-- `rtsp_message_readv_basic`, `src/shared/rtsp.c:1483-1572`: return value, message and what was stored. -/
def readBasic (m : Msg) (t : Rd) : Option (Int × Msg × List Val) :=
  if m.type = .data then some (-EINVAL, m, [])
  else if m.isSealed = false then some (-EBUSY, m, [])
  else match t with
    | .raw =>
      if m.iterHeader = none then some (-EINVAL, m, [])
      else do
        let h ← getIter m
        some (0, m, [.text (h.value.getD [])])
    | .headerStart name => some ((enterHeader m name).1, (enterHeader m name).2, [])
    | .headerEnd => some (0, exitHeader m, [])
    | .bodyStart => some ((enterBody m).1, (enterBody m).2, [])
    | .bodyEnd => some (0, exitBody m, [])
    | t => readTok m t

/-- Leave body and header after a failure, `src/shared/rtsp.c:1604-1607`. -/
def leave (m : Msg) : Msg :=
  let m := if m.iterBody then exitBody m else m
  if m.iterHeader ≠ none then exitHeader m else m

/-- The loop of `rtsp_message_readv`, `src/shared/rtsp.c:1601-1610`. -/
def readLoop (m : Msg) : List Rd → Option (Int × Msg × List Val)
  | [] => some (0, m, [])
  | t :: ts => do
    let r ← readBasic m t
    if r.1 < 0 then some (r.1, leave r.2.1, r.2.2)
    else do
      let q ← readLoop r.2.1 ts
      some (q.1, q.2.1, r.2.2 ++ q.2.2)

/-- `rtsp_message_read`, `src/shared/rtsp.c:1574-1613`. -/
def read (m : Msg) (ts : List Rd) : Option (Int × Msg × List Val) :=
  if m.type = .data then some (-EINVAL, m, [])
  else if m.isSealed = false then some (-EBUSY, m, [])
  else readLoop m ts

/-- The names of headers are NULL pointers in `rtsp_message_skip_basic`, `src/shared/rtsp.c:1615-1618`; `shl_isempty` takes NULL for an
empty name. -/
def nameless : Rd → Rd
  | .headerStart _ => .headerStart []
  | t => t

/-- The loop of `rtsp_message_skip`, `src/shared/rtsp.c:1631-1635`. -/
def skipLoop (m : Msg) : List Rd → Option (Int × Msg)
  | [] => some (0, m)
  | t :: ts => do
    let r ← readBasic m (nameless t)
    if r.1 < 0 then some (r.1, r.2.1) else skipLoop r.2.1 ts

/-- `rtsp_message_skip`, `src/shared/rtsp.c:1620-1638`. -/
def skip (m : Msg) (ts : List Rd) : Option (Int × Msg) :=
  if m.type = .data then some (-EINVAL, m)
  else if m.isSealed = false then some (-EBUSY, m)
  else skipLoop m ts

/-- `rtsp_message_rewind`, `src/shared/rtsp.c:1640-1654`. -/
def rewind (m : Msg) (complete : Bool) : Int × Msg :=
  if m.type = .data then (-EINVAL, m)
  else if m.isSealed = false then (-EBUSY, m)
  else (0, { m with iterToken := 0, iterBody := if complete then false else m.iterBody, iterHeader := if complete then none else m.iterHeader })

end Verif.Rtsp
