import Verif.C.Basic
import Verif.C.Libc
/-!
# The user input back channel tool

Model of `src/uibc/miracle-uibcctl.c`. `malloc`, `strdup` and `asprintf` are assumed to succeed, except for sizes that no
object can have. The debug output (`binarydump`, `int2binary`) is left out: it reads the packet once more and writes to
buffers of its own, which have 65 bytes for ten characters.
-/
namespace Verif.Uibc
open Verif.C

/-- The delimiter, `","` at all calls. -/
def comma : Byte := ch ','

/-- The first loop of `str_split`, `src/uibc/miracle-uibcctl.c:601-607`: the number of delimiters and the position of the last. -/
def scan : List Byte → Nat → Nat × Option Nat → Nat × Option Nat
  | [], _, r => r
  | c :: t, i, (n, l) => if c = comma then scan t (i + 1) (n + 1, some i) else scan t (i + 1) (n, l)

/-- The number of cells allocated by `str_split`, `src/uibc/miracle-uibcctl.c:609-614`. Pointers are compared as addresses, a null
pointer is less than all others. -/
def cells (s : List Byte) : Nat :=
  let r := scan s 0 (0, none)
  r.1 + match r.2 with
    | none => 1
    | some i => if i + 1 < s.length then 1 else 0

/-- `strsep` with one delimiter: the token and what remains. -/
def strsep (s : List Byte) : List Byte × Option (List Byte) :=
  match s.dropWhile (· ≠ comma) with
  | [] => (s, none)
  | _ :: r => (s.takeWhile (· ≠ comma), some r)

/-- The second loop of `str_split`, `src/uibc/miracle-uibcctl.c:619-621`; the first argument bounds the number of rounds, `room` is the
number of cells, `a` the cells written so far. -/
def fill : Nat → Nat → Option (List Byte) → List (List Byte) → Option (List (List Byte))
  | _, _, none, a => some a
  | 0, _, some _, _ => none
  | f + 1, room, some tmp, a => if a.length < room then fill f room (strsep tmp).2 (a ++ [(strsep tmp).1]) else none

/-- `str_split`, `src/uibc/miracle-uibcctl.c:591-624`: the cells; undefined if it writes behind them. -/
def strSplit (s : List Byte) : Option (List (List Byte)) := fill (s.length + 1) (cells s) (some s) []

/-- Signed 32 bit arithmetic, undefined on overflow. -/
def int32 (v : Int) : Option Int := if v < -2147483648 ∨ v > 2147483647 then none else some v

/-- `v & 0xFF` of an `int`. -/
def lo (v : Int) : Byte := UInt8.ofNat (v % 256).toNat
/-- `(v >> 8) & 0xFF` of an `int`. -/
def hi (v : Int) : Byte := UInt8.ofNat (v / 256 % 256).toNat

/-- The loop over the pointers, `src/uibc/miracle-uibcctl.c:214-232`, with both ratios 1 as in the only call (`src/uibc/miracle-uibcctl.c:67`): `k` more
rounds, `i` is the number of the next pointer. -/
def pointers (toks : List (List Byte)) : Nat → Nat → List Byte → Option (List Byte)
  | 0, _, b => some b
  | k + 1, i, b => do
    let p ← atoi (← toks[2 + i * 3]?)
    let b ← wr b (8 + i * 5) [lo p]
    let x ← atoi (← toks[2 + i * 3 + 1]?)
    let b ← wr b (8 + i * 5 + 1) [hi x, lo x]
    let y ← atoi (← toks[2 + i * 3 + 2]?)
    let b ← wr b (8 + i * 5 + 3) [hi y, lo y]
    pointers toks k (i + 1) b

/-- The loop that clears the rest, `src/uibc/miracle-uibcctl.c:234-236`: `k` rounds from `off`. -/
def clear : Nat → Nat → List Byte → Option (List Byte)
  | 0, _, b => some b
  | k + 1, off, b => do clear k (off + 1) (← wr b off [0])

/-- The length as a `size_t`, made even, `src/uibc/miracle-uibcctl.c:186-188`. -/
def bodyLen (v : Int) : Nat :=
  let len := if v < 0 then W64 - (-v).toNat else v.toNat
  if len % 2 = 0 then len else len + 1

/-- `getUIBCGenericTouchPacket`, `src/uibc/miracle-uibcctl.c:163-247`: the packet to be sent, empty for bad input. `malloc` of `n` bytes gives
`room n` bytes that can be written; C promises no more than `n`. -/
def touch (room : Nat → Nat) (junk : Nat → Byte) (s : List Byte) : Option (List Byte) := do
  let toks ← strSplit s
  if toks.length < 5 ∨ (toks.length - 5) % 3 ≠ 0 then some []
  else
    let ty ← atoi (← toks[0]?)
    let n ← atoi (← toks[1]?)
    let m ← int32 (n * 5)
    let g ← int32 (m + 1)
    let len0 ← int32 (g + 7)
    let len := bodyLen len0
    if len ≥ W64 / 2 then none
    else
      let b := fresh junk (room len)
      let b ← wr b 0 [0, 0, hi len, lo len, lo ty, hi g, lo g, lo n]
      let b ← pointers toks n.toNat 0 b
      let off := if n > 0 then 8 + n.toNat * 5 else 0
      let b ← clear (len + 1 - off) off b
      rd b 0 len

/-- `sscanf(s, " 0x%04X", &v)`: no conversion or the value. At most four characters are used for the number, which
may have a sign and another prefix; libraries differ (`zx`) on a prefix without digits. -/
def sscanfKey (zx : Bool) (s : List Byte) : Option Int :=
  let s1 := s.dropWhile isSpace
  if s1.take 2 = bytes "0x" then
    let s2 := ((s1.drop 2).dropWhile isSpace).take 4
    let sg := if s2.head? = some 45 ∨ s2.head? = some 43 then 1 else 0
    let s3 := s2.drop sg
    let lone := (s3.take 2 = bytes "0x" ∨ s3.take 2 = bytes "0X") ∧ (s3[2]?.all (fun c => !isDigit 16 c)) = true
    let r := scanNumber 16 s2
    if r.2.2 = 0 ∨ (lone ∧ zx = false) then none
    else some (if r.1 then -(r.2.1 : Int) else r.2.1)
  else none

/-- `getUIBCGenericKeyPacket`, `src/uibc/miracle-uibcctl.c:291-368`: the packet to be sent, empty for bad input. There is always a token. -/
def key (zx : Bool) (junk : Nat → Byte) (s : List Byte) : Option (List Byte) := do
  let toks ← strSplit s
  if toks.length % 3 ≠ 0 then some []
  else
    let ty ← atoi (← toks[0]?)
    let b := fresh junk 13
    let b ← wr b 0 [0, 0, hi 12, lo 12, lo ty, hi 5, lo 5, 0]
    let k1 := (sscanfKey zx (← toks[1]?)).getD 0
    let b ← wr b 8 [hi k1, lo k1]
    let k2 := (sscanfKey zx (← toks[2]?)).getD k1
    let b ← wr b 10 [hi k2, lo k2]
    rd b 0 12

/-- The loop of `getUIBCGenericZoomPacket`, `getUIBCGenericScalePacket` and `getUIBCGenericRotatePacket`
(`src/uibc/miracle-uibcctl.c:383-435`, `src/uibc/miracle-uibcctl.c:457-519`, `src/uibc/miracle-uibcctl.c:542-580`), which runs until it finds a cell with a null
pointer; `body` is what is done with a token. The first argument bounds the number of rounds. -/
def gestureLoop (body : Nat → List Byte → List Byte → Option (List Byte)) (toks : List (List Byte)) : Nat → Nat → List Byte → Option (List Byte)
  | 0, _, _ => none
  | f + 1, i, b => do
    let t ← toks[i]?
    gestureLoop body toks f (i + 1) (← body i t b)

/-- The three functions. None of them stores the packet it builds (`m_PacketData` stays null), only its length. -/
def gesture (body : Nat → List Byte → List Byte → Option (List Byte)) (s : List Byte) : Option (List Byte) := do
  let toks ← strSplit s
  gestureLoop body toks (toks.length + 1) 0 []

/-- The choice made by `main`, `src/uibc/miracle-uibcctl.c:64-76`: what is written to the socket for a line, `some none` if nothing. -/
def event (room : Nat → Nat) (zx : Bool) (junk : Nat → Byte) (line : List Byte) : Option (Option (List Byte)) :=
  if line.head? = some (ch '0') ∨ line.head? = some (ch '1') then (touch room junk line).map some
  else if line.head? = some (ch '3') ∨ line.head? = some (ch '4') then (key zx junk line).map some
  else some none

/-- `fgets` with room for `n` characters besides the NUL: what it stores and what remains. -/
def fgets : Nat → List Byte → List Byte × List Byte
  | 0, s => ([], s)
  | _ + 1, [] => ([], [])
  | n + 1, c :: t => if c = 10 then ([c], t) else (c :: (fgets n t).1, (fgets n t).2)

/-- The lines seen by the loop of `main`, `src/uibc/miracle-uibcctl.c:52-60`, for an input without NUL; the first argument bounds the number of
rounds. -/
def inputsF : Nat → List Byte → List (List Byte)
  | 0, _ => []
  | f + 1, s => if (fgets 254 s).1 = [] then [] else (fgets 254 s).1 :: inputsF f (fgets 254 s).2

/-- All lines seen. -/
def inputs (s : List Byte) : List (List Byte) := inputsF (s.length + 1) s

end Verif.Uibc
