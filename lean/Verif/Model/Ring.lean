import Verif.C.Basic
/-!
# Model of `src/shared/shl_ring.c` (whole file) and `SHL_ALIGN_POWER2`

Nothing is left out except the identity of the heap block: `buf` is the content of
the block `r->buf` (so its length is the size that was passed to `malloc`), and
`malloc` is an argument: `none` = it returned NULL, `some junk` = it returned a
block whose bytes are `junk 0, junk 1, …`.
-/
namespace Verif.Ring
open Verif.C

/-- `struct shl_ring`, `src/shared/shl_ring.h:21-26`. -/
structure Ring where
  buf : List Byte
  size : Nat
  start : Nat
  used : Nat
deriving Repr, DecidableEq

/-- A zero-initialised ring (`struct shl_ring r = {}`; what `shl_ring_clear` leaves). -/
def zero : Ring := ⟨[], 0, 0, 0⟩

/-- `RING_MASK(_r, _v)`, `shl_ring.c:19`: `(_v) & ((_r)->size - 1)` on `size_t`. -/
def mask (r : Ring) (v : Nat) : Nat := (v % W64) &&& ((r.size + W64 - 1) % W64)

/-- `SHL_ALIGN_POWER2`, `src/shared/shl_macro.h:137-147`.  `clzll(x) = 63 - log2 x`
for `x ≠ 0`, so `shift = 64 - clzll(u-1) = log2 (u-1) + 1`.  A shift by 64 is
undefined behaviour in C, as is `clzll(0)`. -/
def alignPow2 (u : Nat) : Option Nat :=
  if u = 1 then some 1
  else
    let v := (u + W64 - 1) % W64
    if v = 0 then none
    else
      let shift := Nat.log2 v + 1
      if 64 ≤ shift then none else some (2 ^ shift % W64)

/-- `shl_ring_flush`, `shl_ring.c:21-25`. -/
def flush (r : Ring) : Ring := { r with start := 0, used := 0 }

/-- `shl_ring_clear`, `shl_ring.c:27-31`. -/
def clear (_ : Ring) : Ring := zero

/-- `shl_ring_peek`, `shl_ring.c:45-64`: the filled iovecs as `(offset into buf, len)`. -/
def peek (r : Ring) : List (Nat × Nat) :=
  if r.used = 0 then []
  else if (r.start + r.used) % W64 ≤ r.size then [(r.start, r.used)]
  else [(r.start, (r.size + W64 - r.start) % W64),
        (0, (r.used + W64 - (r.size + W64 - r.start) % W64) % W64)]

/-- `shl_ring_copy`, `shl_ring.c:71-89`.  Result: the bytes put into `buf[0..ret)`. -/
def copy (r : Ring) (size : Nat) : Option (List Byte) :=
  let size := if size > r.used then r.used else size
  if size > 0 then
    let l := (r.size + W64 - r.start) % W64
    if size ≤ l then rd r.buf r.start size
    else do
      let a ← rd r.buf r.start l
      let b ← rd r.buf 0 (size - l)
      return a ++ b
  else some []

/-- `ring_resize`, `shl_ring.c:95-120`; second component is the return code. -/
def resize (r : Ring) (nsize : Nat) (malloc : Option (Nat → Byte)) : Option (Ring × Int) :=
  match malloc with
  | none => some (r, -ENOMEM)
  | some junk => do
    let buf := fresh junk nsize
    let buf ←
      if r.used > 0 then
        let l := (r.size + W64 - r.start) % W64
        if r.used ≤ l then do
          let d ← rd r.buf r.start r.used
          wr buf 0 d
        else do
          let d ← rd r.buf r.start l
          let buf ← wr buf 0 d
          let d ← rd r.buf 0 (r.used - l)
          wr buf l d
      else some buf
    return ({ r with buf := buf, size := nsize, start := 0 }, 0)

/-- `ring_grow`, `shl_ring.c:127-145`. -/
def grow (r : Ring) (add : Nat) (malloc : Option (Nat → Byte)) : Option (Ring × Int) :=
  if (r.size + W64 - r.used) % W64 ≥ add then some (r, 0)
  else
    let need := (r.used + add) % W64
    if need ≤ r.used then some (r, -ENOMEM)
    else
      let need := if need < 4096 then 4096 else need
      do
        let need ← alignPow2 need
        if need = 0 then some (r, -ENOMEM) else resize r need malloc

/-- `shl_ring_push`, `shl_ring.c:151-175`. -/
def push (r : Ring) (u8 : List Byte) (malloc : Option (Nat → Byte)) : Option (Ring × Int) :=
  let size := u8.length
  if size = 0 then some (r, 0)
  else do
    let (r, err) ← grow r size malloc
    if err < 0 then some (r, err)
    else
      let pos := mask r (r.start + r.used)
      let l := (r.size + W64 - pos) % W64
      let buf ←
        if l ≥ size then wr r.buf pos u8
        else do
          let d ← rd u8 0 l
          let buf ← wr r.buf pos d
          let d ← rd u8 l (size - l)
          wr buf 0 d
      return ({ r with buf := buf, used := (r.used + size) % W64 }, 0)

/-- `shl_ring_pull`, `shl_ring.c:181-188`. -/
def pull (r : Ring) (size : Nat) : Ring :=
  let size := if size > r.used then r.used else size
  { r with start := mask r (r.start + size), used := r.used - size }

/-- The public mutating calls; `push` carries the outcome of `malloc` should it be
called. -/
inductive Op where
  | push (data : List Byte) (malloc : Option (Nat → Byte))
  | pull (n : Nat)
  | flush
  | clear

/-- One API call; the second component is the return code (0 for `void`). -/
def step (r : Ring) : Op → Option (Ring × Int)
  | .push d m => push r d m
  | .pull n => some (pull r n, 0)
  | .flush => some (flush r, 0)
  | .clear => some (clear r, 0)

/-- A sequence of API calls with all return codes. -/
def run (r : Ring) : List Op → Option (Ring × List Int)
  | [] => some (r, [])
  | o :: os => do
    let (r, c) ← step r o
    let (r, cs) ← run r os
    return (r, c :: cs)

end Verif.Ring
