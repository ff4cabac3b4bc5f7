import Verif.C.Basic
/-!
# Model of `sanitize_line` of `src/shared/rtsp.c`
-/
namespace Verif.Sanitize
open Verif.C

/-- Variables of `sanitize_line`, `src/shared/rtsp.c:263-271`: the block, the write cursor `dst`
(as an offset), `last_c` and the two flags. -/
structure St where
  buf : List Byte
  dst : Nat
  last : Byte
  quoted : Bool
  escaped : Bool
  deriving DecidableEq, Repr

/-- `*dst++ = c`, `src/shared/rtsp.c:319`. -/
def St.put (s : St) (c : Byte) : Option St := do
  let b ← wr s.buf s.dst [c]
  some { s with buf := b, dst := s.dst + 1 }

/-- Body of the loop, `src/shared/rtsp.c:273-320`, for index `i`. -/
def step (s : St) (i : Nat) : Option St := do
  let c ← s.buf[i]?
  let prev := s.last
  let s := { s with last := c }
  if s.escaped then
    let s := { s with escaped := false }
    if c = 0 then ({ s with last := ch '0' } : St).put (ch '0') else s.put c
  else if s.quoted then
    if c = ch '"' then ({ s with quoted := false } : St).put c
    else if c = 0 then some { s with last := prev }
    else if c = ch '\\' then ({ s with escaped := true } : St).put c
    else s.put c
  else if c = 0 then some { s with last := prev }
  else
    let c' := if c = 13 ∨ c = 10 ∨ c = 9 then ch ' ' else c
    let s := { s with last := c' }
    if c' = ch ' ' ∧ prev = ch ' ' then some s
    else if c' = ch ' ' ∧ s.dst = 0 then some s
    else ({ s with quoted := c' = ch '"' } : St).put c'

/-- The loop from index `i` with `n` rounds to go. -/
def loop : Nat → Nat → St → Option St
  | 0, _, s => some s
  | n + 1, i, s => do
    let s ← step s i
    loop n (i + 1) s

/-- The loop removing trailing blanks, `src/shared/rtsp.c:326-329`. -/
def trim : Nat → List Byte → Option (List Byte × Nat)
  | 0, buf => some (buf, 0)
  | d + 1, buf => do
    let c ← buf[d]?
    if c = ch ' ' then do
      let b ← wr buf d [0]
      trim d b
    else some (buf, d + 1)

/-- `sanitize_line`, `src/shared/rtsp.c:261-332`: the block afterwards and the returned length. -/
def sanitizeLine (buf : List Byte) (len : Nat) : Option (List Byte × Nat) := do
  let s ← loop len 0 ⟨buf, 0, 0, false, false⟩
  let b ← wr s.buf s.dst [0]
  if s.quoted then some (b, s.dst) else trim s.dst b

end Verif.Sanitize
