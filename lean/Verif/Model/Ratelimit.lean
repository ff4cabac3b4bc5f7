import Verif.C.Basic
/-! # Model of `shl_ratelimit` (`src/shared/shl_util.h:142-166`, `shl_util.c:904-926`) -/
namespace Verif.Ratelimit
open Verif.C

/-- `struct shl_ratelimit`, `shl_util.h:142-147`. -/
structure RL where
  interval : Nat
  begin_ : Nat
  burst : Nat
  num : Nat
deriving DecidableEq, Repr

/-- `SHL_RATELIMIT_INIT`, `shl_util.h:152-158`. -/
def init (interval burst : Nat) : RL := ⟨interval, 0, burst, 0⟩

/-- `SHL_RATELIMIT_DEFINE`, `shl_util.h:149-150`: `{ (_interval), (_burst), 0, 0 }`, i.e. the
fields in declaration order. -/
def define (interval burst : Nat) : RL := ⟨interval, burst, 0, 0⟩

/-- `SHL_RATELIMIT_RESET`, `shl_util.h:160-164`. -/
def reset (r : RL) : RL := { r with num := 0, begin_ := 0 }

/-- `shl_ratelimit_test`, `shl_util.c:904-926`; `ts` is the value of `shl_now(MONOTONIC)`.
The 64-bit sum is taken modulo `2^64`, the 32-bit counter modulo `2^32`. -/
def test (r : RL) (ts : Nat) : RL × Bool :=
  if r.interval = 0 ∨ r.burst = 0 then (r, true)
  else if r.begin_ = 0 ∨ (r.begin_ + r.interval) % W64 < ts then
    ({ r with begin_ := ts, num := 1 }, true)
  else if r.num < r.burst then ({ r with num := (r.num + 1) % W32 }, true)
  else (r, false)

/-- A sequence of calls at the given times; the answers. -/
def run (r : RL) : List Nat → List (Nat × Bool)
  | [] => []
  | t :: ts => let (r', b) := test r t; (t, b) :: run r' ts

end Verif.Ratelimit
