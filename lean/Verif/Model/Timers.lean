import Verif.Model.Options
/-!
# Model of the lease timers (`src/dhcp/client.c`) and of the random values of `src/dhcp/ipv4ll.c`
-/
namespace Verif.Timers
open Verif.C

/-- `get_lease`, `src/dhcp/client.c:1600-1616`, on a packet: `none` is undefined behaviour. A lookup
that does not end is no outcome, either. -/
def getLease (h : Wire.Host) (pkt : List Byte) (plen fuel : Nat) : Option Nat :=
  match Options.getOption pkt plen 0x33 fuel with
  | .null => some 3600
  | .ptr i => do
    let v ← Wire.getBe h 4 pkt i
    let s := v &&& 0x0fffffff
    some (if s < 10 then 10 else s)
  | _ => none

/-- The three times `start_bound` schedules, `src/dhcp/client.c:1746-1763`, in seconds.
`lease_seconds * 0.875` is computed in `double`, exactly for 28-bit numbers, and truncated. -/
structure Plan where
  t1 : Nat
  t2 : Nat
  expire : Nat
  deriving DecidableEq, Repr

/-- `start_bound`, `src/dhcp/client.c:1733-1764`. -/
def bound (lease : Nat) : Plan := { t1 := lease >>> 1, t2 := lease * 7 / 8, expire := lease }

/-- The interval in milliseconds given to `g_timeout_add_full` in `continue_renew` and
`continue_rebound`, `src/dhcp/client.c:1666` and `:1709`: 32-bit unsigned arithmetic, `r` is what
`rand()` returned. -/
def interval (t r : Nat) : Nat := (t * 1000 + r % 2000 + (W32 - 1000)) % W32

/-- The retransmissions following the first message of the renewing (`start_renew`,
`src/dhcp/client.c:1725-1728`, and `continue_renew`, `:1695-1716`) or the rebinding phase
(`start_rebound`, `:1687-1690`, and `continue_rebound`, `:1651-1673`): `t` is the length of the phase,
the result the list of intervals; `none` if the process did not end within `fuel` rounds.
`rand k` is the `k`-th random number. -/
def retrans (rand : Nat → Nat) : (fuel : Nat) → (k : Nat) → (t : Nat) → Option (List Nat)
  | 0, _, _ => none
  | fuel + 1, k, t =>
    if t >>> 1 > 60 then (retrans rand fuel (k + 1) (t >>> 1)).map (interval (t >>> 1) (rand k) :: ·)
    else some []

/-- `ipv4ll_random_ip`, `src/dhcp/ipv4ll.c:41-57`: `rand k` are the numbers drawn; `none` if no
acceptable one was among the first `fuel`. -/
def randomIp (rand : Nat → Nat) : (fuel k : Nat) → Option Nat
  | 0, _ => none
  | fuel + 1, k =>
    let tmp := rand k &&& 0xffff
    if tmp > 0xffff - 0x0200 then randomIp rand fuel (k + 1) else some (0xa9fe0000 + 0x0100 + tmp)

/-- `ipv4ll_random_delay_ms`, `src/dhcp/ipv4ll.c:62-71`: `secs * 1000` is an unsigned 32-bit product,
`none` is a division by zero. -/
def randomDelay (r secs : Nat) : Option Nat :=
  if secs * 1000 % W32 = 0 then none else some (r % (secs * 1000 % W32))

end Verif.Timers
