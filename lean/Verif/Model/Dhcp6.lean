import Verif.C.Basic
/-!
# Model of the DHCPv6 option lookup of `src/dhcp/common.c`

A packet is a memory block `buf`; a `struct dhcpv6_packet` (`src/dhcp/common.h:82-86`) has its
options at offset 4.  Pointers into the packet are offsets from its start.  The block may be larger
than the packet (`pktLen`), the callers use a buffer of 1500 bytes (`src/dhcp/client.c:2240`).
-/
namespace Verif.Dhcp6
open Verif.C

/-- What a call leaves behind: the returned pointer, the value stored through `option_len`
(`none`: not written) and the value stored through `option_count`. -/
structure Found where
  ptr : Option Nat
  len : Option Nat
  count : Nat
  deriving DecidableEq, Repr

/-- Outcome: undefined behaviour, not finished within the allotted rounds, or a result. -/
inductive Out
  | ub
  | spin
  | ok (r : Found)
  deriving DecidableEq, Repr

/-- `p[0] << 8 | p[1]`. -/
def be16 (buf : List Byte) (p : Nat) : Option Nat := do
  let a ← buf[p]?
  let b ← buf[p + 1]?
  some (a.toNat * 256 + b.toNat)

/-- The `while (1)` loop and the exits of `dhcpv6_get_option`, `src/dhcp/common.c:175-211`, cut off
after `fuel` rounds. `len` is a `uint16_t`: the addition wraps. -/
def loop (buf : List Byte) (code : Nat) : Nat → (ptr : Nat) → (rem : Int) → Found → Out
  | 0, _, _, _ => .spin
  | fuel + 1, ptr, rem, acc =>
    match be16 buf ptr, be16 buf (ptr + 2) with
    | some optCode, some optLen =>
      let len := (optLen + 4) % 65536
      if len < 4 then .ok { ptr := none, len := some 0, count := 0 }
      else if rem - (len : Int) < 0 then .ok acc
      else
        let acc := if optCode = code then { ptr := some (ptr + 4), len := some optLen, count := acc.count + 1 } else acc
        if rem - (len : Int) = 0 then .ok acc
        else loop buf code fuel (ptr + len) (rem - (len : Int)) acc
    | _, _ => .ub

/-- `dhcpv6_get_option`, `src/dhcp/common.c:162-211`; both output pointers are given. `pktLen` is
a `uint16_t`, `rem` an `int` that cannot overflow. -/
def getOption (buf : List Byte) (pktLen code fuel : Nat) : Out :=
  if (pktLen : Int) - 1 - 3 ≤ 0 then .ok { ptr := none, len := some 0, count := 0 }
  else loop buf code fuel 4 ((pktLen : Int) - 1 - 3) { ptr := none, len := none, count := 0 }

/-- `dhcpv6_get_sub_option`, `src/dhcp/common.c:213-236`: `none` is undefined behaviour, `some none`
the NULL return, otherwise code, length and returned offset. -/
def getSubOption (opt : List Byte) (maxLen : Nat) : Option (Option (Nat × Nat × Nat)) :=
  if (maxLen : Int) - 2 - 2 ≤ 0 then some none
  else do
    let code ← be16 opt 0
    let len ← be16 opt 2
    if (maxLen : Int) - 2 - 2 - (len : Int) < 0 then some none
    else some (some (code, len, 4))

end Verif.Dhcp6
