import Verif.Model.Wire
/-!
# Model of the DHCP option helpers of `src/dhcp/common.c`

A `struct dhcp_packet` (`src/dhcp/common.h:56-73`) is its 628 bytes: sname at 44 (64 bytes), file
at 108 (128 bytes), cookie at 236, options at 240 (388 bytes).  Pointers into the packet are
offsets from its start.
-/
namespace Verif.Options
open Verif.C

/-- Outcome of a lookup. `ub`: undefined behaviour; `spin`: the loop did not end within the
allotted number of rounds; `null`/`ptr i`: the returned pointer. -/
inductive Res
  | ub
  | spin
  | null
  | ptr (i : Nat)
  deriving DecidableEq, Repr

/-- The loop variables of `dhcp_get_option`. -/
structure St where
  ptr : Nat
  rem : Int
  overload : Byte
  deriving DecidableEq

/-- One round of `while (1)` in `dhcp_get_option`, `src/dhcp/common.c:87-143`: either a final
outcome or the next values of the loop variables.  `options_end` is
`options + (packet_len - 240) - 1`, i.e. offset `packet_len - 1`; both sides of the pointer
comparisons are compared as integers.  `rem` is an `int`, its underflow is undefined. -/
def step (pkt : List Byte) (plen code : Nat) (s : St) : Res ⊕ St :=
  if s.rem ≤ 0 ∧ (s.ptr : Int) > (plen : Int) - 1 then .inl .null else
  match pkt[s.ptr]? with
  | none => .inl .ub
  | some c =>
    if c = 0 then
      if s.rem ≤ -2147483648 then .inl .ub else .inr { s with ptr := s.ptr + 1, rem := s.rem - 1 }
    else if c = 255 then
      if s.overload &&& 1 ≠ 0 then .inr { ptr := 108, rem := 128, overload := s.overload &&& ~~~ 1 }
      else if s.overload &&& 2 ≠ 0 then .inr { ptr := 44, rem := 64, overload := s.overload &&& ~~~ 2 }
      else .inl .null
    else if (s.ptr : Int) + 1 > (plen : Int) - 1 then .inl .null
    else match pkt[s.ptr + 1]? with
      | none => .inl .ub
      | some l =>
        let len := 2 + l.toNat
        if s.rem - (len : Int) < -2147483648 then .inl .ub
        else if s.rem - (len : Int) < 0 then .inr { s with rem := s.rem - (len : Int) }
        else if c.toNat = code then
          if (s.ptr : Int) + len > (plen : Int) - 1 then .inl .null else .inl (.ptr (s.ptr + 2))
        else if c = 52 then
          match pkt[s.ptr + 2]? with
          | none => .inl .ub
          | some v => .inr { ptr := s.ptr + len, rem := s.rem - (len : Int), overload := s.overload ||| v }
        else .inr { s with ptr := s.ptr + len, rem := s.rem - (len : Int) }

/-- The loop, cut off after `fuel` rounds. -/
def loop (pkt : List Byte) (plen code : Nat) : Nat → St → Res
  | 0, _ => .spin
  | fuel + 1, s =>
    match step pkt plen code s with
    | .inl r => r
    | .inr s' => loop pkt plen code fuel s'

/-- `dhcp_get_option`, `src/dhcp/common.c:74-146`, observed for `fuel` rounds of its loop. -/
def getOption (pkt : List Byte) (plen code fuel : Nat) : Res :=
  loop pkt plen code fuel { ptr := 240, rem := 388, overload := 0 }

/-- `dhcp_end_option`, `src/dhcp/common.c:148-160`, on the option area; the fuel bounds the
number of rounds (every round advances, and reading behind the packet is undefined). -/
def endOption (area : List Byte) : Nat → Nat → Option Nat
  | 0, _ => none
  | fuel + 1, i =>
    match area[i]? with
    | none => none
    | some c =>
      if c = 255 then some i
      else if c ≠ 0 then
        match area[i + 1]? with
        | none => none
        | some l => endOption area fuel (i + (l.toNat + 2 - 1) + 1)
      else endOption area fuel (i + 1)

/-- `dhcp_add_binary_option`, `src/dhcp/common.c:242-258`; `addopt` is the option block. -/
def addBinary (pkt addopt : List Byte) : Option (List Byte) := do
  let area ← rd pkt 240 388
  let e ← endOption area 389 0
  let l ← addopt[1]?
  let len := 2 + l.toNat
  if e + len + 1 ≥ 308 then some pkt
  else do
    let d ← rd addopt 0 len
    let p ← wr pkt (240 + e) d
    wr p (240 + e + len) [255]

/-- `GDHCPOptionType` (`src/dhcp/common.h:148-157`), the type part and the list flag. -/
inductive OType | unknown | ip | string | u8 | u16 | u32
  deriving DecidableEq, Repr

/-- `client_options` and `dhcp_get_code_type`, `src/dhcp/common.c:43-72` (the `OPTION_LIST` flag
is masked away by the only caller modelled here). -/
def codeType (code : Nat) : OType :=
  if code = 0x01 then .ip else if code = 0x03 then .ip else if code = 0x06 then .ip
  else if code = 0x0c then .string else if code = 0x0f then .string else if code = 0x2a then .ip
  else if code = 0x33 then .u32 else if code = 0x32 then .ip else if code = 0x35 then .u8
  else if code = 0x36 then .u32 else if code = 0x39 then .u16 else if code = 0x3c then .string
  else if code = 0x3d then .string else if code = 0xfc then .string
  else .unknown

/-- `dhcp_option_lengths`, `src/dhcp/common.h:165-171`. -/
def typeLen : OType → Nat
  | .unknown => 0
  | .ip => 4
  | .string => 1
  | .u8 => 1
  | .u16 => 2
  | .u32 => 4

/-- `check_option`, `src/dhcp/common.c:281-297` (the message is left out). -/
def checkOption (code dataLen : Nat) : Bool :=
  codeType code ≠ .unknown && typeLen (codeType code) = dataLen

/-- `dhcp_add_option_uint8/16/32`, `src/dhcp/common.c:299-348`: `w` is the size of the value,
`option[6]` is on the stack with arbitrary content `junk`; `option[OPT_DATA] = data` for one byte
is the same store as a one-byte big-endian one. -/
def addUint (h : Wire.Host) (junk : List Byte) (pkt : List Byte) (w code v : Nat) : Option (List Byte) :=
  if !checkOption code w then some pkt
  else do
    let o ← wr junk 0 [code.toUInt8]
    let o ← wr o 1 [w.toUInt8]
    let o ← Wire.putBe h w v o 2
    addBinary pkt o

/-- `dhcp_init_header`, `src/dhcp/common.c:350-369`. -/
def initHeader (h : Wire.Host) (junk : List Byte) (type : Byte) : Option (List Byte) := do
  let p := List.replicate 628 (0 : Byte)
  let op : Byte := if type = 2 ∨ type = 5 ∨ type = 6 then 2 else 1
  let p ← wr p 0 [op]
  let p ← wr p 1 [1]
  let p ← wr p 2 [6]
  let p ← Wire.putUnaligned h 4 (Wire.htonl h 0x63825363) p 236
  let p ← wr p 240 [255]
  addUint h junk p 1 0x35 type.toNat

end Verif.Options
