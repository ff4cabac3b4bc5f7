import Verif.C.Basic
/-!
# Model of the DHCP wire helpers: unaligned accessors, Internet checksum, raw frames

`src/dhcp/unaligned.h`, `dhcp_checksum` and `dhcp_send_raw_packet` of `src/dhcp/common.c`,
`sanity_check` and `dhcp_recv_l2_packet` of `src/dhcp/client.c`.
Integers of `w` bytes are naturals below `256^w`.  Both byte orders of the host are
modelled (`unaligned.h:41` and `:101` compile different code for them).
-/
namespace Verif.Wire
open Verif.C

/-- `__BYTE_ORDER` of the host (`unaligned.h:41,101`). -/
inductive Host | le | be
  deriving DecidableEq, Repr

/-- Value of bytes stored least significant first. -/
def leVal : List Byte → Nat
  | [] => 0
  | b :: t => b.toNat + 256 * leVal t

/-- The `w` low bytes of `v`, least significant first. -/
def leBytes : Nat → Nat → List Byte
  | 0, _ => []
  | w + 1, v => v.toUInt8 :: leBytes w (v / 256)

/-- How the host interprets the bytes of an unsigned integer object. -/
def native (h : Host) (bs : List Byte) : Nat :=
  match h with
  | .le => leVal bs
  | .be => leVal bs.reverse

/-- How the host lays out an unsigned integer object of `w` bytes. -/
def layout (h : Host) (w v : Nat) : List Byte :=
  match h with
  | .le => leBytes w v
  | .be => (leBytes w v).reverse

/-- `bswap_16/32/64` of `<byteswap.h>` (contract: reverse the bytes of the value). -/
def bswap (w v : Nat) : Nat := leVal (leBytes w v).reverse

/-- `get_unaligned` for an object of `w` bytes, `src/dhcp/unaligned.h:25-31`. -/
def getUnaligned (h : Host) (w : Nat) (buf : List Byte) (off : Nat) : Option Nat := do
  let bs ← rd buf off w
  return native h bs

/-- `put_unaligned`, `src/dhcp/unaligned.h:33-39`. -/
def putUnaligned (h : Host) (w v : Nat) (buf : List Byte) (off : Nat) : Option (List Byte) :=
  wr buf off (layout h w v)

/-- `get_le16/32/64`, `src/dhcp/unaligned.h:42-70` (little) and `:102-130` (big endian host). -/
def getLe (h : Host) (w : Nat) (buf : List Byte) (off : Nat) : Option Nat :=
  match h with
  | .le => getUnaligned h w buf off
  | .be => (getUnaligned h w buf off).map (bswap w)

/-- `get_be16/32/64`, `src/dhcp/unaligned.h:47-75` and `:107-135`. -/
def getBe (h : Host) (w : Nat) (buf : List Byte) (off : Nat) : Option Nat :=
  match h with
  | .le => (getUnaligned h w buf off).map (bswap w)
  | .be => getUnaligned h w buf off

/-- `put_le16/32/64`, `src/dhcp/unaligned.h:82-100` and `:142-160`. -/
def putLe (h : Host) (w v : Nat) (buf : List Byte) (off : Nat) : Option (List Byte) :=
  match h with
  | .le => putUnaligned h w v buf off
  | .be => putUnaligned h w (bswap w v) buf off

/-- `put_be16/32/64`, `src/dhcp/unaligned.h:72-95` and `:132-155`. -/
def putBe (h : Host) (w v : Nat) (buf : List Byte) (off : Nat) : Option (List Byte) :=
  match h with
  | .le => putUnaligned h w (bswap w v) buf off
  | .be => putUnaligned h w v buf off

/-- `htons`/`ntohs` (contract: swap on a little-endian host, identity on a big-endian one). -/
def htons (h : Host) (v : Nat) : Nat :=
  match h with
  | .le => bswap 2 v
  | .be => v

/-- `htonl`/`ntohl`. -/
def htonl (h : Host) (v : Nat) : Nat :=
  match h with
  | .le => bswap 4 v
  | .be => v

/-- `int32_t` addition, undefined on overflow. The operands are never negative here. -/
def addI32 (a b : Nat) : Option Nat := if a + b < 2147483648 then some (a + b) else none

/-- The summation loop and the left-over byte of `dhcp_checksum`,
`src/dhcp/common.c:423-439`; `l` holds the `count` bytes still to be summed. -/
def sumWords (h : Host) : List Byte → Nat → Option Nat
  | b0 :: b1 :: t, sum => do
    let s ← addI32 sum (native h [b0, b1])
    sumWords h t s
  | [b], sum => addI32 sum (native h [b, 0])
  | [], sum => some sum

/-- `while (sum >> 16) sum = (sum & 0xffff) + (sum >> 16);`, `src/dhcp/common.c:440-442`.
The sum shrinks with each round, so `sum` rounds are enough (`foldSum`). -/
def foldLoop : Nat → Nat → Nat
  | 0, sum => sum
  | fuel + 1, sum => if sum / 65536 = 0 then sum else foldLoop fuel (sum % 65536 + sum / 65536)

@[inherit_doc foldLoop]
def foldSum (sum : Nat) : Nat := foldLoop sum sum

/-- `dhcp_checksum`, `src/dhcp/common.c:417-445`: the first `count` bytes of `buf` at `off`;
`return ~sum` truncated to `uint16_t`. -/
def checksum (h : Host) (buf : List Byte) (off count : Nat) : Option Nat := do
  let l ← rd buf off count
  let s ← sumWords h l 0
  return 65535 - foldSum s

/-! ### Raw frames -/

/-- `sizeof(struct ip_udp_dhcp_packet)` = 20 + 8 + 628, `src/dhcp/common.h:56-79`. -/
def packetSize : Nat := 656

/-- `IP_UPD_DHCP_SIZE` = 656 - 80, `src/dhcp/common.c:530-535`. -/
def sendSize : Nat := 576

/-- Store native 16-bit `v` in the header field at `off`. -/
def put16 (h : Host) (p : List Byte) (off v : Nat) : Option (List Byte) := putUnaligned h 2 v p off

/-- Load the native 16-bit header field at `off`. -/
def get16 (h : Host) (p : List Byte) (off : Nat) : Option Nat := getUnaligned h 2 p off

/-- The frame built by `dhcp_send_raw_packet`, `src/dhcp/common.c:522-587`, from the packet
`dhcp` (628 bytes, network-order addresses `saddr`, `daddr`).  `dhcp_pkt->flags |=
htons(BROADCAST_FLAG)` sets the top bit of byte 10 of the packet.  Socket calls are left
out; the result is what is handed to `sendto`.
Offsets: ip.ver 0, tot_len 2, ttl 8, protocol 9, check 10, saddr 12, daddr 16; udp.source 20,
dest 22, len 24, check 26; data 28.  On both byte orders the first byte is `0x45`. -/
def sendRaw (h : Host) (dhcp : List Byte) (saddr daddr : List Byte) (sport dport : Nat) :
    Option (List Byte) := do
  let fl ← rd dhcp 10 1
  let dhcp ← wr dhcp 10 (fl.map (· ||| 0x80))
  let p ← wr (List.replicate packetSize 0) 28 dhcp
  let p ← wr p 9 [17]
  let p ← wr p 12 saddr
  let p ← wr p 16 daddr
  let p ← put16 h p 20 (htons h sport)
  let p ← put16 h p 22 (htons h dport)
  let p ← put16 h p 24 (htons h (sendSize - 20))
  let ul ← get16 h p 24
  let p ← put16 h p 2 ul
  let c ← checksum h p 0 sendSize
  let p ← put16 h p 26 c
  let p ← put16 h p 2 (htons h sendSize)
  let p ← wr p 0 [0x45]
  let p ← wr p 8 [64]
  let c ← checksum h p 0 20
  let p ← put16 h p 10 c
  rd p 0 sendSize

/-- `sanity_check`, `src/dhcp/client.c:1274-1292`; `bytes - sizeof(packet->ip)` wraps as
`uint16_t`. -/
def sanity (h : Host) (p : List Byte) (bytes : Nat) : Option Bool := do
  let proto ← rd p 9 1
  let vi ← rd p 0 1
  let dport ← get16 h p 22
  let ulen ← get16 h p 24
  return decide (proto = [17] ∧ vi = [0x45] ∧ dport = htons h 68 ∧
    htons h ulen = (bytes + 65536 - 20) % 65536)

/-- What `dhcp_recv_l2_packet` leaves behind: return value and the caller's packet buffer. -/
structure RecvL2 where
  ret : Int
  pkt : List Byte
  deriving DecidableEq

/-- `dhcp_recv_l2_packet` behind its `read`, `src/dhcp/client.c:1306-1340`: `n` bytes were read
into the zeroed packet `p`; `pkt` is the caller's uninitialised 628-byte packet.  The length of
the `memcpy` is computed in `size_t`. -/
def recvBody (h : Host) (n : Nat) (p pkt : List Byte) : Option RecvL2 :=
  if n < 28 then some ⟨-1, pkt⟩ else do
  let tot ← get16 h p 2
  let bytes := htons h tot
  if n < bytes then some ⟨-1, pkt⟩ else do
  let ok ← sanity h p bytes
  if !ok then some ⟨-1, pkt⟩ else do
  let check ← get16 h p 10
  let p ← put16 h p 10 0
  let c ← checksum h p 0 20
  if check ≠ c then some ⟨-1, pkt⟩ else do
  let p ← wr p 0 (List.replicate 9 0)
  let ul ← get16 h p 24
  let p ← put16 h p 2 ul
  let check ← get16 h p 26
  let p ← put16 h p 26 0
  let c ← checksum h p 0 bytes
  if check ≠ 0 ∧ check ≠ c then some ⟨-1, pkt⟩ else do
  let d ← rd p 28 ((bytes + W64 - 28) % W64)
  let pkt ← wr pkt 0 d
  let cookie ← getUnaligned h 4 pkt 236
  if cookie ≠ htonl h 0x63825363 then some ⟨-1, pkt⟩ else
  some ⟨(bytes : Int) - 28, pkt⟩

/-- `dhcp_recv_l2_packet`, `src/dhcp/client.c:1294-1340`. `frame` is what the kernel delivers
on the packet socket (a successful `read`; datagram semantics: excess bytes are cut off). -/
def recvL2 (h : Host) (frame pkt : List Byte) : Option RecvL2 := do
  let p ← wr (List.replicate packetSize 0) 0 (frame.take packetSize)
  recvBody h (min frame.length packetSize) p pkt

end Verif.Wire
