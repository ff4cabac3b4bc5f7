import Verif.Model.Client
import Verif.Model.Server
import Verif.Spec.Wire
/-!
# Model of the DHCP messages on the wire: what client and server write and read

`src/dhcp/client.c` and `src/dhcp/server.c` build the packets that `Verif.Model.Client` and
`Verif.Model.Server` name by their content only.  Here are the bytes: the functions that build them, the
functions that send them, and the ones that read them on the other side.  A packet is the 628 bytes of a
`struct dhcp_packet` (`src/dhcp/common.h:56-73`): op 0, hlen 2, xid 4, secs 8, flags 10, ciaddr 12, yiaddr 16,
gateway_nip 24, chaddr 28 (16 bytes), cookie 236, options 240.
-/
namespace Verif.Dora
open Verif.C Verif.Options

/-- `EPROTO`. -/
def EPROTO : Int := 71

/-! ### The client's messages -/

/-- The parts of a `GDHCPClient` that go into every message: the byte order of its host, `mac_address`,
`request_list` and `send_value_hash` (code and data of the blocks `alloc_dhcp_option`, `src/dhcp/client.c:3012-3025`,
made, in the order of `g_hash_table_foreach`). -/
structure Cli where
  host : Wire.Host
  mac : List Byte
  codes : List Nat
  sends : List (Byte × List Byte)

/-- What the environment decides when a message is built: the content of the buffers on the stack, the value of
`dhcp_attempt_secs` (two bytes as stored, `src/dhcp/client.c:431-434`) and `rand()` (as stored). -/
structure Env where
  junk : List Byte
  secs : List Byte
  rand : List Byte

/-- `init_packet`, `src/dhcp/client.c:176-187`, for DHCPv4. -/
def initPacket (k : Cli) (v : Env) (type : Byte) : Option (List Byte) := do
  let p ← initHeader k.host v.junk type
  wr p 28 k.mac

/-- `add_request_options`, `src/dhcp/client.c:189-208`.  The stores of the loop are one store of all codes here.
There is no check for room. -/
def addRequestOptions (p : List Byte) (codes : List Nat) : Option (List Byte) := do
  let area ← rd p 240 388
  let e ← endOption area 389 0
  let p ← wr p (240 + e + 2) (codes.map (·.toUInt8))
  if codes.length = 0 then some p
  else do
    let p ← wr p (240 + e) [0x37]
    let p ← wr p (240 + e + 1) [codes.length.toUInt8]
    wr p (240 + e + 2 + codes.length) [255]

/-- `add_send_options` and `add_binary_option`, `src/dhcp/client.c:409-422`. -/
def addSendOptions (p : List Byte) : List (Byte × List Byte) → Option (List Byte)
  | [] => some p
  | (c, d) :: t => do
    let p ← addBinary p (c :: d.length.toUInt8 :: d)
    addSendOptions p t

/-- `if (b) dhcp_add_option_uint32(&packet, code, v)`. -/
def addIf (b : Bool) (h : Wire.Host) (junk p : List Byte) (code v : Nat) : Option (List Byte) :=
  if b then addUint h junk p 4 code v else some p

/-- The packet of `send_discover`, `src/dhcp/client.c:436-455`. -/
def discover (k : Cli) (v : Env) (xid : List Byte) (requested : Nat) : Option (List Byte) := do
  let p ← initPacket k v 1
  let p ← wr p 4 xid
  let p ← wr p 8 v.secs
  let p ← addIf (requested != 0) k.host v.junk p 0x32 requested
  let p ← addUint k.host v.junk p 2 0x39 576
  let p ← addRequestOptions p k.codes
  addSendOptions p k.sends

/-- `packet.ciaddr = htonl(v)`. -/
def putAddr (h : Wire.Host) (p : List Byte) (off v : Nat) : Option (List Byte) :=
  Wire.putUnaligned h 4 (Wire.htonl h v) p off

/-- The packet of `send_request`, `src/dhcp/client.c:462-489`: `addr` and `server` are the options the state calls for,
`ciaddr` is zero in states in which the field is not set. -/
def request (k : Cli) (v : Env) (xid : List Byte) (addr server : Option Nat) (ciaddr : Nat) : Option (List Byte) := do
  let p ← initPacket k v 3
  let p ← wr p 4 xid
  let p ← wr p 8 v.secs
  let p ← addIf addr.isSome k.host v.junk p 0x32 (addr.getD 0)
  let p ← addIf server.isSome k.host v.junk p 0x36 (server.getD 0)
  let p ← addUint k.host v.junk p 2 0x39 576
  let p ← addRequestOptions p k.codes
  let p ← addSendOptions p k.sends
  putAddr k.host p 12 ciaddr

/-- The packet of `send_release`, `src/dhcp/client.c:500-512`. -/
def release (k : Cli) (v : Env) (ciaddr server : Nat) : Option (List Byte) := do
  let p ← initPacket k v 7
  let p ← wr p 4 v.rand
  let p ← putAddr k.host p 12 ciaddr
  addUint k.host v.junk p 4 0x36 server

/-- A message in the network: a frame for everybody, handed to the link as it is, or an UDP datagram for the
address `dst` (four bytes), sent by the kernel. -/
inductive Sent
  | raw (frame : List Byte)
  | udp (dst payload : List Byte)
  deriving DecidableEq, Repr

/-- `dhcp_send_raw_packet` from `INADDR_ANY`, port 68, to `INADDR_BROADCAST`, port 67. -/
def sendBroadcast (h : Wire.Host) (p : List Byte) : Option Sent := do
  let f ← Wire.sendRaw h p [0, 0, 0, 0] [255, 255, 255, 255] 68 67
  some (.raw f)

/-- `dhcp_send_kernel_packet`, `src/dhcp/common.c:589-633`: `connect` to `htonl(dest_ip)` and `write` of the first 548
bytes.  Failures of the socket calls are left out. -/
def sendKernel (h : Wire.Host) (p : List Byte) (dest : Nat) : Option Sent := do
  let d ← rd p 0 548
  some (.udp (Wire.layout h 4 (Wire.htonl h dest)) d)

/-- The message the client sends for an output of `Verif.Client` (`some none` for callbacks). -/
def send (k : Cli) (v : Env) : Client.Out → Option (Option Sent)
  | .discover xid addr => do
    let p ← discover k v xid addr
    let s ← sendBroadcast k.host p
    some (some s)
  | .request xid addr server ciaddr dest => do
    let p ← request k v xid addr server ciaddr
    let s ← match dest with
      | some d => sendKernel k.host p d
      | none => sendBroadcast k.host p
    some (some s)
  | .release ciaddr server => do
    let p ← release k v ciaddr server
    let s ← sendKernel k.host p server
    some (some s)
  | _ => some none

/-! ### The network -/

/-- What the kernel of the receiver does with an IPv4 frame before it gives the payload to the socket of an UDP
port (contract of Linux, RFC 791 and 768): version, lengths, protocol, port and checksums have to be right. -/
def udpInput (frame : List Byte) (port : Nat) : Option (List Byte) :=
  let tot := Wire.Spec.beVal ((frame.drop 2).take 2)
  if frame.take 1 = [0x45] ∧ tot ≤ frame.length ∧ (frame.drop 9).take 1 = [17] ∧
      Wire.Spec.beVal ((frame.drop 22).take 2) = port ∧ Wire.Spec.beVal ((frame.drop 24).take 2) = tot - 20 ∧
      Wire.Spec.beVal ((frame.drop 10).take 2) = Wire.Spec.inetChecksum (Wire.Spec.ipBlank frame) ∧
      ((frame.drop 26).take 2 = [0, 0] ∨ Wire.Spec.beVal ((frame.drop 26).take 2) =
        Wire.Spec.inetChecksum (Wire.Spec.pseudo frame ++ Wire.Spec.udpBlank frame tot))
  then some ((frame.drop 28).take (tot - 28)) else none

/-- The payload that reaches port 67 of a host with the address `addr`: broadcast frames do, datagrams do if they
are for that address (routing is the contract of the kernels). -/
def arrives (addr : List Byte) : Sent → Option (List Byte)
  | .raw f => udpInput f 67
  | .udp dst p => if dst = addr then some p else none

/-! ### The server -/

/-- `dhcp_recv_l3_packet`, `src/dhcp/common.c:386-400`, on a datagram: the return value and the packet. -/
def recvL3 (h : Wire.Host) (payload : List Byte) : Option (Int × List Byte) := do
  let p ← wr (List.replicate 628 0) 0 (payload.take 628)
  let cookie ← Wire.getUnaligned h 4 p 236
  if cookie ≠ Wire.htonl h 0x63825363 then some (-EPROTO, p)
  else some (((payload.take 628).length : Int), p)

/-- `check_packet_type`, `src/dhcp/server.c:421-443`.  A lookup that goes on for more than 2000 rounds counts as
undefined. -/
def checkType (pkt : List Byte) (plen : Nat) : Option Nat := do
  let hlen ← pkt[2]?
  if hlen ≠ 6 then some 0
  else do
    let op ← pkt[0]?
    if op ≠ 1 then some 0
    else match getOption pkt plen 0x35 2000 with
      | .null => some 0
      | .ptr i => do
        let t ← pkt[i]?
        if t < 1 then some 0 else if t > 8 then some 0 else some t.toNat
      | _ => none

/-- `if (option) v = get_be32(option)`. -/
def optBe32 (h : Wire.Host) (pkt : List Byte) : Res → Option (Option Nat)
  | .null => some none
  | .ptr i => (Wire.getBe h 4 pkt i).map some
  | _ => none

/-- The first half of `listener_event`, `src/dhcp/server.c:669-690`: the packet as `Verif.Server.recv` takes it, or
nothing if it is not looked at any further; `nip` is `server_nip`.  `chaddr` is the number of its first six bytes,
`ciaddr` the number in network order (the code compares the four bytes as they are, see
`Verif.Server.rawCiaddr`). -/
def parse (h : Wire.Host) (nip : Nat) (pkt : List Byte) (plen : Nat) : Option (Option Server.Pkt) := do
  let t ← checkType pkt plen
  if t = 0 then some none
  else do
    let sid ← optBe32 h pkt (getOption pkt plen 0x36 2000)
    if sid.isSome ∧ sid ≠ some nip then some none
    else do
      let req ← optBe32 h pkt (getOption pkt plen 0x32 2000)
      let mac ← rd pkt 28 6
      let ci ← Wire.getBe h 4 pkt 12
      some (some ⟨t, Wire.leVal mac.reverse, ci, sid, req⟩)

/-- The parts of a `GDHCPServer` that go into every answer: the byte order of its host, the address of its interface
(four bytes in network order) and `option_hash`, in the order of `g_hash_table_foreach`, with the texts already
converted by `inet_aton` and `ntohl` (options with other texts are left out by `add_option`). -/
structure Srvr where
  host : Wire.Host
  addr : List Byte
  opts : List (Nat × Nat)

/-- `get_interface_address`, `src/dhcp/server.c:315-350`: `s_addr` as it is, without `ntohl`. -/
def Srvr.nip (w : Srvr) : Nat := Wire.native w.host w.addr

/-- `*dst = *src` for `n` bytes at the same offset of two packets. -/
def copyField (src p : List Byte) (off n : Nat) : Option (List Byte) := do
  let d ← rd src off n
  wr p off d

/-- `init_packet`, `src/dhcp/server.c:445-461`; `cp` is the client's packet. -/
def replyPacket (w : Srvr) (junk cp : List Byte) (type : Byte) : Option (List Byte) := do
  let p ← initHeader w.host junk type
  let p ← copyField cp p 4 4
  let p ← copyField cp p 28 16
  let p ← copyField cp p 10 2
  let p ← copyField cp p 24 4
  let p ← copyField cp p 12 4
  addUint w.host junk p 4 0x36 w.nip

/-- `add_server_options` and `add_option`, `src/dhcp/server.c:463-492`. -/
def addServerOptions (w : Srvr) (junk p : List Byte) : List (Nat × Nat) → Option (List Byte)
  | [] => some p
  | (c, v) :: t => do
    let p ← if c = 1 ∨ c = 3 ∨ c = 6 then addUint w.host junk p 4 c v else some p
    addServerOptions w junk p t

/-- The packet of `send_offer` (type 2), `src/dhcp/server.c:541-582`, or `send_ACK` (type 5), `:598-616`. -/
def grant (w : Srvr) (junk cp : List Byte) (type : Byte) (nip seconds : Nat) : Option (List Byte) := do
  let p ← replyPacket w junk cp type
  let p ← putAddr w.host p 16 nip
  let p ← addUint w.host junk p 4 0x33 seconds
  addServerOptions w junk p w.opts

/-- A frame with the hardware address it is sent to. -/
structure Frame where
  hw : List Byte
  bytes : List Byte
  deriving DecidableEq, Repr

/-- The six bytes of `MAC_BCAST_ADDR`, `src/dhcp/common.h:39-41`. -/
def hwAll : List Byte := [255, 255, 255, 255, 255, 255]

/-- `dhcp_send_raw_packet` from the server; the first address is `server_nip` as it is. -/
def sendFrame (w : Srvr) (p dst hw : List Byte) : Option Frame := do
  let f ← Wire.sendRaw w.host p (Wire.layout w.host 4 w.nip) dst 67 68
  some ⟨hw, f⟩

/-- `send_packet_to_client`, `src/dhcp/server.c:518-539`. -/
def sendToClient (w : Srvr) (p : List Byte) : Option Frame := do
  let fl ← p[10]?
  let ci ← rd p 12 4
  if fl &&& 0x80 ≠ 0 ∨ ci = [0, 0, 0, 0] then sendFrame w p [255, 255, 255, 255] hwAll
  else do
    let ch ← rd p 28 6
    sendFrame w p ci ch

/-- The frames for one output of `Verif.Server`; `seconds` is `lease_seconds`; `send_NAK`, `src/dhcp/server.c:628-641`, and `send_inform`,
`:643-651`, are here. `save_lease` and the debug functions have no effect on the network. -/
def answer (w : Srvr) (seconds : Nat) (junk cp : List Byte) : Server.Out → Option (List Frame)
  | .offer _ nip => do
    let p ← grant w junk cp 2 nip seconds
    let f ← sendToClient w p
    some [f]
  | .ack _ nip seconds => do
    let p ← grant w junk cp 5 nip seconds
    let f ← sendToClient w p
    some [f]
  | .nak _ => do
    let p ← replyPacket w junk cp 6
    let f ← sendFrame w p [255, 255, 255, 255] hwAll
    some [f]
  | .inform _ => do
    let p ← replyPacket w junk cp 5
    let p ← addServerOptions w junk p w.opts
    let f ← sendToClient w p
    some [f]
  | .event _ _ => some []

/-- The frames for several outputs. -/
def answers (w : Srvr) (seconds : Nat) (junk cp : List Byte) : List Server.Out → Option (List Frame)
  | [] => some []
  | o :: t => do
    let a ← answer w seconds junk cp o
    let b ← answers w seconds junk cp t
    some (a ++ b)

/-- `listener_event`, `src/dhcp/server.c:653-762`, on a datagram. -/
def serve (w : Srvr) (s : Server.Srv) (now : Int) (mem : Bool) (junk payload : List Byte) :
    Option (Server.Srv × List Frame) := do
  let r ← recvL3 w.host payload
  if r.1 < 0 then some (s, [])
  else do
    let q ← parse w.host w.nip r.2 (r.1 % 65536).toNat
    match q with
    | none => some (s, [])
    | some p => do
      let t ← Server.recv s now p mem
      let fs ← answers w s.leaseSeconds junk r.2 t.2
      some (t.1, fs)

/-! ### There and back -/

/-- What surrounds one exchange: the memory client, server and the receiving client see, the time and whether the
server gets memory. -/
structure Trip where
  cli : Env
  srv : List Byte
  buf : List Byte
  now : Int
  mem : Bool

/-- The packets a client on a packet socket (mode L2) reads from frames: return value and buffer of
`dhcp_recv_l2_packet`. -/
def readFrames (h : Wire.Host) (buf : List Byte) : List Frame → Option (List (List Byte × Int))
  | [] => some []
  | f :: t => do
    let r ← Wire.recvL2 h f.bytes buf
    let rs ← readFrames h buf t
    some ((r.pkt, r.ret) :: rs)

/-- An output of the client goes to the server, and the answers come back to the client's packet socket. -/
def round (k : Cli) (w : Srvr) (x : Trip) (s : Server.Srv) (o : Client.Out) :
    Option (Server.Srv × List (List Byte × Int)) := do
  let m ← send k x.cli o
  match m.bind (arrives w.addr) with
  | none => some (s, [])
  | some d => do
    let r ← serve w s x.now x.mem x.srv d
    let ps ← readFrames k.host x.buf r.2
    some (r.1, ps)

end Verif.Dora
