import Verif.Spec.Phone
import Verif.Spec.P2p
import Verif.Model.DhcpLines
import Verif.Spec.Mac
/-! # Specification: the connection to a device ends -/
namespace Verif.Phone.Spec
open Verif.C

/-- What the controller does at the end of a session with `id`, with this player if any: it is killed, the connection is closed; then at most scanning is switched on again. -/
def Over (pid : Option Nat) (id : Nat) (did : List Sinkctl.Act) : Prop :=
  ∃ tail, did = (pid.map Sinkctl.Act.kill).toList ++ [.close, .stopped id] ++ tail ∧ (tail = [] ∨ ∃ l n, tail = [.scan l n true])

/-- The session is over in both programs: the player is killed, the connection closed, and the device can be met again: it is known as before, in no group, not connected. -/
def Ended (W W' : World) (p : Nat) (y : P2p.Peer) (q : Mirror.Peer) : Prop :=
  (∃ did, W'.w.app.log = W.w.app.log ++ did ∧ Over W.w.app.pid q.id did) ∧ W'.w.app.pid = none ∧ W'.w.app.isOpen = false ∧ W'.w.app.alive = true ∧ W'.idx = W.idx ∧
    ∃ y' q', Meet W' p y' q' ∧ y'.mac = y.mac ∧ y'.connected = false ∧ y'.remote = none ∧ y'.prov = y.prov ∧ y'.pin = y.pin ∧
      q'.id = q.id ∧ q'.connected = false ∧ q'.rem = some [] ∧ q'.l = q.l ∧ W'.w.links.map (·.id) = W.w.links.map (·.id) ∧ (W'.s.pending = W.s.pending ∨ W'.s.pending = none)

/-- What holds between two connections: the device is known, no other request is being taken, it can be answered with `ws`, there is no connection. -/
structure Between (W : World) (p : Nat) (y : P2p.Peer) (q : Mirror.Peer) (ws : List (List Byte)) : Prop where
  meet : Meet W p y q
  free : W.s.pending = none ∨ W.s.pending = some p
  pin : PinOk y.pin
  how : answer y.prov y.pin = some ws
  off : y.remote = none ∧ y.connected = false
  qoff : q.connected = false
  alive : W.w.app.alive = true
  closed : W.w.app.isOpen = false
  link : ∃ l ∈ W.w.links, l.id = q.l

/-- How a group of the device ends: wpa_supplicant says so, or its DHCP helper dies or closes its side of the socket. -/
inductive Ending
  | removed
  | died
  | closed
  deriving DecidableEq

/-- One connection, from the request of the device to the end of the group: the datagrams, the interface of the group, the lease (`P2p.clientLease`), how the group ends. -/
structure Round where
  d1 : List Byte
  ps1 : List Event.Spec.Piece
  d2 : List Byte
  ps2 : List Event.Spec.Piece
  d3 : List Byte
  ps3 : List Event.Spec.Piece
  i : List Byte
  role : List Byte
  old : Option (List Byte)
  a : List Byte
  gw : List Byte
  subnet : List (List Byte)
  dns : List (List Byte)
  gateway : List (List Byte)
  ending : Ending := .removed

/-- The device with this address asks, a group that it owns starts on a new interface, the lease comes, the group ends. -/
structure Round.Ok (r : Round) (mac : List Byte) (s : P2p.S) : Prop where
  asks : Line r.d1 (bytes "P2P-GO-NEG-REQUEST") r.ps1
  who : Event.Spec.arg 0 r.ps1 = some mac
  starts : Line r.d2 (bytes "P2P-GROUP-STARTED") r.ps2
  owner : Event.Spec.get (bytes "go_dev_addr") r.ps2 = some mac
  iface : Event.Spec.arg 0 r.ps2 = some r.i
  role : Event.Spec.arg 1 r.ps2 = some r.role
  client : r.role ≠ bytes "GO"
  fresh : ∀ g x, s.gheap g = some x → x.ifname ≠ r.i
  name : Ask.Spec.Unquoted r.i ∧ r.i.length ≤ 1000000000
  addr : P2p.Spec.Text r.a
  mask : ∀ t ∈ r.subnet, P2p.Spec.Text t
  names : ∀ t ∈ r.dns, P2p.Spec.Text t
  gate : P2p.Spec.Text r.gw
  new : r.old ≠ some (r.a ++ ch '/' :: r.subnet.headD (bytes "24"))
  ends : r.ending = .removed → Line r.d3 (bytes "P2P-GROUP-REMOVED") r.ps3
  which : r.ending = .removed → Event.Spec.arg 0 r.ps3 = some r.i

/-- What happens until the timer of the controller has run out; the group is the one numbered `g`. -/
def Round.begins (r : Round) (g : Nat) : List Ev :=
  [.line r.d1, .line r.d2] ++ (P2p.clientLease r.old (some r.a) r.subnet r.dns (r.gw :: r.gateway) true true).2.1.map (.helper g) ++ [.timer]

/-- What happens at the end. -/
def Round.ends (r : Round) (g : Nat) : Ev :=
  match r.ending with
  | .removed => .line r.d3
  | .died => .helperGone g true
  | .closed => .helperGone g false

/-- One connection in a group that this device owns, from the request of the device until it leaves: the datagrams, the interface of the group, the address of the device there, the address of
the helper and whether it is reported before the device joins, the lease (the bytes of the address it is for, how the helper writes them). -/
structure Hosted where
  d1 : List Byte
  ps1 : List Event.Spec.Piece
  d2 : List Byte
  ps2 : List Event.Spec.Piece
  d3 : List Byte
  ps3 : List Event.Spec.Piece
  d4 : List Byte
  ps4 : List Event.Spec.Piece
  i : List Byte
  own : List Byte
  sta : List Byte
  a : List Byte
  early : Bool
  bs : List Byte
  fs : List (List Byte)
  ip : List Byte

/-- The device with this address asks, a group that this device owns starts on a new interface with a free subnet, the device joins and gets a lease that is for no other device, and leaves. -/
structure Hosted.Ok (r : Hosted) (mac : List Byte) (p : Nat) (s : P2p.S) : Prop where
  asks : Line r.d1 (bytes "P2P-GO-NEG-REQUEST") r.ps1
  who : Event.Spec.arg 0 r.ps1 = some mac
  starts : Line r.d2 (bytes "P2P-GROUP-STARTED") r.ps2
  owner : Event.Spec.get (bytes "go_dev_addr") r.ps2 = some r.own
  iface : Event.Spec.arg 0 r.ps2 = some r.i
  role : Event.Spec.arg 1 r.ps2 = some (bytes "GO")
  self : s.p2pMac = some r.own
  notSelf : ∀ q z, s.pheap q = some z → z.mac ≠ r.own
  fresh : ∀ g x, s.gheap g = some x → x.ifname ≠ r.i
  free : ∃ n, 50 ≤ n ∧ n < 256 ∧ ∀ g x, s.gheap g = some x → x.subnet ≠ n
  name : Ask.Spec.Unquoted r.i ∧ r.i.length ≤ 1000000000
  joins : LineOf r.i r.d3 (bytes "AP-STA-CONNECTED") r.ps3
  joiner : Event.Spec.get (bytes "p2p_dev_addr") r.ps3 = some mac
  joined : Event.Spec.arg 0 r.ps3 = some r.sta
  addr : P2p.Spec.Text r.a
  six : r.bs.length = 6
  writes : Mac.Spec.WritesAll r.fs r.bs
  leased : mac = Mac.format r.bs ∨ r.sta = Mac.format r.bs
  unique : ∀ q z, s.pheap q = some z → (z.mac = Mac.format r.bs ∨ z.sta = some (Mac.format r.bs)) → q = p
  some_ : r.ip ≠ []
  text : P2p.Spec.Text (Mac.Spec.join r.fs ++ ch ' ' :: r.ip)
  leaves : Line r.d4 (bytes "AP-STA-DISCONNECTED") r.ps4
  leaver : Event.Spec.get (bytes "p2p_dev_addr") r.ps4 = some mac

/-- What happens until the timer of the controller has run out; the group is the one numbered `g`. -/
def Hosted.begins (r : Hosted) (g : Nat) : List Ev :=
  [.line r.d1, .line r.d2] ++ (if r.early then [.helper g (P2p.serverReady r.a), .line r.d3] else [.line r.d3, .helper g (P2p.serverReady r.a)]) ++
    [.helper g (P2p.serverEvent (Mac.Spec.join r.fs) r.ip), .timer]

/-- A connection of either kind. -/
inductive Turn
  | theirs (r : Round)
  | ours (r : Hosted)

/-- Of either kind, as above. -/
def Turn.Ok (mac : List Byte) (p : Nat) (s : P2p.S) : Turn → Prop
  | .theirs r => r.Ok mac s
  | .ours r => r.Ok mac p s

/-- What happens at first. -/
def Turn.begins (g : Nat) : Turn → List Ev
  | .theirs r => r.begins g
  | .ours r => r.begins g

/-- … and in the end. -/
def Turn.ends (g : Nat) : Turn → Ev
  | .theirs r => r.ends g
  | .ours r => .line r.d4

/-- The interface of the group. -/
def Turn.iface : Turn → List Byte
  | .theirs r => r.i
  | .ours r => r.i

/-- The address of the source: the gateway, or the address leased to the device. -/
def Turn.source : Turn → List Byte
  | .theirs r => r.gw
  | .ours r => r.ip

/-- Many, one after the other. -/
def turns : List Turn → Nat → List Ev
  | [], _ => []
  | r :: t, g => r.begins g ++ [r.ends g] ++ turns t (g + 1)

/-- The address connected to. -/
def dialled : Sinkctl.Act → Option (List Byte)
  | .connect t => t
  | _ => none

end Verif.Phone.Spec
