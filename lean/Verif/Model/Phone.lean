import Verif.Model.Event
import Verif.Model.Ask
import Verif.Model.Bus
import Verif.Model.Sinkctl
/-!
# A phone asks to be connected: daemon and sink controller together

One link of the Wi-Fi daemon (`Model/P2p`, `Model/Event`, `Model/Ask`) and the sink controller (`Model/Sinkctl`) with the bus between them: the signals of peers
(`src/wifi/wifid-dbus.c:366-455`) and the call of `Connect` (`src/wifi/wifid-dbus.c:72-92`, `src/ctl/ctl-wifi.c:250-282`).  A message on the bus is delivered before
anything else happens.  Signals about links, and of peers that appear or go, are the subject of `Model/Bus` and are not passed on here.
-/
namespace Verif.Phone
open Verif.C

/-- The two programs: the number of the link's interface, the peers and groups of the link, the controller, and the datagrams sent to wpa_supplicant for requests
to connect and to remove groups. -/
structure World where
  idx : Nat
  s : P2p.S
  w : Sinkctl.S
  sent : List (List Byte) := []

/-- What the bus can read of a peer: `peer_get_interface` and the like, `src/wifi/wifid-peer.c:110-132`, on `src/wifi/wifid-supplicant.c:708-730`: nothing
without a group.  Name and sub-elements do not change in these events. -/
def values (s : P2p.S) (y : P2p.Peer) : Daemon.PV :=
  { connected := y.connected
    iface := (y.g.bind s.gheap).map (·.ifname)
    loc := (y.g.bind s.gheap).bind (·.localAddr)
    rem := if y.g.isSome then y.remote else none }

/-- The properties of the signal of `peer_supplicant_connected_changed`, `src/wifi/wifid-peer.c:229-233`. -/
def four : List (List Byte) := [bytes "Connected", bytes "Interface", bytes "LocalAddress", bytes "RemoteAddress"]

/-- `peer_dbus_provision_discovery`, `peer_dbus_go_neg_request`, `src/wifi/wifid-dbus.c:388-440`: no type, no signal; no PIN is the empty text. -/
def asks (f : List Byte → List Byte → List Byte → Mirror.Msg) (idx : Nat) (y : P2p.Peer) : Option Mirror.Msg :=
  y.prov.map fun t => f (Wifid.peerPath y.mac idx) t (y.pin.getD [])

/-- The signal on the bus.  The values are those after the event, which for the events here are those at the time of the signal (a signal of a peer that is freed in the
same event is not passed on).  The text of a failure is not kept (`Model/P2p`), the controller only prints it. -/
def signal (idx : Nat) (s : P2p.S) : P2p.Out → Option Mirror.Msg
  | .provision p => (s.pheap p).bind (asks .prov idx)
  | .negotiation p => (s.pheap p).bind (asks .goNeg idx)
  | .connected p _ => (s.pheap p).map fun y =>
      .changed (Wifid.peerPath y.mac idx) Mirror.peerIf (((values s y).props y.mac).filter fun q => q.1 ∈ four)
  | .failure p => (s.pheap p).map fun y => .failure (Wifid.peerPath y.mac idx) []
  | _ => none

/-- `peer_dbus_connect`, `src/wifi/wifid-dbus.c:72-92`: an empty text or `auto` is no method, an empty text is no PIN. -/
def given (prov pin : List Byte) : Option (List Byte) × Option (List Byte) :=
  (if prov = [] ∨ prov = bytes "auto" then none else some prov, if pin = [] then none else some pin)

/-- The call that reaches the link: `peer_dbus_find`, `src/wifi/wifid-dbus.c:316-364` (the label up to `@` is the address of the peer, what follows the number of the
link).  Allocations succeed. -/
def called (idx : Nat) : Sinkctl.Act → Option P2p.Op
  | .accept label prov pin =>
    if Mirror.afterAt label = some (dec idx) then
      some (.connect (label.takeWhile (· ≠ ch '@')) (given prov pin).1 (given prov pin).2 true)
    else none
  | _ => none

/-- The datagrams of a request (`Model/Ask`). -/
def request (jk : Nat → Byte) : P2p.Out → Option (List (List Byte))
  | .connect mac prov pin => (Ask.connect jk mac (some prov) pin none none).map (·.2.toList)
  | .groupRemove i => (Ask.removeGroup jk i).map (·.2.toList)
  | _ => some []

/-- Those of many. -/
def requests (jk : Nat → Byte) : List P2p.Out → Option (List (List Byte))
  | [] => some []
  | o :: t => (request jk o).bind fun a => (requests jk t).map (a ++ ·)

/-- What the controller is told. -/
def told (idx : Nat) (s s1 : P2p.S) : List Sinkctl.Ev := ((s1.log.drop s.log.length).filterMap (signal idx s1)).map .msg

/-- What the controller then calls. -/
def calls (idx : Nat) (w w1 : Sinkctl.S) : List P2p.Op := (w1.app.log.drop w.app.log.length).filterMap (called idx)

/-- The peers and groups have changed: the signals are delivered, the calls of the controller are answered, the requests leave.  Calling `Connect` causes no signal. -/
def exchange (jk : Nat → Byte) (E : Sinkctl.Env) (W : World) (s1 : P2p.S) : Option World :=
  (Sinkctl.run E W.w (told W.idx W.s s1)).bind fun w1 =>
    (s1.run (calls W.idx W.w w1)).bind fun s2 =>
      (requests jk (s2.log.drop W.s.log.length)).map fun ds => { W with s := s2, w := w1, sent := W.sent ++ ds }

/-- What happens: a datagram of wpa_supplicant on the socket of the link, a line of the DHCP helper of a group, the end of that helper (it died,
`src/wifi/wifid-supplicant.c:340-352`, or its side of the socket is closed, `src/wifi/wifid-supplicant.c:251-253`), the timer of the controller that connects to the source. -/
inductive Ev
  | line (d : List Byte)
  | helper (g : Nat) (l : List Byte)
  | helperGone (g : Nat) (died : Bool)
  | timer
  deriving DecidableEq, Repr

/-- One event; `none` is undefined behaviour. -/
def step (jk : Nat → Byte) (env : Event.Env) (E : Sinkctl.Env) (W : World) : Ev → Option World
  | .line d =>
    match Wpas.recv jk false d with
    | none => none
    | some none => some W
    | some (some m) => ((Event.onSocket env true .dev m).bind (·.run env W.s)).bind (exchange jk E W)
  | .helper g l => (W.s.step (.comm g (.line l) true true)).bind (exchange jk E W)
  | .helperGone g died => (W.s.step (if died then .helperDied g else .comm g .hup true true)).bind (exchange jk E W)
  | .timer => (Sinkctl.step E W.w .sinkTimer).map fun w => { W with w := w }

/-- Many. -/
def run (jk : Nat → Byte) (env : Event.Env) (E : Sinkctl.Env) (W : World) : List Ev → Option World
  | [] => some W
  | e :: t => (step jk env E W e).bind fun W => run jk env E W t

end Verif.Phone
