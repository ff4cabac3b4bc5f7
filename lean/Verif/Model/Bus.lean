import Verif.Model.Mirror
/-!
# What the wifi daemon says on the bus

`src/wifi/wifid-dbus.c` on top of `Model/Wifid.lean`: the messages with their contents, among them the values of the properties of peers and of
`P2PScanning`, which that model leaves out. What wpa_supplicant reports about a peer, and that its connection comes and goes, are events here
(`Model/P2p.lean` is the model of when they happen). Sending a message never fails. Texts have no NUL.
-/
namespace Verif.Daemon
open Verif.C

/-- What is known of a peer: `friendly_name`, `wfd_subelements` of `struct supplicant_peer` (`src/wifi/wifid-supplicant.c:63-74`), `connected` of
`struct peer` (`src/wifi/wifid.h:65-80`), and the interface and addresses of its group. -/
structure PV where
  friendly : Option (List Byte) := none
  wfd : Option (List Byte) := none
  connected : Bool := false
  iface : Option (List Byte) := none
  loc : Option (List Byte) := none
  rem : Option (List Byte) := none
deriving DecidableEq, Repr

/-- The value of a property that may be missing: a null pointer is sent as the empty text (libsystemd). -/
def text (x : Option (List Byte)) : Mirror.Val := .s (x.getD [])

/-- The properties of a peer, `src/wifi/wifid-dbus.c:104-256` in the order of the table `:258-314`; `peer_get_interface` and the like give nothing unless connected
(`src/wifi/wifid-peer.c:110-132`). The value of `Link`, an object path, is read by nobody. -/
def PV.props (pv : PV) (mac : List Byte) : Mirror.Props :=
  [(bytes "Link", .other), (bytes "P2PMac", .s mac), (bytes "FriendlyName", .s (pv.friendly.getD (bytes "<unknown>"))), (bytes "Connected", .b pv.connected),
   (bytes "Interface", text (if pv.connected then pv.iface else none)), (bytes "LocalAddress", text (if pv.connected then pv.loc else none)),
   (bytes "RemoteAddress", text (if pv.connected then pv.rem else none)), (bytes "WfdSubelements", text pv.wfd)]

/-- The properties of a link, `src/wifi/wifid-dbus.c:498-663` in the order of the table `:683-720`. -/
def linkProps (idx : Nat) (v : Wifid.View) (scan : Bool) : Mirror.Props :=
  [(bytes "InterfaceIndex", .u idx), (bytes "InterfaceName", .s v.name), (bytes "FriendlyName", text v.friendly), (bytes "Managed", .b v.managed),
   (bytes "P2PScanning", .b scan), (bytes "WfdSubelements", text v.wfd)]

/-- A changed property of a link. -/
def valProp : Wifid.Val → List Byte × Mirror.Val
  | .name v => (bytes "InterfaceName", .s v)
  | .friendly v => (bytes "FriendlyName", text v)
  | .wfd v => (bytes "WfdSubelements", text v)

/-- The daemon: its objects, what it knows of peers, which links are scanning (`supplicant_p2p_scanning`, `src/wifi/wifid-supplicant.c:2096-2099`), and all
messages sent. -/
structure D where
  m : Wifid.Mgr := {}
  px : List Byte → Nat → PV := fun _ _ => {}
  scan : Nat → Bool := fun _ => false
  out : List Mirror.Msg := []

/-- A peer of the daemon. -/
def has (m : Wifid.Mgr) (mac : List Byte) (idx : Nat) : Option Wifid.Peer := (m.find idx).bind fun l => l.peers.find? fun p => p.mac == mac

/-- Is a link managed? -/
def managed (m : Wifid.Mgr) (idx : Nat) : Bool := (m.find idx).any (·.managed)

/-- The message for a signal: `link_dbus_added` … `:770-810`, `peer_dbus_added`, `peer_dbus_removed` `:456-492`, `link_dbus_properties_changed` `:748-768` of
`src/wifi/wifid-dbus.c`. The last three kinds go to wpa_supplicant. -/
def sigMsg (px : List Byte → Nat → PV) (scan : Nat → Bool) : Wifid.Sig → Option Mirror.Msg
  | .added (.link i) v => v.map fun v => .added (Wifid.linkPath i) [(Mirror.linkIf, linkProps i v (scan i))]
  | .added (.peer mac i) _ => some (.added (Wifid.peerPath mac i) [(Mirror.peerIf, (px mac i).props mac)])
  | .removed o => some (.removed o.path)
  | .changed (.link i) x => some (.changed (Wifid.linkPath i) Mirror.linkIf [valProp x])
  | .changed (.peer _ _) _ => none
  | .config .. => none
  | .device .. => none
  | .subelem .. => none

/-- The supplicant of link `i` fails in this event. -/
def isLost (i : Nat) : Wifid.Op → Bool
  | .lost j => i = j
  | _ => false

/-- What is known of peers after an event: a peer that is created starts without values (`supplicant_peer_new`, `src/wifi/wifid-supplicant.c:647-675`). -/
def keepPx (d : D) : List Byte → Nat → PV := fun mac i => if (has d.m mac i).isSome then d.px mac i else {}

/-- Which links are scanning after an event: the scan ends, without a signal, when the link is not managed any more or its supplicant fails
(`supplicant_stopped`, `src/wifi/wifid-supplicant.c:1901-1923`). -/
def keepScan (d : D) (m : Wifid.Mgr) (e : Wifid.Op) : Nat → Bool := fun i => d.scan i && managed m i && !isLost i e

/-- An event of `Model/Wifid.lean`. -/
def D.base (o : Wifid.Opts) (zx : Bool) (d : D) (e : Wifid.Op) : Option D :=
  (Wifid.step o zx d.m e).map fun m =>
    { m := m, px := keepPx d, scan := keepScan d m e,
      out := d.out ++ (m.log.drop d.m.log.length).filterMap (sigMsg (keepPx d) (keepScan d m e)) }

/-- Values of a peer change and a signal with some properties is sent if it is public (`peer_dbus_properties_changed`, `src/wifi/wifid-dbus.c:366-386`; none
for an empty list). -/
def D.set (d : D) (mac : List Byte) (idx : Nat) (f : PV → PV) (names : List (List Byte)) : D :=
  match has d.m mac idx with
  | none => d
  | some p =>
    let pv := f (d.px mac idx)
    { d with
      px := fun m i => if m = mac ∧ i = idx then pv else d.px m i
      out := d.out ++ if p.pub && !names.isEmpty then [.changed (Wifid.peerPath mac idx) Mirror.peerIf ((pv.props mac).filter fun q => q.1 ∈ names)] else [] }

/-- The name is stored, `src/wifi/wifid-supplicant.c:868-885`. -/
def D.setFriendly (d : D) (mac : List Byte) (idx : Nat) : Option (List Byte) → D
  | none => d
  | some t => d.set mac idx (fun pv => { pv with friendly := some t }) [bytes "FriendlyName"]

/-- The sub-elements are stored, `src/wifi/wifid-supplicant.c:887-916`. -/
def D.setWfd (d : D) (mac : List Byte) (idx : Nat) : Option (List Byte) → D
  | none => d
  | some t => d.set mac idx (fun pv => { pv with wfd := some t }) [bytes "WfdSubelements"]

/-- What can happen. -/
inductive Op where
  | base (e : Wifid.Op)
  /-- wpa_supplicant reports a peer; name and sub-elements may be missing. -/
  | found (a : Wifid.Alloc) (pos idx : Nat) (mac : List Byte) (running : Bool) (friendly wfd : Option (List Byte))
  /-- `peer_supplicant_connected_changed`. -/
  | conn (mac : List Byte) (idx : Nat) (c : Bool)
  /-- The interface or the addresses of the group of a peer change. -/
  | addr (mac : List Byte) (idx : Nat) (iface loc rem : Option (List Byte))
  /-- wpa_supplicant has started or stopped to scan. -/
  | scan (idx : Nat) (v : Bool)

/-- `supplicant_parse_peer`, `src/wifi/wifid-supplicant.c:848-920`: the peer is created if need be, gets its values, and becomes public. -/
def D.found (o : Wifid.Opts) (zx : Bool) (d : D) (a : Wifid.Alloc) (pos idx : Nat) (mac : List Byte) (running : Bool) (friendly wfd : Option (List Byte)) : Option D :=
  (d.base o zx (.peer a pos idx mac false)).bind fun d =>
    let d := (d.setFriendly (Mac.format (Mac.scan zx 6 mac)) idx friendly).setWfd (Mac.format (Mac.scan zx 6 mac)) idx wfd
    d.base o zx (.peer a pos idx mac running)

/-- One event; `conn`: `peer_supplicant_connected_changed`, `src/wifi/wifid-peer.c:223-234`; `addr`: `src/wifi/wifid-supplicant.c:269-309`; `scan`:
`supplicant_event_p2p_find_stopped`, `supplicant_p2p_find_fn`, `src/wifi/wifid-supplicant.c:922-931, 1925-1945`. -/
def step (o : Wifid.Opts) (zx : Bool) (d : D) : Op → Option D
  | .base e => d.base o zx e
  | .found a pos idx mac running friendly wfd => d.found o zx a pos idx mac running friendly wfd
  | .conn mac idx c =>
    some (if (d.px mac idx).connected = c then d
      else d.set mac idx (fun pv => { pv with connected := c }) [bytes "Connected", bytes "Interface", bytes "LocalAddress", bytes "RemoteAddress"])
  | .addr mac idx iface loc rem => some (d.set mac idx (fun pv => { pv with iface := iface, loc := loc, rem := rem }) [])
  | .scan idx v =>
    some (if managed d.m idx = false ∨ d.scan idx = v then d
      else { d with
        scan := fun i => if i = idx then v else d.scan i
        out := d.out ++ [.changed (Wifid.linkPath idx) Mirror.linkIf [(bytes "P2PScanning", .b v)]] })

/-- Many events. -/
def run (o : Wifid.Opts) (zx : Bool) (d : D) : List Op → Option D
  | [] => some d
  | e :: t => (step o zx d e).bind fun d => run o zx d t

/-- What `GetManagedObjects` says of a link and its public peers; `std` are the interfaces every object has. -/
def linkObjects (std : Mirror.Ifaces) (d : D) (l : Wifid.Link) : List (List Byte × Mirror.Ifaces) :=
  (Wifid.linkPath l.idx, std ++ [(Mirror.linkIf, linkProps l.idx l.view (d.scan l.idx))]) ::
    (l.peers.filter (·.pub)).map fun p => (Wifid.peerPath p.mac l.idx, std ++ [(Mirror.peerIf, (d.px p.mac l.idx).props p.mac)])

/-- The reply to `GetManagedObjects` in the order of the enumeration (`Wifid.Mgr.enumerate`); newer versions of libsystemd keep that order. -/
def D.objects (std : Mirror.Ifaces) (d : D) : List (List Byte × Mirror.Ifaces) := d.m.links.flatMap (linkObjects std d) ++ [(Wifid.root, std)]

end Verif.Daemon
