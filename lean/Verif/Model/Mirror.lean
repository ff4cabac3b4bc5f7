import Verif.C.Libc
import Verif.Model.Wifid
/-! # The controllers' copy of the links and peers

`src/ctl/ctl-wifi.c`.  The program using it (`wifictl.c`, `sinkctl.c`) is told about changes by functions
it supplies; they are a parameter (`Hooks`) and may undefinedly fail.  Objects carry their address
(`id`); addresses are never reused.  Allocations succeed.  Messages have the signature their member prescribes, but
variants may hold any type. -/
namespace Verif.Mirror
open Verif.C

/-- The content of a variant, as far as its type is read anywhere. -/
inductive Val where
  | s (v : List Byte)
  | b (v : Bool)
  | u (n : Nat)
  | other
deriving DecidableEq, Repr

/-- `a{sv}`. -/
abbrev Props := List (List Byte × Val)
/-- `a{sa{sv}}`. -/
abbrev Ifaces := List (List Byte × Props)

/-- `struct ctl_peer`, `src/ctl/ctl.h:55-68`; `l` is the address of its link. -/
structure Peer where
  id : Nat
  l : Nat
  label : List Byte
  mac : Option (List Byte) := none
  friendly : Option (List Byte) := none
  connected : Bool := false
  iface : Option (List Byte) := none
  loc : Option (List Byte) := none
  rem : Option (List Byte) := none
  wfd : Option (List Byte) := none
deriving DecidableEq, Repr

/-- `struct ctl_link`, `src/ctl/ctl.h:75-91`. -/
structure Link where
  id : Nat
  label : List Byte
  peers : List Peer := []
  haveScan : Bool := false
  ifindex : Nat := 0
  ifname : Option (List Byte) := none
  friendly : Option (List Byte) := none
  managed : Bool := false
  wfd : Option (List Byte) := none
  scanning : Bool := false
deriving DecidableEq, Repr

/-- `struct ctl_wifi`, `src/ctl/ctl.h:100-104`, the next free address, and the state of the program. -/
structure W (σ : Type) where
  links : List Link := []
  next : Nat := 1
  app : σ
deriving DecidableEq

/-- The functions the program supplies, `src/ctl/ctl.h:246-258`. -/
structure Hooks (σ : Type) where
  peerNew : Peer → W σ → Option (W σ)
  peerFree : Peer → W σ → Option (W σ)
  connected : Peer → W σ → Option (W σ)
  disconnected : Peer → W σ → Option (W σ)
  linkNew : Link → W σ → Option (W σ)
  linkFree : Link → W σ → Option (W σ)
  prov : Peer → List Byte → List Byte → W σ → Option (W σ)
  goNeg : Peer → List Byte → List Byte → W σ → Option (W σ)
  failure : Peer → List Byte → W σ → Option (W σ)

/-- What reading a value of the wrong type yields (`-ENXIO`). -/
def perr : Int := -6

/-! ### Looking up -/

/-- `ctl_wifi_find_link`, `ctl-wifi.c:1201-1217`. -/
def W.findLink {σ : Type} (w : W σ) (label : List Byte) : Option Link :=
  if label = [] then none else w.links.find? (fun l => caseEq l.label label)

/-- What follows the first `@`. -/
def afterAt (label : List Byte) : Option (List Byte) :=
  match label.dropWhile (· ≠ ch '@') with
  | [] => none
  | _ :: r => some r

/-- `ctl_wifi_find_link_by_peer`, `ctl-wifi.c:1249-1262`. -/
def W.linkByPeer {σ : Type} (w : W σ) (label : List Byte) : Option Link :=
  if label = [] then none else (afterAt label).bind w.findLink

/-- `ctl_link_find_peer`, `ctl-wifi.c:320-333`. -/
def Link.findPeer (l : Link) (label : List Byte) : Option Peer := l.peers.find? (fun p => caseEq p.label label)

/-- `ctl_wifi_find_peer`, `ctl-wifi.c:1279-1293`. -/
def W.findPeer {σ : Type} (w : W σ) (label : List Byte) : Option Peer :=
  if label = [] then none else (w.linkByPeer label).bind (·.findPeer label)

/-! ### Changing the lists -/

/-- A peer (if linked) is stored. -/
def W.putPeer {σ : Type} (w : W σ) (p : Peer) : W σ :=
  { w with links := w.links.map fun l => { l with peers := l.peers.map fun q => if q.id = p.id then p else q } }

/-- A link is stored. -/
def W.putLink {σ : Type} (w : W σ) (k : Link) : W σ :=
  { w with links := w.links.map fun l => if l.id = k.id then k else l }

/-- `shl_dlist_link_tail(&p->l->peers, &p->list)`. -/
def W.addPeer {σ : Type} (w : W σ) (p : Peer) : W σ :=
  { w with links := w.links.map fun l => if l.id = p.l then { l with peers := l.peers ++ [p] } else l }

/-- `shl_dlist_unlink(&p->list)`. -/
def W.delPeer {σ : Type} (w : W σ) (id : Nat) : W σ :=
  { w with links := w.links.map fun l => { l with peers := l.peers.filter (fun p => p.id ≠ id) } }

/-- `shl_dlist_unlink(&l->list)`. -/
def W.delLink {σ : Type} (w : W σ) (id : Nat) : W σ := { w with links := w.links.filter (fun l => l.id ≠ id) }

/-- `ctl_peer_free` for a linked peer, `ctl-wifi.c:35-53`. -/
def peerFree {σ : Type} (H : Hooks σ) (p : Peer) (w : W σ) : Option (W σ) := do
  let w ← H.peerFree p w
  some (w.delPeer p.id)

/-- The loop of `ctl_link_free`, `ctl-wifi.c:342-345`: the last peer first (given are those left, in that
order; the program does not change the list). -/
def freePeers {σ : Type} (H : Hooks σ) : List Peer → W σ → Option (W σ)
  | [], w => some w
  | p :: ps, w => do
    let w ← peerFree H p w
    freePeers H ps w

/-- `ctl_link_free` for a linked link, `ctl-wifi.c:335-357`. -/
def linkFree {σ : Type} (H : Hooks σ) (l : Link) (w : W σ) : Option (W σ) := do
  let w ← freePeers H l.peers.reverse w
  let w ← H.linkFree l w
  some (w.delLink l.id)

/-- The loop of `ctl_wifi_free`, `ctl-wifi.c:1143-1146`: the last link first (given are those left, in that order, as they
were at the start; the program does not change the list). -/
def freeLinks {σ : Type} (H : Hooks σ) : List Link → W σ → Option (W σ)
  | [], w => some w
  | l :: ls, w => do
    let w ← linkFree H l w
    freeLinks H ls w

/-! ### Properties -/

/-- `bus_message_read_basic_variant` for a string, `src/shared/util.h:159-181`. -/
def Val.str : Val → Option (List Byte)
  | .s v => some v
  | _ => none
/-- … for a boolean. -/
def Val.bool : Val → Option Bool
  | .b v => some v
  | _ => none
/-- … for an `unsigned int`. -/
def Val.uint : Val → Option Nat
  | .u n => some n
  | _ => none

/-- The local variables of `ctl_peer_parse_properties`. -/
structure PeerUpd where
  mac : Option (List Byte) := none
  friendly : Option (List Byte) := none
  conn : Option Bool := none
  iface : Option (List Byte) := none
  loc : Option (List Byte) := none
  rem : Option (List Byte) := none
  wfd : Option (List Byte) := none
deriving DecidableEq, Repr

/-- One property, `ctl-wifi.c:127-165`; `none` is a value of the wrong type. -/
def PeerUpd.read (u : PeerUpd) (t : List Byte) (v : Val) : Option PeerUpd :=
  if t = bytes "P2PMac" then v.str.map fun x => { u with mac := some x }
  else if t = bytes "FriendlyName" then v.str.map fun x => { u with friendly := some x }
  else if t = bytes "Connected" then v.bool.map fun x => { u with conn := some x }
  else if t = bytes "Interface" then v.str.map fun x => { u with iface := some x }
  else if t = bytes "LocalAddress" then v.str.map fun x => { u with loc := some x }
  else if t = bytes "RemoteAddress" then v.str.map fun x => { u with rem := some x }
  else if t = bytes "WfdSubelements" then v.str.map fun x => { u with wfd := some x }
  else some u

/-- The loop, `ctl-wifi.c:120-172`. -/
def readPeer : Props → PeerUpd → Option PeerUpd
  | [], u => some u
  | (t, v) :: r, u => do
    let u ← u.read t v
    readPeer r u

/-- The strings are stored, `ctl-wifi.c:178-236`. -/
def PeerUpd.apply (u : PeerUpd) (p : Peer) : Peer :=
  { p with mac := u.mac.or p.mac, friendly := u.friendly.or p.friendly, iface := u.iface.or p.iface,
           loc := u.loc.or p.loc, rem := u.rem.or p.rem, wfd := u.wfd.or p.wfd }

/-- `ctl_peer_parse_properties`, `ctl-wifi.c:103-248`. -/
def peerProps {σ : Type} (H : Hooks σ) (p : Peer) (ps : Props) (w : W σ) : Option (Int × Peer × W σ) :=
  match readPeer ps {} with
  | none => some (perr, p, w)
  | some u =>
    let p1 := u.apply p
    match u.conn with
    | none => some (0, p1, w.putPeer p1)
    | some c =>
      if p.connected = c then some (0, p1, w.putPeer p1)
      else
        let p2 := { p1 with connected := c }
        do
          let w ← (if c then H.connected else H.disconnected) p2 (w.putPeer p2)
          some (0, p2, w)

/-- The local variables of `ctl_link_parse_properties`. -/
structure LinkUpd where
  ifindex : Nat := 0
  ifname : Option (List Byte) := none
  friendly : Option (List Byte) := none
  managed : Option Bool := none
  scanning : Option Bool := none
  wfd : Option (List Byte) := none
deriving DecidableEq, Repr

/-- One property, `ctl-wifi.c:434-470`. -/
def LinkUpd.read (u : LinkUpd) (t : List Byte) (v : Val) : Option LinkUpd :=
  if t = bytes "InterfaceIndex" then v.uint.map fun x => { u with ifindex := x }
  else if t = bytes "InterfaceName" then v.str.map fun x => { u with ifname := some x }
  else if t = bytes "FriendlyName" then v.str.map fun x => { u with friendly := some x }
  else if t = bytes "Managed" then v.bool.map fun x => { u with managed := some x }
  else if t = bytes "P2PScanning" then v.bool.map fun x => { u with scanning := some x }
  else if t = bytes "WfdSubelements" then v.str.map fun x => { u with wfd := some x }
  else some u

/-- The loop, `ctl-wifi.c:427-477`. -/
def readLink : Props → LinkUpd → Option LinkUpd
  | [], u => some u
  | (t, v) :: r, u => do
    let u ← u.read t v
    readLink r u

/-- The values are stored, `ctl-wifi.c:483-520`. -/
def LinkUpd.apply (u : LinkUpd) (l : Link) : Link :=
  { l with ifindex := if u.ifindex ≠ 0 then u.ifindex else l.ifindex, ifname := u.ifname.or l.ifname, friendly := u.friendly.or l.friendly,
           managed := u.managed.getD l.managed, scanning := u.scanning.getD l.scanning, wfd := u.wfd.or l.wfd }

/-- `ctl_link_parse_properties`, `ctl-wifi.c:408-523`; `none` is a value of the wrong type. -/
def linkProps (l : Link) (ps : Props) : Option Link := (readLink ps {}).map (·.apply l)

/-! ### Objects -/

/-- The name of the interface of links. -/
def linkIf : List Byte := bytes "org.freedesktop.miracle.wifi.Link"
/-- The name of the interface of peers. -/
def peerIf : List Byte := bytes "org.freedesktop.miracle.wifi.Peer"

/-- `sd_bus_path_decode`; the label is a C string. -/
def labelOf (pre path : List Byte) : Option (List Byte) := (Wifid.decode pre path).map (·.takeWhile (· ≠ 0))

/-- The loop of `ctl_wifi_parse_link`, `ctl-wifi.c:777-803`; `none` is a parse error. -/
def linkIfs : Ifaces → Link → Option Link
  | [], l => some l
  | (t, ps) :: r, l => if t ≠ linkIf then linkIfs r l else (linkProps l ps).bind (linkIfs r)

/-- `ctl_wifi_parse_link`, `ctl-wifi.c:761-813`. -/
def parseLink {σ : Type} (H : Hooks σ) (label : List Byte) (ifs : Ifaces) (w : W σ) : Option (Int × W σ) :=
  match linkIfs ifs { id := w.next, label := label } with
  | none => some (perr, { w with next := w.next + 1 })
  | some l => do
    let w ← H.linkNew l { w with links := w.links ++ [l], next := w.next + 1 }
    some (0, w)

/-- The loop of `ctl_wifi_parse_peer`, `ctl-wifi.c:836-862`; the inner `none` is a parse error. -/
def peerIfs {σ : Type} (H : Hooks σ) : Ifaces → Peer → W σ → Option (Option Peer × W σ)
  | [], p, w => some (some p, w)
  | (t, ps) :: r, p, w =>
    if t ≠ peerIf then peerIfs H r p w
    else do
      let (e, p, w) ← peerProps H p ps w
      if e < 0 then some (none, w) else peerIfs H r p w

/-- `ctl_wifi_parse_peer`, `ctl-wifi.c:815-872`: the result, whether the payload was read, and the state. -/
def parsePeer {σ : Type} (H : Hooks σ) (label : List Byte) (ifs : Ifaces) (w : W σ) : Option (Int × Bool × W σ) :=
  match w.linkByPeer label with
  | none => some (0, false, w)
  | some l => do
    let (o, w) ← peerIfs H ifs { id := w.next, l := l.id, label := label } { w with next := w.next + 1 }
    match o with
    | none => some (perr, false, w)
    | some p =>
      let w ← H.peerNew p (w.addPeer p)
      some (0, true, w)

/-- `ctl_wifi_parse_object`, `ctl-wifi.c:874-929`; no interfaces means that the object was removed. -/
def parseObject {σ : Type} (H : Hooks σ) (path : List Byte) (ifs : Option Ifaces) (w : W σ) : Option (Int × Bool × W σ) :=
  match labelOf Wifid.linkPre path with
  | some label =>
    match w.findLink label, ifs with
    | none, some i => do
      let (r, w) ← parseLink H label i w
      some (r, true, w)
    | some l, none => do
      let w ← linkFree H l w
      some (0, true, w)
    | _, _ => some (0, true, w)
  | none =>
    match labelOf Wifid.peerPre path with
    | some label =>
      match w.findPeer label, ifs with
      | none, some i => parsePeer H label i w
      | some p, none => do
        let w ← peerFree H p w
        some (0, true, w)
      | _, _ => some (0, true, w)
    | none => some (0, true, w)

/-- The loop of `ctl_wifi_fetch`, `ctl-wifi.c:1180-1192`: leaving an entry whose payload was not read fails. -/
def fetch {σ : Type} (H : Hooks σ) : List (List Byte × Ifaces) → W σ → Option (Int × W σ)
  | [], w => some (0, w)
  | (path, ifs) :: r, w => do
    let (e, read, w) ← parseObject H path (some ifs) w
    if e < 0 then some (e, w)
    else if !read then some (-EBUSY, w)
    else fetch H r w

/-- The messages that are listened to. -/
inductive Msg where
  | added (path : List Byte) (ifs : Ifaces)
  | removed (path : List Byte)
  | changed (path iface : List Byte) (ps : Props)
  | prov (path a b : List Byte)
  | goNeg (path a b : List Byte)
  | failure (path a : List Byte)
  /-- The reply to `GetManagedObjects`. -/
  | objects (l : List (List Byte × Ifaces))

/-- The peer a signal of a peer is about, `ctl-wifi.c:1016-1031`. -/
def W.peerAt {σ : Type} (w : W σ) (path : List Byte) : Option Peer := (labelOf Wifid.peerPre path).bind w.findPeer

/-- `ctl_wifi_object_fn`, `ctl_wifi_properties_fn`, `ctl_wifi_peer_fn`, `ctl_wifi_fetch`, `ctl-wifi.c:931-1069, 1153-1199`. -/
def receive {σ : Type} (H : Hooks σ) (w : W σ) : Msg → Option (Int × W σ)
  | .added path ifs => do
    let (r, _, w) ← parseObject H path (some ifs) w
    some (r, w)
  | .removed path => do
    let (r, _, w) ← parseObject H path none w
    some (r, w)
  | .changed path iface ps =>
    match labelOf Wifid.linkPre path with
    | some label =>
      match w.findLink label with
      | none => some (0, w)
      | some l =>
        if iface ≠ linkIf then some (0, w)
        else match linkProps l ps with
          | none => some (perr, w)
          | some l => some (0, w.putLink l)
    | none =>
      match w.peerAt path with
      | none => some (0, w)
      | some p =>
        if iface ≠ peerIf then some (0, w)
        else do
          let (r, _, w) ← peerProps H p ps w
          some (r, w)
  | .prov path a b => match w.peerAt path with
    | none => some (0, w)
    | some p => do
      let w ← H.prov p a b w
      some (0, w)
  | .goNeg path a b => match w.peerAt path with
    | none => some (0, w)
    | some p => do
      let w ← H.goNeg p a b w
      some (0, w)
  | .failure path a => match w.peerAt path with
    | none => some (0, w)
    | some p => do
      let w ← H.failure p a w
      some (0, w)
  | .objects l => fetch H l w

/-- A sequence of messages; errors are dropped by the bus library. -/
def runMsgs {σ : Type} (H : Hooks σ) (w : W σ) : List Msg → Option (W σ)
  | [] => some w
  | m :: ms => do
    let (_, w) ← receive H w m
    runMsgs H w ms

end Verif.Mirror
