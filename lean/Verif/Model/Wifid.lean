import Verif.C.Libc
import Verif.Model.Mac
import Verif.Model.Atoi
/-!
# Links, peers and their objects on the bus

Model of `src/wifi/wifid-link.c`, `src/wifi/wifid-peer.c`, `src/wifi/wifid-dbus.c` and of the device handling of `src/wifi/wifid.c`. The supplicant behind a link
(`src/wifi/wifid-supplicant.c`) appears only through the calls it makes (`Model/P2p.lean` and `Model/Super.lean` are its models).

The hash tables `links` and `peers` are lists in the order of iteration without duplicates (see C11, C12); a new element may appear at any place of
that order. Texts have no NUL. Sending a signal never fails.
-/
namespace Verif.Wifid
open Verif.C

/-! ### Paths of objects -/

/-- A letter. -/
def isAlpha (c : Byte) : Bool := (97 ≤ c && c ≤ 122) || (65 ≤ c && c ≤ 90)
/-- A decimal digit. -/
def isNum (c : Byte) : Bool := 48 ≤ c && c ≤ 57

/-- The characters of a label: letters and, except in front, digits are kept. -/
def escapeFrom (first : Bool) : List Byte → List Byte
  | [] => []
  | c :: t => (if isAlpha c || (isNum c && !first) then [c] else 95 :: Mac.hex2 c) ++ escapeFrom false t

/-- The label of an object path for a text, as made by `sd_bus_path_encode` (libsystemd). -/
def escape (s : List Byte) : List Byte := if s = [] then [95] else escapeFrom true s

/-- The value of a hexadecimal digit (libsystemd). -/
def unhex (c : Byte) : Option Nat :=
  if isNum c then some (c.toNat - 48)
  else if 97 ≤ c && c ≤ 102 then some (c.toNat - 87)
  else if 65 ≤ c && c ≤ 70 then some (c.toNat - 55)
  else none

/-- The characters of a text from a label. -/
def unescapeAll : List Byte → List Byte
  | [] => []
  | [c] => [c]
  | [c, d] => [c, d]
  | c :: d :: e :: t =>
    match (if c = 95 then (unhex d).bind fun a => (unhex e).map fun b => a * 16 + b else none) with
    | some v => UInt8.ofNat v :: unescapeAll t
    | none => c :: unescapeAll (d :: e :: t)

/-- `sd_bus_path_decode` after the prefix has been removed (libsystemd). -/
def unescape (s : List Byte) : List Byte := if s = [95] then [] else unescapeAll s

/-- An object path. -/
abbrev Path := List Byte

/-- The path of the manager. -/
def root : Path := bytes "/org/freedesktop/miracle/wifi"
/-- What paths of links begin with. -/
def linkPre : Path := bytes "/org/freedesktop/miracle/wifi/link"
/-- What paths of peers begin with. -/
def peerPre : Path := bytes "/org/freedesktop/miracle/wifi/peer"

/-- `link_dbus_get_path`, `src/wifi/wifid-dbus.c:50-66`. -/
def linkPath (idx : Nat) : Path := linkPre ++ ch '/' :: escape (dec idx)

/-- `peer_dbus_get_path`, `src/wifi/wifid-dbus.c:32-48`. -/
def peerPath (mac : List Byte) (idx : Nat) : Path := peerPre ++ ch '/' :: escape (mac ++ ch '@' :: dec idx)

/-- An object on the bus below the manager. -/
inductive Obj where
  | link (idx : Nat)
  | peer (mac : List Byte) (idx : Nat)
deriving DecidableEq, Repr

/-- Its path. -/
def Obj.path : Obj → Path
  | .link idx => linkPath idx
  | .peer mac idx => peerPath mac idx

/-- `sd_bus_path_decode` with a prefix; the path of the prefix itself is left out. -/
def decode (pre path : Path) : Option (List Byte) :=
  if (pre ++ [ch '/']).isPrefixOf path then some (unescape (path.drop (pre.length + 1))) else none

/-! ### State -/

/-- What a client can read of a link: the properties with the flag "emits change" (`src/wifi/wifid-dbus.c:676-712`). -/
structure View where
  name : List Byte
  friendly : Option (List Byte)
  wfd : Option (List Byte)
  managed : Bool
deriving DecidableEq, Repr

/-- A property with its new value. -/
inductive Val where
  | name (v : List Byte)
  | friendly (v : Option (List Byte))
  | wfd (v : Option (List Byte))
deriving DecidableEq, Repr

/-- What the daemon does that can be seen: signals on the bus, and what wpa_supplicant is told. A signal carries the path of its object. -/
inductive Sig where
  /-- `InterfacesAdded`, with the properties for a link. -/
  | added (o : Obj) (v : Option View)
  /-- `InterfacesRemoved`. -/
  | removed (o : Obj)
  /-- `PropertiesChanged`. -/
  | changed (o : Obj) (v : Val)
  /-- The configuration with which wpa_supplicant is started. -/
  | config (idx : Nat) (text : List Byte)
  /-- `SET device_name`. -/
  | device (idx : Nat) (name : List Byte)
  /-- `WFD_SUBELEM_SET 0`. -/
  | subelem (idx : Nat) (val : List Byte)
deriving DecidableEq, Repr

/-- `struct peer`, `src/wifi/wifid.h:65-80`. -/
structure Peer where
  mac : List Byte
  pub : Bool
deriving DecidableEq, Repr

/-- `struct link`, `src/wifi/wifid.h:118-141`. -/
structure Link where
  idx : Nat
  name : List Byte
  pub : Bool := true
  managed : Bool := false
  friendly : Option (List Byte) := none
  wfd : Option (List Byte) := none
  methods : Option (List Byte) := none
  driver : Option (List Byte) := none
  intent : Nat := 0
  /-- `peers`. -/
  peers : List Peer := []
  /-- `peer_cnt`. -/
  cnt : Nat := 0
deriving DecidableEq, Repr

/-- `struct manager`, `src/wifi/wifid.h:187-203`. -/
structure Mgr where
  links : List Link := []
  /-- `link_cnt`. -/
  cnt : Nat := 0
  log : List Sig := []
deriving DecidableEq, Repr

/-- The settings of the daemon, `src/wifi/wifid.c:45-54`, the name of the host (`manager_read_name`, `src/wifi/wifid.c:367-418`) and how it was built. -/
structure Opts where
  /-- `RELY_UDEV`. -/
  rely : Bool := false
  iface : Option (List Byte) := none
  lazy : Bool := false
  host : Option (List Byte) := none
  methods : Option (List Byte) := none
  driver : Option (List Byte) := none
  /-- `go_intent`, an `unsigned int`. -/
  intent : Nat := 0
deriving DecidableEq, Repr

/-- A `size_t` plus one. -/
def inc (n : Nat) : Nat := (n + 1) % W64
/-- A `size_t` minus one. -/
def decr (n : Nat) : Nat := (n + (W64 - 1)) % W64

/-- Signals are sent. -/
def Mgr.emit (s : Mgr) (g : List Sig) : Mgr := { s with log := s.log ++ g }

/-- `manager_find_link`, `src/wifi/wifid.c:61-71`. -/
def Mgr.find (s : Mgr) (idx : Nat) : Option Link := s.links.find? (fun l => l.idx == idx)

/-- A link is changed in place. -/
def Mgr.update (s : Mgr) (idx : Nat) (f : Link → Link) : Mgr :=
  { s with links := s.links.map fun l => if l.idx = idx then f l else l }

/-- What a client can read of a link. -/
def Link.view (l : Link) : View := ⟨l.name, l.friendly, l.wfd, l.managed⟩

/-- An element is put at a place of the order of iteration. -/
def place {α : Type} (pos : Nat) (x : α) (l : List α) : List α := l.take pos ++ x :: l.drop pos

/-! ### The configuration file -/

/-- The text written by `supplicant_write_config`, `src/wifi/wifid-supplicant.c:2627-2643`. -/
def config (l : Link) : List Byte :=
  bytes "# Generated configuration - DO NOT EDIT!\n" ++
  (bytes "device_name=" ++ l.friendly.getD (bytes "unknown") ++ bytes "\n") ++
  (bytes "device_type=" ++ bytes "1-0050F204-1" ++ bytes "\n") ++
  (bytes "config_methods=" ++ l.methods.getD (bytes "pbc") ++ bytes "\n") ++
  (bytes "driver_param=" ++ l.driver.getD [] ++ bytes "\n") ++
  (bytes "ap_scan=" ++ bytes "1" ++ bytes "\n") ++
  (bytes "p2p_go_intent=" ++ dec l.intent ++ bytes "\n") ++
  bytes "# End of configuration\n"

/-! ### Peers -/

/-- `peer_supplicant_stopped` and `peer_free` for all peers of a link, as done by `supplicant_stopped` (`src/wifi/wifid-supplicant.c:1906-1907`,
`src/wifi/wifid-supplicant.c:688-689`, `src/wifi/wifid-peer.c:168-176`, `src/wifi/wifid-peer.c:86-100`): the signals and the counter. -/
def stopPeers (idx : Nat) : List Peer → Nat → List Sig × Nat
  | [], c => ([], c)
  | p :: t, c => ((if p.pub then [Sig.removed (.peer p.mac idx)] else []) ++ (stopPeers idx t (decr c)).1, (stopPeers idx t (decr c)).2)

/-- `supplicant_stopped` for a link: all peers are removed. -/
def Mgr.dropPeers (s : Mgr) (l : Link) : Mgr :=
  (s.update l.idx fun l => { l with peers := [], cnt := (stopPeers l.idx l.peers l.cnt).2 }).emit (stopPeers l.idx l.peers l.cnt).1

/-- `peer_supplicant_started` for all peers of a link, in `supplicant_try_ready` (`src/wifi/wifid-supplicant.c:1546-1547`, `src/wifi/wifid-peer.c:158-166`). -/
def startPeers (idx : Nat) (ps : List Peer) : List Sig := (ps.filter fun p => !p.pub).map fun p => .added (.peer p.mac idx) none

/-- Which allocations succeed. -/
structure Alloc where
  obj : Bool := true
  text : Bool := true
  sup : Bool := true
  insert : Bool := true
deriving DecidableEq, Repr

/-- `peer_new`, `src/wifi/wifid-peer.c:36-84`, and what `supplicant_peer_new` adds (`src/wifi/wifid-supplicant.c:655-666`): `peer_free` of a peer
that is not in the table removes nothing (the table accepts a null pointer as text), of one that is it undoes the insertion. -/
def Link.peerNew (a : Alloc) (pos : Nat) (mac : List Byte) (l : Link) : Link :=
  if l.peers.any (fun p => p.mac == mac) then l
  else if a.obj ∧ a.text ∧ a.insert then
    if a.sup then { l with peers := place pos ⟨mac, false⟩ l.peers, cnt := inc l.cnt }
    else { l with cnt := decr (inc l.cnt) }
  else l

/-! ### Links -/

/-- `link_set_managed`, `src/wifi/wifid-link.c:212-236`; `ok`: the supplicant can be started. No signal is sent for the property. -/
def Mgr.setManaged (s : Mgr) (idx : Nat) (set ok : Bool) : Mgr :=
  match s.find idx with
  | none => s
  | some l =>
    if l.managed = set then s
    else if set then
      if ok then (s.update idx fun l => { l with managed := true }).emit [.config idx (config l)] else s
    else (s.dropPeers l).update idx fun l => { l with managed := false }

/-- `link_free`, `src/wifi/wifid-link.c:110-138`, for a link in the table. -/
def Mgr.linkFree (s : Mgr) (idx : Nat) : Mgr :=
  match s.find idx with
  | none => s
  | some _ =>
    let s := (s.setManaged idx false true).emit [.removed (.link idx)]
    { s with links := s.links.filter (fun l => l.idx ≠ idx), cnt := decr s.cnt }

/-- `link_new`, `src/wifi/wifid-link.c:56-108`; the error path is `link_free` of a link that is not in the table. -/
def Mgr.linkNew (s : Mgr) (a : Alloc) (pos idx : Nat) (name : List Byte) : Mgr × Bool :=
  if idx = 0 then (s, false)
  else if (s.find idx).isSome then (s, false)
  else if a.obj = false then (s, false)
  else if a.text ∧ a.sup ∧ a.insert then
    let l : Link := { idx := idx, name := name }
    ({ s with links := place pos l s.links, cnt := inc s.cnt }.emit [.added (.link idx) (some l.view)], true)
  else (s.emit [.removed (.link idx)], false)

/-- `link_renamed`, `src/wifi/wifid-link.c:238-260`. -/
def Mgr.rename (s : Mgr) (idx : Nat) (name : List Byte) (ok : Bool) : Mgr :=
  match s.find idx with
  | none => s
  | some l =>
    if l.name = name ∨ ok = false then s
    else (s.update idx fun l => { l with name := name }).emit (if l.pub then [.changed (.link idx) (.name name)] else [])

/-- `link_set_friendly_name`, `src/wifi/wifid-link.c:262-287`; `ready`: the supplicant is ready, `sent`: it could be told. -/
def Mgr.setFriendly (s : Mgr) (idx : Nat) (name : List Byte) (ok ready sent : Bool) : Mgr :=
  match s.find idx with
  | none => s
  | some l =>
    if name = [] ∨ ok = false then s
    else if ready ∧ sent = false then s
    else (s.update idx fun l => { l with friendly := some name }).emit
      ((if ready then [.device idx name] else []) ++ if l.pub then [.changed (.link idx) (.friendly (some name))] else [])

/-- `link_set_wfd_subelements`, `src/wifi/wifid-link.c:297-325`. -/
def Mgr.setWfd (s : Mgr) (idx : Nat) (val : List Byte) (ok ready sent : Bool) : Mgr :=
  match s.find idx with
  | none => s
  | some l =>
    if l.managed = false ∨ ok = false then s
    else if ready ∧ sent = false then s
    else (s.update idx fun l => { l with wfd := some val }).emit
      ((if ready then [.subelem idx val] else []) ++ if l.pub then [.changed (.link idx) (.wfd (some val))] else [])

/-- `link_set_go_intent`, `src/wifi/wifid-link.c:179-186`. -/
def Link.setIntent (n : Nat) (l : Link) : Link := if 15 < n then l else { l with intent := n }

/-- A text setting that is copied if given (`link_set_config_methods`, `link_set_driver_param`, `src/wifi/wifid-link.c:149-177`). -/
def Link.setMethods (v : Option (List Byte)) (l : Link) : Link := if v.isSome then { l with methods := v } else l
/-- See `setMethods`. -/
def Link.setDriver (v : Option (List Byte)) (l : Link) : Link := if v.isSome then { l with driver := v } else l

/-! ### Devices -/

/-- A device as reported by udev. -/
structure Dev where
  idx : Nat
  name : Option (List Byte)
  /-- It has the tag "miracle". -/
  tag : Bool := false
deriving DecidableEq, Repr

/-- `manager_add_udev_link`, `src/wifi/wifid.c:86-137`; `ok`: the supplicant can be started. Copies of settings succeed. -/
def Mgr.addDev (o : Opts) (s : Mgr) (a : Alloc) (pos : Nat) (d : Dev) (ok : Bool) : Mgr :=
  if d.idx = 0 then s
  else match d.name with
  | none => s
  | some name =>
    if o.iface.isSome ∧ o.iface ≠ some name then s
    else if (bytes "p2p-").isPrefixOf name then s
    else
      let r := s.linkNew a pos d.idx name
      if r.2 = false then r.1
      else
        let s := r.1
        let s := if o.host.isSome ∧ ((s.find d.idx).any (·.managed)) = true then s.setFriendly d.idx (o.host.getD []) true false true else s
        let s := s.update d.idx fun l => ((l.setMethods o.methods).setDriver o.driver).setIntent o.intent
        let managed := if o.rely then d.tag && !o.lazy else !o.lazy
        if managed then s.setManaged d.idx true ok else s

/-- `manager_udev_fn`, `src/wifi/wifid.c:139-185`, for a device; `act`: 0 "remove", 1 "move", 2 anything else. Undefined if `strcmp` gets a null pointer. -/
def Mgr.udev (o : Opts) (s : Mgr) (a : Alloc) (pos : Nat) (act : Nat) (d : Dev) (ok : Bool) : Option Mgr :=
  if d.idx = 0 then some s
  else if (s.find d.idx).isSome then
    if act = 0 then some (s.linkFree d.idx)
    else
      let s := if act = 1 ∧ d.name.isSome then s.rename d.idx (d.name.getD []) a.text else s
      if o.rely then some (s.setManaged d.idx (d.tag && !o.lazy) ok)
      else if o.iface.isSome ∧ d.name = none then none
      else if (o.iface = none ∨ o.iface = d.name) ∧ o.lazy = false then some (s.setManaged d.idx true ok)
      else some s
  else if act = 0 then some s
  else some (s.addDev o a pos d ok)

/-! ### Events -/

/-- What can happen. -/
inductive Op where
  /-- A device found at startup, `manager_read_links`, `src/wifi/wifid.c:420-459`. -/
  | scan (a : Alloc) (pos : Nat) (d : Dev) (ok : Bool)
  /-- A device event. -/
  | udev (a : Alloc) (pos act : Nat) (d : Dev) (ok : Bool)
  /-- `Managed` is set on the bus. -/
  | manage (idx : Nat) (set ok : Bool)
  /-- `FriendlyName` is set on the bus. -/
  | friendly (idx : Nat) (name : List Byte) (ok ready sent : Bool)
  /-- `WfdSubelements` is set on the bus. -/
  | wfd (idx : Nat) (val : List Byte) (ok ready sent : Bool)
  /-- The supplicant of a link has answered the status request: it is told the name, and the sub-elements if `wfd`. -/
  | status (idx : Nat) (wfd : Bool)
  /-- The supplicant of a link is ready. -/
  | started (idx : Nat)
  /-- The supplicant of a link has failed and will be restarted. -/
  | lost (idx : Nat)
  /-- A peer is found; `running`: the supplicant is ready. -/
  | peer (a : Alloc) (pos idx : Nat) (text : List Byte) (running : Bool)
  /-- A peer is lost. -/
  | gone (idx : Nat) (mac : List Byte)
deriving DecidableEq, Repr

/-- `supplicant_status_fn` as far as the link is concerned, `src/wifi/wifid-supplicant.c:1735-1737` and `src/wifi/wifid-supplicant.c:1669-1680`. -/
def Mgr.status (s : Mgr) (idx : Nat) (wfd : Bool) : Mgr :=
  match s.find idx with
  | none => s
  | some l => if l.managed then s.emit (.device idx (l.friendly.getD (bytes "Miracle")) :: if wfd then [.subelem idx (l.wfd.getD [])] else []) else s

/-- `supplicant_try_ready` as far as the link is concerned: `link_supplicant_started`, `src/wifi/wifid-link.c:367-375`, and the peers. -/
def Mgr.started (o : Opts) (s : Mgr) (idx : Nat) : Mgr :=
  match s.find idx with
  | none => s
  | some l =>
    if l.managed = false then s
    else
      let s := if l.pub then s else if o.host.isSome then s.setFriendly idx (o.host.getD []) true true true else s
      (s.update idx fun l => { l with peers := l.peers.map fun p => { p with pub := true } }).emit (startPeers idx l.peers)

/-- `supplicant_event_p2p_device_found` as far as the link is concerned, `src/wifi/wifid-supplicant.c:861-920`. -/
def Mgr.peer (zx : Bool) (s : Mgr) (a : Alloc) (pos idx : Nat) (text : List Byte) (running : Bool) : Mgr :=
  match s.find idx with
  | none => s
  | some l =>
    if l.managed = false then s
    else
      let mac := Mac.format (Mac.scan zx 6 text)
      let s := s.update idx (·.peerNew a pos mac)
      if running then
        let ps := ((s.find idx).map (·.peers)).getD []
        (s.update idx fun l => { l with peers := l.peers.map fun p => if p.mac = mac then { p with pub := true } else p }).emit
          (startPeers idx (ps.filter fun p => p.mac = mac))
      else s

/-- `supplicant_peer_free` as far as the link is concerned, `src/wifi/wifid-supplicant.c:688-689`. -/
def Mgr.gone (s : Mgr) (idx : Nat) (mac : List Byte) : Mgr :=
  match s.find idx with
  | none => s
  | some l =>
    match l.peers.find? (fun p => p.mac == mac) with
    | none => s
    | some p =>
      (s.update idx fun l => { l with peers := l.peers.filter (fun p => p.mac ≠ mac), cnt := decr l.cnt }).emit
        (if p.pub then [.removed (.peer p.mac idx)] else [])

/-- One event. -/
def step (o : Opts) (zx : Bool) (s : Mgr) : Op → Option Mgr
  | .scan a pos d ok => some (s.addDev o a pos d ok)
  | .udev a pos act d ok => s.udev o a pos act d ok
  | .manage idx set ok => some (s.setManaged idx set ok)
  | .friendly idx name ok ready sent => some (s.setFriendly idx name ok ready sent)
  | .wfd idx val ok ready sent => some (s.setWfd idx val ok ready sent)
  | .status idx wfd => some (s.status idx wfd)
  | .started idx => some (s.started o idx)
  | .lost idx => some (match s.find idx with | none => s | some l => if l.managed then s.dropPeers l else s)
  | .peer a pos idx text running => some (s.peer zx a pos idx text running)
  | .gone idx mac => some (s.gone idx mac)

/-- Many events. -/
def run (o : Opts) (zx : Bool) (s : Mgr) : List Op → Option Mgr
  | [] => some s
  | e :: t => (step o zx s e).bind fun s => run o zx s t

/-! ### The list of objects -/

/-- A path is stored in the array with `room` cells. -/
def store (room : Nat) (a : List Path) (x : Path) : Option (List Path) := if a.length < room then some (a ++ [x]) else none

/-- The inner loop of `manager_dbus_enumerate`, `src/wifi/wifid-dbus.c:867-884`: `lim` is the number of paths expected, `ok i`: the path number `i` can
be allocated. A path that cannot leads to the error path (`some none`). -/
def listPeers (room lim : Nat) (ok : Nat → Bool) (idx : Nat) : List Peer → List Path → Option (Option (List Path))
  | [], a => some (some a)
  | p :: t, a =>
    if a.length ≥ lim then listPeers room lim ok idx t a
    else if p.pub = false then listPeers room lim ok idx t a
    else if ok a.length = false then some none
    else (store room a (peerPath p.mac idx)).bind (listPeers room lim ok idx t)

/-- The outer loop, `src/wifi/wifid-dbus.c:850-885`. -/
def listLinks (room lim : Nat) (ok : Nat → Bool) : List Link → List Path → Option (Option (List Path))
  | [], a => some (some a)
  | l :: t, a =>
    if a.length ≥ lim then listLinks room lim ok t a
    else if l.pub = false then listLinks room lim ok t a
    else if ok a.length = false then some none
    else (store room a (linkPath l.idx)).bind fun a =>
      (listPeers room lim ok l.idx l.peers a).bind fun r =>
        match r with
        | none => some none
        | some a => listLinks room lim ok t a

/-- `manager_dbus_enumerate`, `src/wifi/wifid-dbus.c:827-905`: an error code or the paths. When a path of a link or peer cannot be allocated, `r` is
returned without having been set; that is undefined. The last cell gets the null pointer. -/
def Mgr.enumerate (s : Mgr) (arr : Bool) (ok : Nat → Bool) : Option (Except Int (List Path)) :=
  let peers := (s.links.filter (·.pub)).foldl (fun n l => (n + l.cnt) % W64) 0
  let lim := (s.cnt + peers) % W64
  let room := (s.cnt + peers + 2) % W64
  if room * 8 ≥ W64 ∨ arr = false then some (.error (-ENOMEM))
  else
    (listLinks room lim ok s.links []).bind fun r =>
      match r with
      | none => none
      | some a =>
        if ok a.length = false then some (.error (-ENOMEM))
        else (store room a root).bind fun a => if a.length < room then some (.ok a) else none

/-! ### Finding objects -/

/-- `manager_find_link_by_label`, `src/wifi/wifid.c:73-84`. -/
def Mgr.linkByLabel (s : Mgr) (label : List Byte) : Option Link :=
  let r := Atoi.atoiUn label 10
  if r.code < 0 ∨ r.next ≠ label.length then none else s.find r.out

/-- `link_find_peer_by_label`, `src/wifi/wifid-link.c:47-54`. -/
def Link.peerByLabel (zx : Bool) (l : Link) (label : List Byte) : Option Peer :=
  l.peers.find? fun p => p.mac == Mac.format (Mac.scan zx 6 label)

/-- `link_dbus_find`, `src/wifi/wifid-dbus.c:714-737`. -/
def Mgr.findLink (s : Mgr) (path : Path) : Option Link :=
  (decode linkPre path).bind fun label => (s.linkByLabel label).bind fun l => if l.pub then some l else none

/-- `peer_dbus_find`, `src/wifi/wifid-dbus.c:316-364`: the interface and the peer. -/
def Mgr.findPeer (zx : Bool) (s : Mgr) (path : Path) : Option (Nat × Peer) :=
  (decode peerPre path).bind fun label =>
    if ch '@' ∈ label then
      (s.linkByLabel ((label.dropWhile (· ≠ ch '@')).drop 1)).bind fun l =>
        if l.pub = false then none
        else (l.peerByLabel zx (label.takeWhile (· ≠ ch '@'))).bind fun p => if p.pub then some (l.idx, p) else none
    else
      ((s.links.filter (·.pub)).findSome? fun l => (l.peerByLabel zx label).map fun p => (l.idx, p)).bind fun r =>
        if r.2.pub then some r else none

end Verif.Wifid
