import Verif.Model.Mac
/-!
# Model of peers and groups of the Wi-Fi daemon (`src/wifi/wifid-supplicant.c`, `src/wifi/wifid-peer.c`)

A supplicant with its peers and groups.  Objects have identities (`Nat`) that are not reused; the heaps
map an identity to the object, `none` once it is freed (simplified: addresses are not reused, so a
stale pointer never happens to equal a new one).  A `struct peer` and its `struct supplicant_peer` are
allocated and freed together and are one object here.  Everything visible from outside (D-Bus
signals, requests to wpa_supplicant, helper processes) is appended to `log`.  Messages of
wpa_supplicant are modelled after their arguments were read (a missing argument makes the handlers
return without effect; C27 – C29 are about reading them).
`none` is undefined behaviour: access to a freed object.  Events that cannot occur change nothing.
-/
namespace Verif.P2p
open Verif.C

/-- What is visible from outside. The signal that a peer was added carries its properties, among them whether it is
connected. -/
inductive Out
  | groupRemove (ifname : List Byte)
  | dhcpServer (g subnet : Nat)
  | dhcpClient (g : Nat)
  | dhcpKill (g : Nat)
  | added (p : Nat) (connected : Bool)
  | removed (p : Nat)
  | connected (p : Nat) (v : Bool)
  | failure (p : Nat)
  | provision (p : Nat)
  | negotiation (p : Nat)
  | connect (mac prov : List Byte) (pin : Option (List Byte))
  | result (r : Int)
  deriving DecidableEq, Repr

/-- `struct supplicant_group`, `src/wifi/wifid-supplicant.c:45-61`. `owner` is `sp`; `dhcp` says that the helper
process and its socket exist. -/
structure Grp where
  users : Nat
  owner : Option Nat
  go : Bool
  subnet : Nat
  ifname : List Byte
  localAddr : Option (List Byte)
  dhcp : Bool
  deriving DecidableEq, Repr

/-- `struct supplicant_peer`, `src/wifi/wifid-supplicant.c:63-74`, and `struct peer`, `src/wifi/wifid.h:54-64`,
without names and sub-elements. `shown` is `public`. -/
structure Peer where
  mac : List Byte
  g : Option Nat
  remote : Option (List Byte)
  sta : Option (List Byte)
  prov : Option (List Byte)
  pin : Option (List Byte)
  shown : Bool
  connected : Bool
  deriving DecidableEq, Repr

/-- `struct supplicant`, `src/wifi/wifid-supplicant.c:76-103`, as far as peers and groups are concerned. `bus` says
that there is a connection to wpa_supplicant (`bus_global`). `peers` is
the hash table of the link in the order of its iteration, `groups` the list in its order. `zx` is a
property of the libc, see `Mac.scanHex2`. -/
structure S where
  gheap : Nat → Option Grp
  groups : List Nat
  pheap : Nat → Option Peer
  peers : List Nat
  next : Nat
  pending : Option Nat
  bus : Bool
  running : Bool
  p2pMac : Option (List Byte)
  zx : Bool
  log : List Out

/-- `supplicant_new`, `src/wifi/wifid-supplicant.c:2118-2144`. -/
def start (zx : Bool) : S where
  gheap := fun _ => none
  groups := []
  pheap := fun _ => none
  peers := []
  next := 0
  pending := none
  bus := false
  running := false
  p2pMac := none
  zx := zx
  log := []

/-- Function update. -/
def upd {α : Type} (f : Nat → Option α) (i : Nat) (v : Option α) : Nat → Option α := fun j => if j = i then v else f j

/-- Something visible happens. -/
def S.emit (s : S) (o : Out) : S := { s with log := s.log ++ [o] }

/-- The members of a peer change. -/
def S.setPeer (s : S) (p : Nat) (y : Peer) : S := { s with pheap := upd s.pheap p (some y) }

/-- The members of a group change. -/
def S.setGrp (s : S) (g : Nat) (x : Grp) : S := { s with gheap := upd s.gheap g (some x) }

/-- Something visible happens if `c`. -/
def S.emitIf (s : S) (c : Bool) (o : Out) : S := if c then s.emit o else s

/-- `peer_supplicant_connected_changed`, `src/wifi/wifid-peer.c:223-234`, with `peer_dbus_properties_changed`,
`src/wifi/wifid-dbus.c:366-386`. -/
def S.connectedChanged (s : S) (p : Nat) (v : Bool) : Option S :=
  match s.pheap p with
  | none => none
  | some y => if y.connected = v then some s else some ((s.setPeer p { y with connected := v }).emitIf y.shown (.connected p v))

/-- `peer_supplicant_formation_failure`, `src/wifi/wifid-peer.c:214-221`. -/
def S.formationFailure (s : S) (p : Nat) : Option S :=
  match s.pheap p with
  | none => none
  | some y => some (s.emitIf y.shown (.failure p))

/-- `supplicant_peer_drop_group`, `src/wifi/wifid-supplicant.c:628-645`, with `supplicant_group_drop`,
`src/wifi/wifid-supplicant.c:595-601`; `free` is `supplicant_group_free`. For the owner of the group `sp->g` is
cleared first, so that `supplicant_group_drop` gets NULL and returns. -/
def S.dropGroupWith (free : S → Nat → Option S) (s : S) (p : Nat) : Option S :=
  match s.pheap p with
  | none => none
  | some y =>
    match y.g with
    | none => some s
    | some g =>
      match s.gheap g with
      | none => none
      | some x =>
        let r :=
          if x.owner = some p then some s
          else if x.users = 0 then some s
          else if x.users - 1 ≠ 0 then some (s.setGrp g { x with users := x.users - 1 })
          else free (s.setGrp g { x with users := 0 }) g
        match r with
        | none => none
        | some s =>
          match s.pheap p with
          | none => none
          | some y => (s.setPeer p { y with g := none, remote := none, sta := none }).connectedChanged p false

/-- The loop over the peers in `supplicant_group_free`, `src/wifi/wifid-supplicant.c:220-222`. -/
def S.dropAllWith (free : S → Nat → Option S) (g : Nat) (s : S) : List Nat → Option S
  | [] => some s
  | p :: t =>
    match s.pheap p with
    | none => none
    | some y =>
      if y.g = some g then
        match S.dropGroupWith free s p with
        | none => none
        | some s => S.dropAllWith free g s t
      else S.dropAllWith free g s t

/-- `supplicant_group_free`, `src/wifi/wifid-supplicant.c:170-229`. It calls itself through
`supplicant_peer_drop_group`; `n` bounds the nesting, and any bound above one gives the same result
(`groupFree_fuel`). Failing allocations of the request are not modelled; without a connection the request cannot
be made (`src/shared/wpas.c:182-183`). -/
def S.groupFree : Nat → S → Nat → Option S
  | 0, _, _ => none
  | n + 1, s, g =>
    match s.gheap g with
    | none => none
    | some x =>
      let s := s.emitIf s.bus (.groupRemove x.ifname)
      let s := (s.setGrp g { x with dhcp := false }).emitIf x.dhcp (.dhcpKill g)
      match S.dropAllWith (S.groupFree n) g s s.peers with
      | none => none
      | some s =>
        match s.gheap g with
        | none => none
        | some _ => some { s with groups := s.groups.erase g, gheap := upd s.gheap g none }

/-- The bound used, see `S.groupFree`. -/
def depth : Nat := 2

/-- `supplicant_peer_drop_group`, `src/wifi/wifid-supplicant.c:628-645`. -/
def S.dropGroup (s : S) (p : Nat) : Option S := S.dropGroupWith (S.groupFree depth) s p

/-- `find_peer_by_p2p_mac`, `src/wifi/wifid-supplicant.c:119-129`. -/
def S.findPeer (s : S) (mac : List Byte) : Option Nat :=
  s.peers.find? (fun p => (s.pheap p).any (fun y => decide (y.mac = mac)))

/-- `find_peer_by_any_mac`, `src/wifi/wifid-supplicant.c:131-142`. -/
def S.findAny (s : S) (mac : List Byte) : Option Nat :=
  s.peers.find? (fun p => (s.pheap p).any (fun y => decide (y.mac = mac) || decide (y.sta = some mac)))

/-- `find_group_by_ifname`, `src/wifi/wifid-supplicant.c:144-157`. -/
def S.findGroup (s : S) (ifname : List Byte) : Option Nat :=
  s.groups.find? (fun g => (s.gheap g).any (fun x => decide (x.ifname = ifname)))

/-- The text `reformat_mac` (`src/shared/util.h:137-145`) writes. -/
def S.norm (s : S) (mac : List Byte) : List Byte := Mac.format (Mac.scan s.zx 6 mac)

/-- The search for a free subnet, `src/wifi/wifid-supplicant.c:524-538`; 0 if there is none. -/
def S.freeSubnet (s : S) : Nat :=
  ((List.range' 50 206).find? (fun n => s.groups.all (fun g => (s.gheap g).all (fun x => decide (x.subnet ≠ n))))).getD 0

/-- `supplicant_group_new`, `src/wifi/wifid-supplicant.c:497-585`, after the allocations: `spawn` says whether the helper
could be started, `watch` whether its sources could be added. The second component is the group. -/
def S.groupNew (s : S) (ifname : List Byte) (go spawn watch : Bool) : Option (S × Option Nat) :=
  let g := s.next
  let n := if go then s.freeSubnet else 0
  let s := { s with next := g + 1 }
  let x : Grp := { users := 0, owner := none, go := go, subnet := n, ifname := ifname, localAddr := none, dhcp := false }
  if spawn = false ∨ (go = true ∧ n = 0) then (S.groupFree depth (s.setGrp g x) g).map (·, none)
  else
    let s := (s.setGrp g { x with dhcp := true }).emit (if go then .dhcpServer g n else .dhcpClient g)
    if watch = false then (S.groupFree depth s g).map (·, none)
    else some ({ s with groups := g :: s.groups }, some g)

/-- `supplicant_peer_set_group`, `src/wifi/wifid-supplicant.c:614-626`, with `supplicant_group_keep`,
`src/wifi/wifid-supplicant.c:587-593`. -/
def S.setGroup (s : S) (p g : Nat) : Option S :=
  match s.pheap p with
  | none => none
  | some y =>
    if y.g = some g then some s
    else
      match (if y.g.isSome then s.dropGroup p else some s) with
      | none => none
      | some s =>
        match s.pheap p, s.gheap g with
        | some y, some x => some ((s.setPeer p { y with g := some g }).setGrp g { x with users := x.users + 1 })
        | _, _ => none

/-- `peer_supplicant_started`, `src/wifi/wifid-peer.c:148-156`. -/
def S.started (s : S) (p : Nat) : Option S :=
  match s.pheap p with
  | none => none
  | some y => if y.shown then some s else some ((s.setPeer p { y with shown := true }).emit (.added p y.connected))

/-- `supplicant_peer_free`, `src/wifi/wifid-supplicant.c:677-699`, with `peer_supplicant_stopped`
(`src/wifi/wifid-peer.c:158-166`) and `peer_free` (`src/wifi/wifid-peer.c:84-98`). -/
def S.peerFree (s : S) (p : Nat) : Option S :=
  match (if s.pending = some p then ({ s with pending := none } : S).formationFailure p else some s) with
  | none => none
  | some s =>
    match s.dropGroup p with
    | none => none
    | some s =>
      match s.pheap p with
      | none => none
      | some y =>
        let s := s.emitIf y.shown (.removed p)
        some { s with peers := s.peers.erase p, pheap := upd s.pheap p none }

/-- `supplicant_peer_new`, `src/wifi/wifid-supplicant.c:647-675`, and `peer_new`, `src/wifi/wifid-peer.c:36-82`; `order` is the
order of the hash table afterwards. -/
def S.peerNew (s : S) (mac : List Byte) (order : List Nat) : S × Option Nat :=
  if (s.findPeer (s.norm mac)).isSome then (s, none)
  else
    let p := s.next
    let y : Peer := { mac := s.norm mac, g := none, remote := none, sta := none, prov := none, pin := none, shown := false, connected := false }
    ({ s with next := p + 1, pheap := upd s.pheap p (some y),
              peers := if order.isPerm (p :: s.peers) then order else p :: s.peers }, some p)

/-- `supplicant_parse_peer`, `src/wifi/wifid-supplicant.c:848-920`, without the names: for the event P2P-DEVICE-FOUND and the replies to P2P_PEER. -/
def S.parsePeer (s : S) (mac : List Byte) (order : List Nat) : Option S :=
  let (s, p) := match s.findPeer mac with
    | some p => (s, some p)
    | none => s.peerNew mac order
  match p with
  | none => some s
  | some p => if s.running then s.started p else some s

/-- What happens on the socket to the DHCP helper: a line of text, or an error. -/
inductive Comm
  | line (l : List Byte)
  | hup
  deriving DecidableEq, Repr

/-- The peers that are told in `supplicant_group_comm_fn`, `src/wifi/wifid-supplicant.c:323-329`. -/
def S.tell (s : S) (g : Nat) : List Nat → Option S
  | [] => some s
  | p :: t =>
    match s.pheap p with
    | none => none
    | some y =>
      if y.g ≠ some g ∨ y.remote = none then S.tell s g t
      else match s.connectedChanged p true with
        | none => none
        | some s => S.tell s g t

/-- The end of `supplicant_group_comm_fn`, `src/wifi/wifid-supplicant.c:317-331`. -/
def S.announce (s : S) (g : Nat) : Option S :=
  match s.gheap g with
  | none => none
  | some x =>
    if x.localAddr = none then some s
    else match x.owner with
      | some p =>
        match s.pheap p with
        | none => none
        | some y => if y.remote = none then some s else s.connectedChanged p true
      | none => s.tell g s.peers

/-- The value of a line `k:t` is stored, `src/wifi/wifid-supplicant.c:271-316`; `mem` says whether the copy of the address of an
`R` line can be allocated. -/
def S.applyLine (s : S) (g : Nat) (x : Grp) (k : Byte) (t : List Byte) (mem : Bool) : Option S :=
  if k = ch 'L' then some (s.setGrp g { x with localAddr := some t })
  else if k = ch 'G' then
    match x.owner with
    | none => some s
    | some p =>
      match s.pheap p with
      | none => none
      | some y => some (s.setPeer p { y with remote := some t })
  else if k = ch 'R' then
    let m := t.takeWhile (· ≠ ch ' ')
    let ip := (t.dropWhile (· ≠ ch ' ')).drop 1
    if m = [] ∨ ip = [] then some s
    else match s.findAny (s.norm m) with
      | none => some s
      | some p =>
        if mem = false then some s
        else match s.pheap p with
          | none => none
          | some y => some (s.setPeer p { y with remote := some ip })
  else some s

/-- `supplicant_group_comm_fn`, `src/wifi/wifid-supplicant.c:231-338`; `recv` cuts lines at 511 bytes; `mem1` and `mem2` say
whether the two allocations succeed. -/
def S.comm (s : S) (g : Nat) (c : Comm) (mem1 mem2 : Bool) : Option S :=
  match s.gheap g with
  | none => none
  | some x =>
    match c with
    | .hup => S.groupFree depth s g
    | .line l =>
      let buf := l.take 511
      let t := (buf.drop 2).takeWhile (· ≠ 0)
      if buf.length < 3 ∨ buf[1]? ≠ some (ch ':') ∨ t = [] then some s
      else if mem1 = false then some s
      else (s.applyLine g x (buf.headD 0) t mem2).bind (fun s => s.announce g)

/-- `supplicant_peer_connect`, `src/wifi/wifid-supplicant.c:740-811`: the value returned and the request; `call` says whether the
request could be built and queued. -/
def S.connect (s : S) (p : Nat) (prov pin : Option (List Byte)) (call : Bool) : Option S :=
  match s.pheap p with
  | none => none
  | some y =>
    if s.running = false then some (s.emit (.result (-EINVAL)))
    else if y.g.isSome then some (s.emit (.result 0))
    else if s.pending.isSome ∧ s.pending ≠ some p then some (s.emit (.result (-114)))
    else
      let prov := (prov.orElse (fun _ => y.prov)).getD (bytes "pbc")
      let pin := pin.orElse (fun _ => y.pin)
      let good := prov = bytes "pbc" ∨
        ((prov = bytes "display" ∨ prov = bytes "pin" ∨ prov = bytes "keypad") ∧ pin ≠ none ∧ pin ≠ some [])
      if ¬ good then some (s.emit (.result (-EINVAL)))
      else if call = false then some (s.emit (.result (-ENOMEM)))
      else some ((({ s with pending := some p } : S).emit (.connect y.mac prov (if prov = bytes "pbc" then none else pin))).emit (.result 0))

/-- The events: messages of wpa_supplicant (with their arguments), helper processes, D-Bus calls for a peer
(found by its label), and the supplicant becoming ready or being torn down. -/
inductive Op
  | found (mac : List Byte) (order : List Nat)
  | lost (mac : List Byte)
  | provision (mac prov : List Byte) (pin : Option (List Byte)) (mem : Bool)
  | negotiation (mac : List Byte)
  | negotiated (mac sta : List Byte) (mem : Bool)
  | groupStarted (mac ifname : List Byte) (go spawn watch : Bool)
  | groupRemoved (ifname : List Byte)
  | formationFailed
  | staConnected (mac sta : List Byte) (ifname : Option (List Byte)) (mem : Bool)
  | staDisconnected (mac : List Byte)
  | comm (g : Nat) (c : Comm) (mem1 mem2 : Bool)
  | helperDied (g : Nat)
  | connect (mac : List Byte) (prov pin : Option (List Byte)) (call : Bool)
  | disconnect (mac : List Byte)
  | startScan
  | attached
  | ready
  | ownMac (mac : List Byte)
  | stopped
  deriving DecidableEq, Repr

/-- The loop over all peers in `supplicant_try_ready`, `src/wifi/wifid-supplicant.c:1546-1547`. -/
def S.startedAll (s : S) : List Nat → Option S
  | [] => some s
  | p :: t =>
    match s.started p with
    | none => none
    | some s => S.startedAll s t

/-- The first loop of `supplicant_stopped`, `src/wifi/wifid-supplicant.c:1906-1907`, over the peers that were there. -/
def S.freePeers (s : S) : List Nat → Option S
  | [] => some s
  | p :: t =>
    match s.peerFree p with
    | none => none
    | some s => S.freePeers s t

/-- The second loop of `supplicant_stopped`, `src/wifi/wifid-supplicant.c:1909-1914`; it ends because each round
unlinks the first group. -/
def S.freeGroups : Nat → S → Option S
  | 0, s => some s
  | n + 1, s =>
    match s.groups with
    | [] => some s
    | g :: _ =>
      match S.groupFree depth s g with
      | none => none
      | some s => S.freeGroups n s

/-- One event: the handlers of `src/wifi/wifid-supplicant.c:848-1448`, `supplicant_try_ready` (`:1529-1548`),
`supplicant_stopped` (`:1901-1923`), `supplicant_p2p_start_scan` (`:2019-2062`, once its checks passed),
`supplicant_peer_disconnect` (`:813-827`) and `supplicant_group_pid_fn` (`:340-352`). -/
def S.handle (s : S) (op : Op) : Option S :=
  match op with
  | .found mac order => s.parsePeer mac order
  | .lost mac =>
    match s.findPeer mac with
    | none => some s
    | some p => s.peerFree p
  | .provision mac prov pin mem =>
    match s.findPeer mac with
    | none => some s
    | some p =>
      match s.pheap p with
      | none => none
      | some y =>
        if mem = false then some s
        else
          let s := s.setPeer p { y with prov := some prov, pin := pin }
          some (s.emitIf y.shown (.provision p))
  | .negotiation mac =>
    match s.findPeer mac with
    | none => some s
    | some p =>
      match s.pheap p with
      | none => none
      | some y =>
        let s := if y.prov = none then s.setPeer p { y with prov := some (bytes "pbc"), pin := none } else s
        some (s.emitIf (y.g.isNone && y.shown) (.negotiation p))
  | .negotiated mac sta mem =>
    match s.findPeer mac with
    | none => some s
    | some p =>
      match s.pheap p with
      | none => none
      | some y => if y.g.isSome ∨ mem = false then some s else some (s.setPeer p { y with sta := some sta })
  | .groupStarted mac ifname go spawn watch =>
    let sp := s.findPeer mac
    if sp = none ∧ s.p2pMac ≠ some mac then some s
    else
      match (match s.findGroup ifname with
        | some g => some (s, some g)
        | none => s.groupNew ifname go spawn watch) with
      | none => none
      | some (s, none) => some s
      | some (s, some g) =>
        match sp with
        | none => some s
        | some p =>
          match s.setGroup p g with
          | none => none
          | some s =>
            match s.gheap g with
            | none => none
            | some x => some (s.setGrp g { x with owner := some p })
  | .groupRemoved ifname =>
    match s.findGroup ifname with
    | none => some s
    | some g => S.groupFree depth s g
  | .formationFailed =>
    match s.pending with
    | none => some s
    | some p => ({ s with pending := none } : S).formationFailure p
  | .staConnected mac sta ifname mem =>
    match s.findPeer mac with
    | none => some s
    | some p =>
      match s.pheap p with
      | none => none
      | some y =>
        if y.g.isSome then some s
        else if y.sta ≠ some sta ∧ mem = false then some s
        else
          let s := s.setPeer p { y with sta := some sta }
          match ifname with
          | none => some s
          | some i =>
            match s.findGroup i with
            | none => some s
            | some g => s.setGroup p g
  | .staDisconnected mac =>
    match s.findPeer mac with
    | none => some s
    | some p =>
      match s.pheap p with
      | none => none
      | some y =>
        match (if s.pending = some p then
            let s := { s with pending := none }
            if y.connected then s.connectedChanged p false else s.formationFailure p
          else some s) with
        | none => none
        | some s => s.dropGroup p
  | .comm g c mem1 mem2 => if g ∈ s.groups then s.comm g c mem1 mem2 else some s
  | .helperDied g => if g ∈ s.groups then S.groupFree depth s g else some s
  | .connect mac prov pin call =>
    match s.findPeer (s.norm mac) with
    | none => some s
    | some p => if (s.pheap p).any (·.shown) then s.connect p prov pin call else some s
  | .disconnect mac =>
    match s.findPeer (s.norm mac) with
    | none => some s
    | some p =>
      match s.pheap p with
      | none => none
      | some y => if y.shown then (s.setPeer p { y with prov := none, pin := none }).dropGroup p else some s
  | .startScan => some (if s.running then { s with pending := none } else s)
  | .attached => some { s with bus := true }
  | .ready => if s.running then some s else S.startedAll { s with running := true } s.peers
  | .ownMac mac => some { s with p2pMac := some mac }
  | .stopped =>
    match ({ s with bus := false } : S).freePeers s.peers with
    | none => none
    | some s =>
      match S.freeGroups s.groups.length s with
      | none => none
      | some s => some { s with p2pMac := none, running := false }

/-- Messages of wpa_supplicant, which need a connection. -/
def Op.fromWpas : Op → Bool
  | .found .. | .lost .. | .provision .. | .negotiation .. | .negotiated .. | .groupStarted .. | .groupRemoved .. => true
  | .formationFailed | .staConnected .. | .staDisconnected .. | .ready | .ownMac .. => true
  | .comm .. | .helperDied .. | .connect .. | .disconnect .. | .startScan | .attached | .stopped => false

/-- One event; messages of wpa_supplicant do not occur without a connection. -/
def S.step (s : S) (op : Op) : Option S := if op.fromWpas && !s.bus then some s else s.handle op

/-- A run. -/
def S.run (s : S) : List Op → Option S
  | [] => some s
  | o :: t =>
    match s.step o with
    | none => none
    | some s => S.run s t

end Verif.P2p
