import Verif.Model.Wire
/-!
# Model of the link-local client (`src/dhcp/client.c`, type `G_DHCP_IPV4LL`, and `src/dhcp/ipv4ll.c`)

The client picks an address, asks for it with ARP probes, announces it, reports it and defends it (RFC 3927).  The
model has times: a timer holds the earliest time (in milliseconds) at which GLib may dispatch it.
-/
namespace Verif.Ipv4ll
open Verif.C

/-- The states of `ClientState`, `src/dhcp/client.c:62-82`, that occur with this type. -/
inductive St
  | initSelecting | released | probe | announce | monitor | defend
  deriving DecidableEq, Repr

/-- The functions a timer can call. -/
inductive Kind
  | sendProbe | probe | announce | defend
  deriving DecidableEq, Repr

/-- The members of `GDHCPClient`, `src/dhcp/client.c:84-152`, that are used with this type: `host` is the byte order; `arp` is `listen_mode ==
L_ARP` (the other mode is `L_NONE`), `watch` is `listener_watch > 0`.  `timer` is the live source whose id is in
`timeout`: there is at most one; ids of sources that are gone stay in the member, and `g_source_remove` of such an id only
prints a warning (ids are not used again). -/
structure Ll where
  host : Wire.Host
  mac : List Byte
  state : St := .initSelecting
  retry : Nat := 0
  ip : Nat := 0
  conflicts : Nat := 0
  timer : Option (Kind × Nat) := none
  arp : Bool := false
  watch : Bool := false
  assigned : Option Nat := none

/-- What the client does: frames handed to the link (for everybody), and the callbacks `ipv4ll_available_cb` (with what
`g_dhcp_client_get_address` returns in it), `ipv4ll_lost_cb` and `no_lease_cb`.  The callbacks are taken not to call the client again. -/
inductive Out
  | arp (frame : List Byte)
  | available (addr : Option Nat)
  | lost
  | noLease
  deriving DecidableEq, Repr

/-- What the environment decides in a step: whether the ARP socket can be opened, the value of `ipv4ll_random_ip` (C42) and
of `rand()` for a delay. -/
structure Env where
  opens : Bool
  ip : Nat
  rand : Nat

/-- `ipv4ll_random_delay_ms(1)`, `src/dhcp/ipv4ll.c:62-71`; `PROBE_WAIT` and `PROBE_MAX - PROBE_MIN` are 1. -/
def delay (e : Env) : Nat := e.rand % 1000

/-- The earliest dispatch of `g_timeout_add_seconds_full(secs)`: GLib groups such timers and dispatches up to a
quarter of a second early. -/
def seconds (now secs : Nat) : Nat := now + secs * 1000 - 250

/-- The packet of `ipv4ll_send_arp_packet`, `src/dhcp/ipv4ll.c:73-119`: `struct ether_arp`, 28 bytes.  Failures of the socket calls are left out
(the caller ignores the result). -/
def arpPacket (h : Wire.Host) (mac : List Byte) (source target : Nat) : List Byte :=
  Wire.layout h 2 (Wire.htons h 1) ++ Wire.layout h 2 (Wire.htons h 0x0800) ++ [6, 4] ++ Wire.layout h 2 (Wire.htons h 1) ++ mac ++
    Wire.layout h 4 (Wire.htonl h source) ++ [0, 0, 0, 0, 0, 0] ++ Wire.layout h 4 (Wire.htonl h target)

/-- `switch_listening_mode(dhcp_client, L_NONE)`, `src/dhcp/client.c:1511-1535`. -/
def Ll.deaf (c : Ll) : Ll := if c.arp then { c with arp := false, watch := false } else c

/-- `switch_listening_mode(dhcp_client, L_ARP)`, `src/dhcp/client.c:1511-1570`; the caller ignores failures. -/
def Ll.listen (c : Ll) (e : Env) : Ll := if c.arp then c else if e.opens then { c with arp := true, watch := true } else c

/-- `if (listener_watch > 0) { g_source_remove(listener_watch); listener_watch = 0; }`. -/
def Ll.unwatch (c : Ll) : Ll := { c with watch := false }

/-- `send_probe_packet`, `src/dhcp/client.c:520-554`. -/
def Ll.sendProbe (c : Ll) (now : Nat) (e : Env) : Ll × List Out :=
  let c := if c.ip = 0 then { c with ip := e.ip } else c
  let c := if c.retry = 1 then ({ c with state := .probe } : Ll).listen e else c
  let wait := if c.retry < 3 then delay e + 1000 else 2000
  ({ c with timer := some (.probe, now + wait) }, [.arp (arpPacket c.host c.mac 0 c.ip)])

/-- `send_announce_packet`, `src/dhcp/client.c:559-590`. -/
def Ll.sendAnnounce (c : Ll) (now : Nat) : Ll × List Out :=
  ({ c with timer := some (if c.state = .defend then (.defend, seconds now 10) else (.announce, seconds now 2)) },
    [.arp (arpPacket c.host c.mac c.ip c.ip)])

/-- `ipv4ll_start`, `src/dhcp/client.c:1342-1366`, from `g_dhcp_client_start`, `:2757-2761`. -/
def Ll.start (c : Ll) (now : Nat) (e : Env) : Ll × List Out :=
  let c := ({ c with state := .initSelecting, timer := none } : Ll).deaf
  ({ c with ip := e.ip, retry := 1, timer := some (.sendProbe, now + delay e) }, [])

/-- `g_dhcp_client_stop`, `src/dhcp/client.c:2819-2843`. -/
def Ll.stop (c : Ll) : Ll × List Out :=
  let c := ({ c.deaf with timer := none } : Ll).unwatch
  ({ c with retry := 0, ip := 0, state := .released }, [])

/-- `ipv4ll_stop`, `src/dhcp/client.c:1368-1386`. -/
def Ll.reset (c : Ll) : Ll :=
  let c := ({ c.deaf with timer := none } : Ll).unwatch
  { c with state := .probe, retry := 0, ip := 0, assigned := none }

/-- The end of `ipv4ll_recv_arp_packet`, `src/dhcp/client.c:1438-1457`. -/
def Ll.giveUp (c : Ll) (now : Nat) (e : Env) : Ll × List Out :=
  let c := c.reset
  if c.conflicts < 10 then ({ c with retry := c.retry + 1, timer := some (.sendProbe, now + delay e) }, [])
  else (c, [.noLease])

/-- The `n` bytes of the buffer at `off` after a `read` of `f` into the zeroed `struct ether_arp`. -/
def field (f : List Byte) (off n : Nat) : List Byte := ((f.take 28 ++ List.replicate 28 0).drop off).take n

/-- `ipv4ll_recv_arp_packet`, `src/dhcp/client.c:1388-1459`, when `read` gives `f`. -/
def Ll.recv (c : Ll) (now : Nat) (f : List Byte) (e : Env) : Ll × List Out :=
  let op := Wire.native c.host (field f 6 2)
  if op ≠ Wire.htons c.host 2 ∧ op ≠ Wire.htons c.host 1 then (c, [])
  else
    let want := Wire.layout c.host 4 (Wire.htonl c.host c.ip)
    let source := decide (field f 14 4 = want)
    let target := decide (field f 24 4 = want)
    if !source && !target then (c, [])
    else
      let c := { c with conflicts := (c.conflicts + 1) % 256 }
      if c.state = .monitor then
        if !source then (c, [])
        else ({ c with state := .defend } : Ll).sendAnnounce now
      else if c.state = .defend then
        if !source then (c, [])
        else
          let r := c.giveUp now e
          (r.1, .lost :: r.2)
      else c.giveUp now e

/-- `ipv4ll_probe_timeout`, `src/dhcp/client.c:2646-2667`. -/
def Ll.probeTimeout (c : Ll) (now : Nat) (e : Env) : Ll × List Out :=
  if c.retry = 3 then ({ c with state := .announce, retry := 1 } : Ll).sendAnnounce now
  else ({ c with retry := (c.retry + 1) % 256 } : Ll).sendProbe now e

/-- `ipv4ll_announce_timeout`, `src/dhcp/client.c:2619-2644`. -/
def Ll.announceTimeout (c : Ll) (now : Nat) : Ll × List Out :=
  if c.retry ≠ 2 then ({ c with retry := (c.retry + 1) % 256 } : Ll).sendAnnounce now
  else ({ c with state := .monitor, assigned := some c.ip, conflicts := 0 }, [.available (some c.ip)])

/-- `ipv4ll_defend_timeout`, `src/dhcp/client.c:2607-2617`. -/
def Ll.defendTimeout (c : Ll) : Ll × List Out := ({ c with conflicts := 0, state := .monitor }, [])

/-- A timer is dispatched: the source is gone (all callbacks return FALSE, or replace it). -/
def Ll.fired (c : Ll) (now : Nat) (e : Env) : Kind → Ll × List Out
  | .sendProbe => ({ c with timer := none } : Ll).sendProbe now e
  | .probe => ({ c with timer := none } : Ll).probeTimeout now e
  | .announce => ({ c with timer := none } : Ll).announceTimeout now
  | .defend => ({ c with timer := none } : Ll).defendTimeout

/-- What happens to a client: the user starts or stops it, its timer is due, a frame is on the link (the client
hears it if it has a watch, `listener_event`, `src/dhcp/client.c:2246-2278`), or the socket has an error (`:2245-2248`). -/
inductive Op
  | start
  | stop
  | fire
  | recv (frame : List Byte)
  | hup
  deriving DecidableEq, Repr

/-- One event at the time `now`; `none` if there is no such event (no timer is due). -/
def Ll.step (c : Ll) (now : Nat) (e : Env) : Op → Option (Ll × List Out)
  | .start => some (c.start now e)
  | .stop => some c.stop
  | .fire => match c.timer with
    | some (k, due) => if due ≤ now then some (c.fired now e k) else none
    | none => none
  | .recv f => some (if c.watch && c.arp then c.recv now f e else (c, []))
  | .hup => some ({ c with watch := false }, [])

/-- A client after `g_dhcp_client_new` with this type. -/
def new (h : Wire.Host) (mac : List Byte) : Ll := { host := h, mac := mac }

/-- `g_dhcp_client_get_address`, `src/dhcp/client.c:2948-2951`. -/
def Ll.getAddress (c : Ll) : Option Nat := c.assigned

/-- `g_dhcp_client_get_netmask`, `src/dhcp/client.c:2953-2988`, with this type. -/
def Ll.getNetmask (c : Ll) : Option (List Byte) :=
  match c.state with
  | .defend => some (bytes "255.255.0.0")
  | .monitor => some (bytes "255.255.0.0")
  | _ => none

/-! ### A link with several hosts

This part models the surroundings, not code of the repository. -/

/-- A host: its client, and the address its user has put on the interface (when told that it is available; taken off
when told that it is lost, and when the user stops or restarts the client). -/
structure Host where
  ll : Ll
  addr : Option Nat := none

/-- A frame on its way to one host; it arrives at the time `due` at the latest. -/
structure Flight where
  src : Nat
  dst : Nat
  bytes : List Byte
  due : Nat

/-- The link: `n` hosts. -/
structure Link where
  n : Nat
  hosts : Nat → Host
  now : Nat := 0
  wire : List Flight := []

/-- What the user does with the interface. -/
def Host.heed (h : Host) : List Out → Host
  | [] => h
  | .available a :: t => ({ h with addr := a } : Host).heed t
  | .lost :: t => ({ h with addr := none } : Host).heed t
  | _ :: t => h.heed t

/-- The frames of host `i` in these outputs, to all the others. -/
def frames (n i due : Nat) : List Out → List Flight
  | [] => []
  | .arp f :: t => ((List.range n).filter (· ≠ i)).map (fun j => ⟨i, j, f, due⟩) ++ frames n i due t
  | _ :: t => frames n i due t

/-- The host `i` does something. -/
def Link.act (l : Link) (latency i : Nat) (ll : Ll) (outs : List Out) : Link :=
  { l with
    hosts := fun j => if j = i then ({ l.hosts i with ll := ll } : Host).heed outs else l.hosts j
    wire := l.wire ++ frames l.n i (l.now + latency) outs }

/-- The host `i` without its address. -/
def Link.bare (l : Link) (i : Nat) : Link :=
  { l with hosts := fun j => if j = i then { l.hosts i with addr := none } else l.hosts j }

/-- The kernel of the host `j` answers an ARP request for its address (contract of Linux: it answers if the sender is
0.0.0.0, as in a probe; otherwise it may or may not, `may`). -/
def kernelAnswer (h : Host) (may : Bool) (due : Nat) (f : Flight) : List Flight :=
  match h.addr with
  | none => []
  | some a =>
    if Wire.native .be (field f.bytes 6 2) = 1 ∧ Wire.native .be (field f.bytes 24 4) = a ∧
        (Wire.native .be (field f.bytes 14 4) = 0 ∨ may = true) then
      [⟨f.dst, f.src, [0, 1, 8, 0, 6, 4, 0, 2] ++ h.ll.mac ++ Wire.layout .be 4 a ++ field f.bytes 8 6 ++ field f.bytes 14 4, due⟩]
    else []

/-- What can happen on the link. -/
inductive Ev
  | tick (d : Nat)
  | start (i : Nat) (e : Env)
  | stop (i : Nat) (e : Env)
  | fire (i : Nat) (e : Env)
  | deliver (k : Nat) (may : Bool) (e : Env)
  | foreign (j : Nat) (frame : List Byte)

/-- One event.  Time passes only as long as no frame is late; the k-th frame on its way may arrive at any time before; frames of other
hosts, which do not run this program, may be sent at any time (they have the number `n`). -/
def Link.step (l : Link) (latency : Nat) : Ev → Option Link
  | .tick d => if ∀ f ∈ l.wire, l.now + d ≤ f.due then some { l with now := l.now + d } else none
  | .start i e =>
    if i < l.n then
      match (l.hosts i).ll.step l.now e .start with
      | some (c, o) => some ((l.act latency i c o).bare i)
      | none => none
    else none
  | .stop i e =>
    if i < l.n then
      match (l.hosts i).ll.step l.now e .stop with
      | some (c, o) => some ((l.act latency i c o).bare i)
      | none => none
    else none
  | .fire i e =>
    if i < l.n then
      match (l.hosts i).ll.step l.now e .fire with
      | some (c, o) => some (l.act latency i c o)
      | none => none
    else none
  | .deliver k may e =>
    match l.wire[k]? with
    | none => none
    | some f =>
      let l' := { l with wire := l.wire.eraseIdx k ++ if f.dst < l.n then kernelAnswer (l.hosts f.dst) may (l.now + latency) f else [] }
      if f.dst < l.n then
        match (l.hosts f.dst).ll.step l.now e (.recv f.bytes) with
        | some (c, o) => some (l'.act latency f.dst c o)
        | none => none
      else some l'
  | .foreign j f => some { l with wire := l.wire ++ [⟨l.n, j, f, l.now + latency⟩] }

/-- Several events. -/
def Link.run (l : Link) (latency : Nat) : List Ev → Option Link
  | [] => some l
  | ev :: t => match l.step latency ev with
    | some l' => l'.run latency t
    | none => none

/-- Any hosts, not started yet. -/
def Link.start (n : Nat) (host : Nat → Wire.Host) (mac : Nat → List Byte) : Link :=
  { n := n, hosts := fun i => { ll := new (host i) (mac i) } }

end Verif.Ipv4ll
