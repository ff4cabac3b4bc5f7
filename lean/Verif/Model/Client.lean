import Verif.Model.Timers
import Verif.Model.OptValue
/-!
# Model of the DHCPv4 client (`src/dhcp/client.c`)

The state machine of a client of type `G_DHCP_IPV4`: `g_dhcp_client_start`, `g_dhcp_client_stop`, the
timer callbacks and `listener_event`.  Addresses are numbers (host byte order), the transaction id
is its four bytes in memory.  A GLib source is a pair of its id and its callback; `live` holds the
sources that exist.  Ids are never reused (GLib: only after 2^32 sources).  What is sent and which
callbacks are called is recorded as a list of outputs.  Simplified: callbacks do not call back into
the client; `last_address` is the number `ntohl(inet_addr(..))` of the text.
-/
namespace Verif.Client
open Verif.C Verif.Options

/-- `ClientState`, the DHCPv4 part, `src/dhcp/client.c:62-69`. -/
inductive State
  | initSelecting
  | rebooting
  | requesting
  | bound
  | renewing
  | rebinding
  | released
  deriving DecidableEq, Repr

/-- `ListenMode`, `src/dhcp/client.c:55-60`, without `L_ARP` (used by `G_DHCP_IPV4LL` only). -/
inductive Mode
  | none
  | l2
  | l3
  deriving DecidableEq, Repr

/-- The timer callbacks: `discover_timeout`, `reboot_timeout`, `request_timeout`,
`restart_dhcp_timeout`, `start_renew`, `continue_renew`, `start_rebound`, `continue_rebound`,
`start_expire` of `src/dhcp/client.c`. -/
inductive Kind
  | discover
  | reboot
  | request
  | restart
  | renew
  | renewMore
  | rebind
  | rebindMore
  | expire
  deriving DecidableEq, Repr

/-- What a client does: messages and user callbacks. `request` carries the transaction id, the
requested-address and the server-id option, `ciaddr` and the server it is unicast to. -/
inductive Out
  | discover (xid : List Byte) (addr : Nat)
  | request (xid : List Byte) (addr server : Option Nat) (ciaddr : Nat) (dest : Option Nat)
  | release (ciaddr server : Nat)
  | lease (addr : Option Nat)
  | noLease
  | lost
  deriving DecidableEq, Repr

/-- `struct _GDHCPClient`, `src/dhcp/client.c:84-157`, the members the state machine uses. `vals` is
`code_value_hash`, `watch` says whether `listener_watch` is a live source. -/
structure Cl where
  state : State
  mode : Mode
  watch : Bool
  mac : List Byte
  xid : List Byte
  serverIp : Nat
  requestedIp : Nat
  assigned : Option Nat
  leaseSeconds : Nat
  retry : Nat
  ackRetry : Nat
  t1 : Nat
  t2 : Nat
  expire : Nat
  last : Option Nat
  codes : List Nat
  vals : Nat → Option (List (List Byte))
  idTimeout : Nat
  idT1 : Nat
  idT2 : Nat
  idLease : Nat
  live : List (Nat × Kind)
  next : Nat

/-- What the environment decides during one event: whether the (at most two) sockets can be opened,
`rand()`, and the content of fresh memory. -/
structure Env where
  open1 : Bool
  open2 : Bool
  xid : List Byte
  junk : Nat → Nat → Byte
  host : Wire.Host

/-- `g_dhcp_client_new`, `src/dhcp/client.c:1134-1196` (without its failures), and the calls of
`g_dhcp_client_set_request`, `:2989-2999`, that gave `request_list` the content `codes`. -/
def new (mac : List Byte) (codes : List Nat) : Cl where
  state := .initSelecting
  mode := .none
  watch := false
  mac := mac
  xid := [0, 0, 0, 0]
  serverIp := 0
  requestedIp := 0
  assigned := none
  leaseSeconds := 0
  retry := 0
  ackRetry := 0
  t1 := 0
  t2 := 0
  expire := 0
  last := none
  codes := codes
  vals := fun _ => none
  idTimeout := 0
  idT1 := 0
  idT2 := 0
  idLease := 0
  live := []
  next := 1

/-- `g_timeout_add_*_full`: a new source; the caller stores the id. -/
def Cl.add (c : Cl) (k : Kind) : Cl := { c with live := (c.next, k) :: c.live, next := c.next + 1 }

/-- `if (id > 0) g_source_remove(id)`: an id that is not live any more changes nothing (GLib prints a
warning). -/
def Cl.drop (c : Cl) (id : Nat) : Cl := if id > 0 then { c with live := c.live.filter (·.1 ≠ id) } else c

/-- `remove_timeouts`, `src/dhcp/client.c:276-293`. -/
def Cl.removeTimeouts (c : Cl) : Cl :=
  { (((c.drop c.idTimeout).drop c.idT1).drop c.idT2).drop c.idLease with
    idTimeout := 0, idT1 := 0, idT2 := 0, idLease := 0 }

/-- `switch_listening_mode`, `src/dhcp/client.c:1511-1572`; `ok` says whether socket and channel could
be created. The flag is `re == 0`. -/
def Cl.switch (c : Cl) (m : Mode) (ok : Bool) : Cl × Bool :=
  if c.mode = m then (c, true)
  else if m = .none ∨ ok = false then ({ c with mode := .none, watch := false }, decide (m = .none))
  else ({ c with mode := m, watch := true }, true)

/-- `send_request`, `src/dhcp/client.c:462-497`. -/
def Cl.sendRequest (c : Cl) : Out :=
  .request c.xid
    (if c.state = .requesting ∨ c.state = .rebooting then some c.requestedIp else none)
    (if c.state = .requesting then some c.serverIp else none)
    (if c.state = .renewing ∨ c.state = .rebinding then c.requestedIp else 0)
    (if c.state = .renewing then some c.serverIp else none)

/-- `start_request`, `src/dhcp/client.c:1574-1598`, with `REQUEST_RETRIES` 3. -/
def Cl.startRequest (c : Cl) (e : Env) : Cl × List Out :=
  if c.retry = 3 then (c, [.noLease])
  else
    let c := if c.retry = 0 then (({ c with state := .requesting } : Cl).switch .l2 e.open1).1 else c
    ({ c.add .request with idTimeout := c.next }, [c.sendRequest])

/-- `g_dhcp_client_start`, `src/dhcp/client.c:2668-2818`, for `G_DHCP_IPV4`, with `DISCOVER_RETRIES` 6.
The socket is opened according to `open2`. -/
def Cl.start (c : Cl) (addr : Option Nat) (e : Env) : Cl × List Out :=
  if c.retry = 6 then ({ c with retry := 0 }, [.noLease])
  else
    let (c, ok) :=
      if c.retry = 0 then
        let (c, ok) := ({ c with assigned := none, state := .initSelecting } : Cl).switch .l2 e.open2
        (if ok then { c with xid := e.xid } else c, ok)
      else (c, true)
    if ok = false then (c, [])
    else
      let a := match addr with
        | none => 0
        | some a => if a = 0xffffffff then 0 else a
      let c := match addr with
        | none => c
        | some a => if a = 0xffffffff then c else { c with last := some a }
      if a ≠ 0 then
        let c := { c with requestedIp := a, state := .rebooting }
        ({ c.add .reboot with idTimeout := c.next }, [c.sendRequest])
      else
        ({ c.add .discover with idTimeout := c.next }, [.discover c.xid a])

/-- `restart_dhcp`, `src/dhcp/client.c:1618-1630`. -/
def Cl.restart (c : Cl) (retry : Nat) (e : Env) : Cl × List Out :=
  let c := c.removeTimeouts
  let c := { c with retry := retry % 256, requestedIp := 0, state := .initSelecting }
  let c := (c.switch .l2 e.open1).1
  c.start c.last e

/-- `continue_rebound`, `src/dhcp/client.c:1651-1673`. -/
def Cl.rebindOn (c : Cl) (e : Env) : Cl × List Out :=
  let c := (c.switch .l2 e.open1).1
  let o := c.sendRequest
  let c := c.drop c.idT2
  let c := { c with t2 := c.t2 >>> 1 }
  if c.t2 > 60 then ({ c.add .rebindMore with idT2 := c.next }, [o]) else (c, [o])

/-- `continue_renew`, `src/dhcp/client.c:1695-1716`. -/
def Cl.renewOn (c : Cl) (e : Env) : Cl × List Out :=
  let c := (c.switch .l3 e.open1).1
  let o := c.sendRequest
  let c := c.drop c.idT1
  let c := { c with t1 := c.t1 >>> 1 }
  if c.t1 > 60 then ({ c.add .renewMore with idT1 := c.next }, [o]) else (c, [o])

/-- `start_bound`, `src/dhcp/client.c:1733-1764`. -/
def Cl.startBound (c : Cl) : Cl :=
  let c := ({ c with state := .bound } : Cl).removeTimeouts
  let p := Timers.bound c.leaseSeconds
  let c := { c with t1 := p.t1, t2 := p.t2, expire := p.expire }
  let c := { c.add .renew with idT1 := c.next }
  let c := { c.add .rebind with idT2 := c.next }
  { c.add .expire with idLease := c.next }

/-- The timer callbacks: `discover_timeout` (`src/dhcp/client.c:2575-2589`), `reboot_timeout`
(`:2591-2605`), `request_timeout` (`:1494-1506`), `restart_dhcp_timeout` (`:1766-1781`), `start_renew`
(`:1717-1731`), `continue_renew`, `start_rebound` (`:1675-1693`), `continue_rebound`, `start_expire`
(`:1632-1649`).  `retry_times` and `ack_retry_times` are `uint8_t`, `T1`, `T2` and `expire` `uint32_t`. -/
def Cl.callback (c : Cl) (k : Kind) (e : Env) : Cl × List Out :=
  match k with
  | .discover => ({ c with retry := (c.retry + 1) % 256 } : Cl).start none e
  | .reboot => ({ c with retry := 0, requestedIp := 0, state := .initSelecting } : Cl).start none e
  | .request => ({ c with retry := (c.retry + 1) % 256 } : Cl).startRequest e
  | .restart =>
    if c.state = .rebooting then ({ c with last := none } : Cl).restart 0 e
    else
      let c := { c with ackRetry := (c.ackRetry + 1) % 256 }
      c.restart c.ackRetry e
  | .renew => ({ c with state := .renewing, t1 := (c.t2 + W32 - c.t1) % W32 } : Cl).renewOn e
  | .renewMore => c.renewOn e
  | .rebind =>
    let c := c.drop c.idT1
    ({ c with state := .rebinding, t2 := (c.expire + W32 - c.t2) % W32 } : Cl).rebindOn e
  | .rebindMore => c.rebindOn e
  | .expire =>
    let (c, o) := c.removeTimeouts.restart 0 e
    (c, o ++ [.lost])

/-- A source that fires: its callback runs, returns FALSE, and the source is gone. (It is gone before
the callback here, which no callback can tell apart: none looks for its own id but to remove it.) -/
def Cl.fire (c : Cl) (id : Nat) (e : Env) : Option (Cl × List Out) :=
  match c.live.find? (·.1 = id) with
  | none => none
  | some (_, k) => some (({ c with live := c.live.filter (·.1 ≠ id) } : Cl).callback k e)

/-- `g_dhcp_client_stop`, `src/dhcp/client.c:2820-2844`. -/
def Cl.stop (c : Cl) : Cl × List Out :=
  let c := (c.switch .none true).1
  let o := if c.state = .bound ∨ c.state = .renewing ∨ c.state = .rebinding
    then [.release c.requestedIp c.serverIp] else []
  let c := c.removeTimeouts
  ({ c with watch := false, retry := 0, ackRetry := 0, requestedIp := 0, state := .released, leaseSeconds := 0 }, o)

/-- `check_package_owner`, `src/dhcp/client.c:1461-1490`, for DHCPv4 (xid at 4, hlen at 2, chaddr at 28). -/
def Cl.owner (c : Cl) (pkt : List Byte) : Bool :=
  rd pkt 4 4 = some c.xid && pkt[2]? = some 6 && rd pkt 28 6 = some c.mac

/-- The value a pointer returned by `dhcp_get_option` leads to with `get_be32`: undefined for NULL. -/
def ptrBe32 (h : Wire.Host) (pkt : List Byte) (r : Res) : Option Nat :=
  match r with
  | .ptr i => Wire.getBe h 4 pkt i
  | _ => none

/-- The `DHCPACK` branch of `listener_event`, `src/dhcp/client.c:2357-2382`. -/
def Cl.onAck (c : Cl) (pkt : List Byte) (plen : Nat) (e : Env) : Option (Cl × List Out) := do
  let c := ({ c with retry := 0 } : Cl).removeTimeouts
  let s ← Timers.getLease e.host pkt plen 2000
  let v ← OptValue.getRequest e.host e.junk pkt plen c.codes c.vals
  let c := ({ c with leaseSeconds := s, vals := v } : Cl)
  let c := (c.switch .none true).1
  let a ← Wire.getBe e.host 4 pkt 16
  let c := { c with assigned := some a }
  let c ← if c.state = .rebooting then do
      let srv ← ptrBe32 e.host pkt (getOption pkt plen 0x36 2000)
      some { c with serverIp := srv }
    else some c
  some (c.startBound, [.lease c.assigned])

/-- `listener_event`, `src/dhcp/client.c:2229-2573`, for a DHCPv4 client with data to read: `pkt` are the 628
bytes of the packet structure and `re` the value returned by `dhcp_recv_l2_packet` resp.
`dhcp_recv_l3_packet`.  In mode L3 `pkt_len` keeps its initial value 0.
`none` is undefined behaviour (or a lookup that goes on for more than 2000 rounds). -/
def Cl.recv (c : Cl) (pkt : List Byte) (re : Int) (e : Env) : Option (Cl × List Out) :=
  if c.mode = .none then some ({ c with watch := false }, [])
  else
    let plen : Nat := if c.mode = .l2 then (re % 65536).toNat else 0
    if re < 0 then some (c, [])
    else if c.owner pkt = false then some (c, [])
    else match getOption pkt plen 0x35 2000 with
      | .null => some (c, [])
      | .ptr i => do
        let ty ← pkt[i]?
        match c.state with
        | .initSelecting =>
          if ty ≠ 2 then some (c, [])
          else do
            let c := { c.removeTimeouts with retry := 0 }
            let srv ← ptrBe32 e.host pkt (getOption pkt plen 0x36 2000)
            let a ← Wire.getBe e.host 4 pkt 16
            some (({ c with serverIp := srv, requestedIp := a, state := .requesting } : Cl).startRequest e)
        | .rebooting | .requesting | .renewing | .rebinding =>
          if ty = 5 then c.onAck pkt plen e
          else if ty = 6 then
            let c := ({ c with retry := 0 } : Cl).removeTimeouts
            some ({ c.add .restart with idTimeout := c.next }, [])
          else some (c, [])
        | _ => some (c, [])
      | _ => none

/-- An event: the user starts (with `last_address`) or stops the client, a packet arrives, the socket
reports an error, a timer expires. -/
inductive Op
  | start (last : Option Nat)
  | stop
  | recv (pkt : List Byte) (re : Int)
  | hup
  | fire (id : Nat)
  deriving DecidableEq, Repr

/-- One event. `none`: undefined behaviour, or the event cannot occur (packets and errors need a watch,
timers a live source). An error condition drops the watch, `src/dhcp/client.c:2245-2248`. -/
def Cl.step (c : Cl) (o : Op) (e : Env) : Option (Cl × List Out) :=
  match o with
  | .start a => some (c.start a e)
  | .stop => some c.stop
  | .recv pkt re => if c.watch then c.recv pkt re e else none
  | .hup => if c.watch then some ({ c with watch := false }, []) else none
  | .fire id => c.fire id e

/-- A run: the final state and the outputs of every event. -/
def Cl.run (c : Cl) : List (Op × Env) → Option (Cl × List (List Out))
  | [] => some (c, [])
  | (o, e) :: t => do
    let (c, out) ← c.step o e
    let (c, outs) ← c.run t
    some (c, out :: outs)

end Verif.Client
