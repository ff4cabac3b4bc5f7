import Verif.C.Basic
/-!
# The DHCP server

Model of `src/dhcp/server.c`: the table of leases (a list ordered by expiry and a hash table by address, both of
pointers to leases) and the handling of received packets.

IP addresses are numbers in host order, hardware addresses are numbers below 2^48.  Leases live in a heap; a
pointer is an index into it, reading through a pointer to freed memory is undefined behaviour (`none`).  The hash
table is a finite map (the contract of `GHashTable`).  The range, the lease time and the address of the server
are fixed.  A received packet is given by the fields and options the server looks at; finding options in packets
is the subject of C30 and C31, building and sending packets that of C32, C33 and C66.
-/
namespace Verif.Server
open Verif.C

/-- `ENXIO`. -/
def ENXIO : Int := 6
/-- `OFFER_TIME`, `src/dhcp/server.c:50`. -/
def offerTime : Int := 300
/-- `MAC_BCAST_ADDR`, `src/dhcp/common.h:39-41`. -/
def macBcast : Nat := 281474976710655
/-- `MAC_ANY_ADDR`, `src/dhcp/common.h:43-45`. -/
def macAny : Nat := 0

/-- `struct dhcp_lease`, `src/dhcp/server.c:75-79` (64-bit `time_t`). -/
structure Lease where
  expire : Int
  nip : Nat
  mac : Nat
  deriving DecidableEq, Repr

/-- `struct _GDHCPServer`, `src/dhcp/server.c:52-73`, with the heap of leases. -/
structure Srv where
  startIp : Nat
  endIp : Nat
  serverNip : Nat
  leaseSeconds : Nat
  /-- the host is little-endian -/
  little : Bool
  heap : Nat → Option Lease := fun _ => none
  next : Nat := 0
  list : List Nat := []
  hash : Nat → Option Nat := fun _ => none

/-- Change one place of a map. -/
def put {α : Type} (f : Nat → Option α) (k : Nat) (v : Option α) : Nat → Option α := fun x => if x = k then v else f x

/-- `find_lease_by_mac`, `src/dhcp/server.c:97-110`. -/
def findByMac (s : Srv) (mac : Nat) : List Nat → Option (Option Nat)
  | [] => some none
  | id :: t => do
    let l ← s.heap id
    if l.mac = mac then some (some id) else findByMac s mac t

/-- `remove_lease`, `src/dhcp/server.c:112-120`. -/
def removeLease (s : Srv) (id : Nat) : Option Srv := do
  let l ← s.heap id
  some { s with list := s.list.erase id, hash := put s.hash l.nip none, heap := put s.heap id none }

/-- Take a lease out of the list and the address `nip` out of the hash table. -/
def detach (s : Srv) (id nip : Nat) : Srv := { s with list := s.list.erase id, hash := put s.hash nip none }

/-- `get_lease`, `src/dhcp/server.c:122-183`; `mem` tells whether allocating succeeds. -/
def getLease (s : Srv) (nip mac : Nat) (mem : Bool) : Option (Int × Srv × Option Nat) :=
  if nip = 0 then some (-ENXIO, s, none)
  else if nip < s.startIp then some (-ENXIO, s, none)
  else if nip > s.endIp then some (-ENXIO, s, none)
  else if mac = macBcast then some (-ENXIO, s, none)
  else if mac = macAny then some (-ENXIO, s, none)
  else do
    let leaseMac ← findByMac s mac s.list
    match s.hash nip with
    | some idNip =>
      let s := detach s idNip nip
      match leaseMac with
      | none => some (0, s, some idNip)
      | some idMac =>
        if idNip ≠ idMac then do
          let s ← removeLease s idMac
          some (0, s, some idNip)
        else some (0, s, some idNip)
    | none =>
      match leaseMac with
      | some idMac => do
        let l ← s.heap idMac
        some (0, detach s idMac l.nip, some idMac)
      | none =>
        if mem then some (0, { s with heap := put s.heap s.next (some ⟨0, 0, 0⟩), next := s.next + 1 }, some s.next)
        else some (-ENOMEM, s, none)

/-- Conversion of a 64-bit integer to `gint`. -/
def gint (i : Int) : Int := (i + 2147483648) % 4294967296 - 2147483648

/-- `g_list_insert_sorted` with `compare_expire`, `src/dhcp/server.c:185-191`: in front of the first lease for
which the comparison of the new lease (expiry `e`) with it is not positive. -/
def insertSorted (heap : Nat → Option Lease) (e : Int) (id : Nat) : List Nat → Option (List Nat)
  | [] => some [id]
  | x :: t => do
    let l ← heap x
    if gint (l.expire - e) > 0 then (insertSorted heap e id t).map (x :: ·) else some (id :: x :: t)

/-- `add_lease`, `src/dhcp/server.c:193-220`; `nip` is `ntohl(yiaddr)`, `expire` is a `uint32_t`. -/
def addLease (s : Srv) (now expire : Int) (mac nip : Nat) (mem : Bool) : Option (Srv × Option Nat) := do
  let r ← getLease s nip mac mem
  match r.2.2 with
  | none => some (r.2.1, none)
  | some id =>
    let s := r.2.1
    let e := if expire = 0 then now + s.leaseSeconds else expire
    let list ← insertSorted s.heap e id s.list
    some ({ s with heap := put s.heap id (some ⟨e, nip, mac⟩), list := list, hash := put s.hash nip (some id) }, some id)

/-- `is_expired_lease`, `src/dhcp/server.c:236-242`. -/
def isExpired (l : Lease) (now : Int) : Bool := l.expire < now

/-- The loop of `find_free_or_expired_nip`, `src/dhcp/server.c:250-266`, over `n` addresses from `ip` on. -/
def scan (s : Srv) (ip : Nat) : Nat → Option Nat
  | 0 => none
  | n + 1 => if ip % 256 = 0 ∨ ip % 256 = 255 ∨ (s.hash ip).isSome then scan s (ip + 1) n else some ip

/-- `find_free_or_expired_nip`, `src/dhcp/server.c:244-284`; 0 if there is none.  If the last address is
255.255.255.255 the counter wraps around and the search goes on below the range; this is not modelled (`none`). -/
def findFree (s : Srv) (now : Int) : Option Nat :=
  match scan s s.startIp (s.endIp + 1 - s.startIp) with
  | some ip => some ip
  | none =>
    if s.endIp + 1 = W32 then none
    else match s.list.getLast? with
      | none => some 0
      | some id => do
        let l ← s.heap id
        if isExpired l now = false then some 0 else some l.nip

/-- `lease_set_expire`, `src/dhcp/server.c:286-295`; `expire` is converted to `uint32_t`. -/
def setExpire (s : Srv) (id : Nat) (expire : Int) : Option Srv := do
  let l ← s.heap id
  let e := expire % 4294967296
  let list ← insertSorted (put s.heap id (some { l with expire := e })) e id (s.list.erase id)
  some { s with heap := put s.heap id (some { l with expire := e }), list := list }

/-- What the server does to the outside. -/
inductive Out
  | offer (mac nip : Nat)
  | ack (mac nip seconds : Nat)
  | nak (mac : Nat)
  | inform (mac : Nat)
  /-- the event function is called -/
  | event (mac nip : Nat)
  deriving DecidableEq, Repr

/-- A received packet: message type, `chaddr`, `ciaddr`, server identifier and requested address. -/
structure Pkt where
  type : Nat
  mac : Nat
  ciaddr : Nat := 0
  serverId : Option Nat := none
  reqIp : Option Nat := none
  deriving DecidableEq, Repr

/-- Reverse the bytes of a 32-bit number. -/
def bswap (n : Nat) : Nat := n % 256 * 16777216 + n / 256 % 256 * 65536 + n / 65536 % 256 * 256 + n / 16777216 % 256

/-- `packet.ciaddr` as the number the code sees; the field is in network order. -/
def rawCiaddr (s : Srv) (p : Pkt) : Nat := if s.little then bswap p.ciaddr else p.ciaddr

/-- `check_requested_nip`, `src/dhcp/server.c:494-516`. -/
def checkRequested (s : Srv) (now : Int) (nip : Nat) : Option Bool :=
  if nip = 0 ∨ nip < s.startIp ∨ nip > s.endIp then some false
  else match s.hash nip with
    | none => some true
    | some id => do
      let l ← s.heap id
      some (isExpired l now)

/-- The address offered, `send_offer`, `src/dhcp/server.c:551-557`. -/
def chooseNip (s : Srv) (now : Int) (lease : Option Nat) (requested : Nat) : Option Nat :=
  match lease with
  | some id => do
    let l ← s.heap id
    some l.nip
  | none => do
    let ok ← checkRequested s now requested
    if ok then some requested else findFree s now

/-- `send_offer`, `src/dhcp/server.c:541-582`. -/
def sendOffer (s : Srv) (now : Int) (mac : Nat) (lease : Option Nat) (requested : Nat) (mem : Bool) :
    Option (Srv × List Out) := do
  let nip ← chooseNip s now lease requested
  if nip = 0 then some (s, [])
  else do
    let r ← addLease s now offerTime mac nip mem
    match r.2 with
    | none => some (r.1, [])
    | some _ => some (r.1, [.offer mac nip])

/-- `send_ACK`, `src/dhcp/server.c:598-626`. -/
def sendAck (s : Srv) (now : Int) (mac nip : Nat) (mem : Bool) : Option (Srv × List Out) := do
  let r ← addLease s now 0 mac nip mem
  some (r.1, [.ack mac nip s.leaseSeconds, .event mac nip])

/-- The REQUEST branch of `listener_event`, `src/dhcp/server.c:713-725`, once the lease has been looked up. -/
def answerRequest (s : Srv) (now : Int) (p : Pkt) (requested : Nat) (lease : Option Nat) (mem : Bool) :
    Option (Srv × List Out) :=
  match lease with
  | none => some (s, [.nak p.mac])
  | some id => do
    let l ← s.heap id
    if requested = l.nip then sendAck s now p.mac l.nip mem
    else if p.serverId.isSome then some (s, [.nak p.mac]) else some (s, [])

/-- The REQUEST branch of `listener_event`, `src/dhcp/server.c:698-725`. -/
def onRequest (s : Srv) (now : Int) (p : Pkt) (lease : Option Nat) (mem : Bool) : Option (Srv × List Out) :=
  let requested := if p.reqIp.getD 0 = 0 then rawCiaddr s p else p.reqIp.getD 0
  if requested = 0 then some (s, [])
  else match lease with
    | some _ => answerRequest s now p requested lease mem
    | none => do
      let r ← addLease s now offerTime p.mac requested mem
      answerRequest r.1 now p requested r.2 mem

/-- The DECLINE branch of `listener_event`, `src/dhcp/server.c:726-741`. -/
def onDecline (s : Srv) (p : Pkt) (lease : Option Nat) : Option (Srv × List Out) :=
  if p.serverId.isNone ∨ p.reqIp.isNone then some (s, [])
  else match lease with
    | none => some (s, [])
    | some id => do
      let l ← s.heap id
      if p.reqIp = some l.nip then do
        let s ← removeLease s id
        some (s, [])
      else some (s, [])

/-- The RELEASE branch of `listener_event`, `src/dhcp/server.c:742-754`. -/
def onRelease (s : Srv) (now : Int) (p : Pkt) (lease : Option Nat) : Option (Srv × List Out) :=
  if p.serverId.isNone then some (s, [])
  else match lease with
    | none => some (s, [])
    | some id => do
      let l ← s.heap id
      if rawCiaddr s p = l.nip then do
        let s ← setExpire s id now
        some (s, [])
      else some (s, [])

/-- `listener_event`, `src/dhcp/server.c:653-762`, on a packet that `check_packet_type`,
`src/dhcp/server.c:421-443`, lets pass; message types are 1 (DISCOVER), 3 (REQUEST), 4 (DECLINE), 7 (RELEASE)
and 8 (INFORM). -/
def recv (s : Srv) (now : Int) (p : Pkt) (mem : Bool) : Option (Srv × List Out) :=
  if p.serverId.isSome ∧ p.serverId ≠ some s.serverNip then some (s, [])
  else do
    let lease ← findByMac s p.mac s.list
    if p.type = 1 then sendOffer s now p.mac lease (p.reqIp.getD 0) mem
    else if p.type = 3 then onRequest s now p lease mem
    else if p.type = 4 then onDecline s p lease
    else if p.type = 7 then onRelease s now p lease
    else if p.type = 8 then some (s, [.inform p.mac])
    else some (s, [])

/-- A packet, the time at which it is handled, and whether memory can be allocated then. -/
structure Step where
  now : Int
  pkt : Pkt
  mem : Bool := true
  deriving DecidableEq, Repr

/-- A run of the server. -/
def run (s : Srv) : List Step → Option (Srv × List Out)
  | [] => some (s, [])
  | e :: t => do
    let r ← recv s e.now e.pkt e.mem
    let q ← run r.1 t
    some (q.1, r.2 ++ q.2)

/-- A server after `g_dhcp_server_new`, `src/dhcp/server.c:352-418`, and the setters, `src/dhcp/server.c:880-905`. -/
def start (startIp endIp serverNip leaseSeconds : Nat) (little : Bool) : Srv :=
  { startIp := startIp, endIp := endIp, serverNip := serverNip, leaseSeconds := leaseSeconds, little := little }

end Verif.Server
