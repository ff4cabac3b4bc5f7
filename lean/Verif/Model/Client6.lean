import Verif.Model.Dhcp6
/-!
# Model of the DHCPv6 part of `src/dhcp/client.c`

What the client puts into a message, and what it takes from a reply.  Memory is a block of bytes,
pointers are offsets, `none` is undefined behaviour.  Allocations succeed.  The text forms of IPv6
addresses are not modelled: where the code calls `inet_ntop` the value is the address itself, and
`inet_pton` is a parameter `pton`.

The hash tables (`send_value_hash`, `code_value_hash`) are lists of pairs; the order of the list is
the order in which `g_hash_table_foreach` visits it, about which nothing is assumed.
-/
namespace Verif.Client6
open Verif.C

/-- A delegated prefix, `GDHCPIAPrefix` (`src/dhcp/gdhcp.h`). -/
structure Prefix where
  addr : List Byte
  len : Byte
  preferred : Nat
  valid : Nat
  expire : Nat
  deriving DecidableEq, Repr

/-- An element of a list of values: an address (in the code: its text), a prefix, or a name. -/
inductive Val
  | addr (a : List Byte)
  | pfx (p : Prefix)
  | name (s : List Byte)
  deriving DecidableEq, Repr

/-- The callbacks of a DHCPv6 client, `src/dhcp/client.c:123-142`. -/
inductive Cb
  | informationReq | solicitation | advertise | request | renew | rebind | release | confirm | decline
  deriving DecidableEq, Repr

/-- The fields of `struct _GDHCPClient` used by DHCPv6, `src/dhcp/client.c:84-157`. A DUID and its
length are one list. `start` is `start_time` (seconds and microseconds); `cbs` are the callbacks that
are set. -/
structure Client where
  cbs : List Cb := []
  duid : Option (List Byte) := none
  serverDuid : Option (List Byte) := none
  retransmit : Bool := false
  xid : Nat := 0
  start : Int × Int := (0, 0)
  requests : List Nat := []
  sends : List (Nat × List Byte) := []
  values : List (Nat × List Val) := []
  iaid : Nat := 0
  iaNa : List Byte := List.replicate 16 0
  iaTa : List Byte := List.replicate 16 0
  t1 : Nat := 0
  t2 : Nat := 0
  expire : Nat := 0
  status : Nat := 0
  deriving DecidableEq, Repr

/-- `n >> 8` and `n & 0xff` stored into two bytes. -/
def put16 (n : Nat) : List Byte := [(n / 256).toUInt8, (n % 256).toUInt8]

/-- `n >> 24`, `n >> 16`, `n >> 8`, `n` stored into four bytes; also `htonl` and `memcpy`. -/
def put32 (n : Nat) : List Byte :=
  [(n / 16777216 % 256).toUInt8, (n / 65536 % 256).toUInt8, (n / 256 % 256).toUInt8, (n % 256).toUInt8]

/-- `get_uint32`, `src/dhcp/client.c:1880-1884` (and `get_be32`). -/
def be32 (buf : List Byte) (p : Nat) : Option Nat := do
  let a ← buf[p]?
  let b ← buf[p + 1]?
  let c ← buf[p + 2]?
  let d ← buf[p + 3]?
  some (a.toNat * 16777216 + b.toNat * 65536 + c.toNat * 256 + d.toNat)

/-! ## What is asked for and sent along -/

/-- `g_dhcp_client_set_request`, `src/dhcp/client.c:2989-2999`. -/
def setRequest (c : Client) (code : Nat) : Client :=
  if code ∈ c.requests then c else { c with requests := code :: c.requests }

/-- `alloc_dhcpv6_option`, `src/dhcp/client.c:3079-3095`: `len` is a `uint16_t`, so a longer value is
cut. -/
def alloc (code : Nat) (value : List Byte) : List Byte :=
  put16 code ++ put16 (value.length % 65536) ++ value.take (value.length % 65536)

/-- `g_dhcpv6_client_set_send`, `src/dhcp/client.c:3103-3121` with a value. -/
def setSend (c : Client) (code : Nat) (value : List Byte) : Client :=
  { c with sends := (code, alloc code value) :: c.sends.filter (fun e => e.1 ≠ code) }

/-- `g_dhcpv6_client_clear_send`, `src/dhcp/client.c:3097-3101`. -/
def clearSend (c : Client) (code : Nat) : Client :=
  { c with sends := c.sends.filter (fun e => e.1 ≠ code) }

/-- `g_dhcpv6_client_create_iaid` and `put_iaid`, `src/dhcp/client.c:793-803,859-873`: the four bytes
written and the client afterwards. The MAC address of the interface is a parameter; the shift of a
byte above 127 by 24 is taken to wrap, as the compilers do it. -/
def putIaid (c : Client) (mac : List Byte) : Option (Client × List Byte) :=
  if c.iaid = 0 then do
    let id ← rd mac 2 4
    let n ← be32 id 0
    some ({ c with iaid := n }, id)
  else some (c, put32 c.iaid)

/-- A timer given by pointer: NULL leaves the zeros. -/
def timer (t : Option Nat) : List Byte := put32 (t.getD 0)

/-- An address sub-option as written by `create_iaaddr` and `append_iaaddr`,
`src/dhcp/client.c:828-857`; both lifetimes zero. -/
def iaaddr (a : List Byte) : List Byte := [0, 5, 0, 24] ++ a.take 16 ++ [0, 0, 0, 0] ++ [0, 0, 0, 0]

/-- The condition `add_iaaddr && (…)` and the address it leads to, `src/dhcp/client.c:901-910`. -/
def useAddr (pton : List Byte → Option (List Byte)) (c : Client) (add : Bool) (want : Option (List Byte)) :
    Option (List Byte) :=
  if add then
    match want with
    | none => if c.iaNa = List.replicate 16 0 then none else some c.iaNa
    | some s => pton s
  else none

/-- `g_dhcpv6_client_set_ia`, `src/dhcp/client.c:875-951`. -/
def setIa (pton : List Byte → Option (List Byte)) (c : Client) (mac : List Byte) (code : Nat) (t1 t2 : Option Nat)
    (add : Bool) (want : Option (List Byte)) : Option (Client × Int) :=
  if code = 4 then do
    let (c, id) ← putIaid c mac
    some (setSend (setRequest c 4) 4 id, 0)
  else if code = 3 then
    let c := setRequest c 3
    match useAddr pton c add want with
    | some a => do
      let (c, id) ← putIaid { c with iaNa := a } mac
      some (setSend c 3 (id ++ timer t1 ++ timer t2 ++ iaaddr a), 0)
    | none => do
      let (c, id) ← putIaid c mac
      some (setSend c 3 (id ++ [0, 0, 0, 0] ++ [0, 0, 0, 0]), 0)
  else some (c, -EINVAL)

/-- The loop of `g_dhcpv6_client_set_ias`, `src/dhcp/client.c:983-987`, in the block `buf` at `pos`. -/
def appendAll (pton : List Byte → Option (List Byte)) : List (List Byte) → (buf : List Byte) → (pos : Nat) → Option (List Byte)
  | [], buf, _ => some buf
  | s :: t, buf, pos =>
    match pton s with
    | none => some buf
    | some a => (wr buf pos (iaaddr a)).bind fun b => appendAll pton t b (pos + 28)

/-- `g_dhcpv6_client_set_ias`, `src/dhcp/client.c:953-1012`. The product `count * 28` is assumed not to
overflow. The timers are written before the addresses here; they are different bytes. -/
def setIas (pton : List Byte → Option (List Byte)) (c : Client) (mac : List Byte) (code : Nat) (t1 t2 : Option Nat)
    (addrs : List (List Byte)) : Option (Client × Int) :=
  if addrs.length = 0 then some (c, -EINVAL)
  else
    let c := setRequest c code
    if code = 4 then do
      let (c, id) ← putIaid c mac
      let b ← wr (List.replicate (4 + addrs.length * 28) 0) 0 id
      let b ← appendAll pton addrs b 4
      some (setSend c 4 b, 0)
    else if code = 3 then do
      let (c, id) ← putIaid c mac
      let b ← wr (List.replicate (12 + addrs.length * 28) 0) 0 id
      let b ← wr b 4 (timer t1 ++ timer t2)
      let b ← appendAll pton addrs b 12
      some (setSend c 3 b, 0)
    else some (c, -EINVAL)

/-- The loop of `g_dhcpv6_client_set_pd`, `src/dhcp/client.c:747-768`: the block and the length, or
`some none` for the early `return -EINVAL`. -/
def putPrefixes : List (Byte × List Byte) → (buf : List Byte) → (len : Nat) → Option (Option (List Byte × Nat))
  | [], buf, len => some (some (buf, len))
  | (n, a) :: t, buf, len =>
    if len + 2 + 2 + 25 ≥ 1452 then some none
    else (wr buf len (put16 26 ++ put16 25 ++ (List.replicate 8 0 ++ [n] ++ a.take 16))).bind fun b =>
      putPrefixes t b (len + 29)

/-- `g_dhcpv6_client_set_pd`, `src/dhcp/client.c:713-775`, of a DHCPv6 client. -/
def setPd (c : Client) (t1 t2 : Option Nat) (ps : List (Byte × List Byte)) : Option (Client × Int) := do
  let c := setRequest c 25
  let b ← wr (List.replicate 1452 0) 0 (put32 c.iaid ++ timer t1 ++ timer t2)
  match ← putPrefixes ps b 12 with
  | none => some (c, -EINVAL)
  | some (b, len) =>
    let v ← rd b 0 len
    some (setSend c 25 v, 0)

/-- `g_dhcpv6_client_set_oro`, `src/dhcp/client.c:1014-1037`; the arguments are cut to 16 bits. -/
def setOro (c : Client) (codes : List Nat) : Client :=
  setSend c 6 (codes.flatMap fun n => put16 (n % 65536))

/-- `g_dhcpv6_create_duid`, `src/dhcp/client.c:640-680`, for `G_DHCPV6_DUID_LLT` (1), `_EN` (2) and
`_LL` (3); `now` is the time. A failing `get_interface_mac_address` is not modelled. -/
def createDuid (kind : Nat) (mac : List Byte) (type : Nat) (now : Int) : Option (List Byte) :=
  if kind = 1 then
    let t := ((now - 946684800) % 4294967296).toNat
    some ([0, 1, 0, type.toUInt8] ++ put32 t ++ mac.take 6)
  else if kind = 3 then some ([0, 3, 0, type.toUInt8] ++ mac.take 6)
  else none

/-! ## Sending -/

/-- A number as an `int32_t` holds it. -/
def wrap32 (n : Int) : Int := (n + 2147483648) % 4294967296 - 2147483648

/-- `get_time_diff`, `src/dhcp/client.c:263-274`. -/
def timeDiff (now start : Int × Int) : Int :=
  wrap32 (wrap32 ((now.1 - start.1) * 100) + Int.tdiv (now.2 - start.2) 10000)

/-- The value of the elapsed-time option, `src/dhcp/client.c:366-375`. -/
def elapsed (c : Client) (now : Int × Int) : Nat :=
  if !c.retransmit then 0
  else
    let d := timeDiff now c.start
    if d < 0 ∨ d > 0xffff then 0xffff else d.toNat

/-- `MAX_DHCPV6_PKT_SIZE - sizeof(struct dhcpv6_packet)`, `src/dhcp/client.c:1068`. -/
def maxBuf : Nat := 1496

/-- `copy_option`, `src/dhcp/client.c:252-261`. -/
def copyOption (buf : List Byte) (ptr code : Nat) (data : List Byte) : Option (List Byte) :=
  (wr buf ptr (put16 code ++ put16 data.length)).bind fun b => wr b (ptr + 4) data

/-- `add_dhcpv6_request_options`, `src/dhcp/client.c:295-407`; `el` is the elapsed time. Every early
`return` keeps what has been written. -/
def addRequested (c : Client) (el : Nat) : List Nat → List Byte → Nat → Option (List Byte × Nat)
  | [], buf, ptr => some (buf, ptr)
  | code :: t, buf, ptr =>
    if code % 65536 = 1 then
      match c.duid with
      | none => some (buf, ptr)
      | some d =>
        if ptr + (2 + 2 + d.length) > maxBuf then some (buf, ptr)
        else (copyOption buf ptr 1 d).bind fun b => addRequested c el t b (ptr + (2 + 2 + d.length))
    else if code % 65536 = 2 then
      match c.serverDuid with
      | none => addRequested c el t buf ptr
      | some d =>
        if ptr + (2 + 2 + d.length) > maxBuf then some (buf, ptr)
        else (copyOption buf ptr 2 d).bind fun b => addRequested c el t b (ptr + (2 + 2 + d.length))
    else if code % 65536 = 14 then
      if ptr + (2 + 2) > maxBuf then some (buf, ptr)
      else (copyOption buf ptr 14 []).bind fun b => addRequested c el t b (ptr + (2 + 2))
    else if code % 65536 = 8 then
      if ptr + (2 + 2 + 2) > maxBuf then some (buf, ptr)
      else (copyOption buf ptr 8 (put16 el)).bind fun b => addRequested c el t b (ptr + (2 + 2 + 2))
    else addRequested c el t buf ptr

/-- `add_dhcpv6_binary_option` for every entry, `src/dhcp/client.c:216-250`. -/
def addSends : List (Nat × List Byte) → List Byte → Nat → Option (List Byte × Nat)
  | [], buf, ptr => some (buf, ptr)
  | e :: t, buf, ptr =>
    (Dhcp6.be16 e.2 2).bind fun len =>
      if ptr + len + 2 + 2 > maxBuf then addSends t buf ptr
      else (rd e.2 0 (len + 2 + 2)).bind fun o => (wr buf ptr o).bind fun b => addSends t b (ptr + (len + 2 + 2))

/-- `send_dhcpv6_msg`, `src/dhcp/client.c:1039-1078`, with `init_packet` and `dhcpv6_init_header`
(`src/dhcp/common.c:371-384`): the client afterwards and the packet handed to the socket. `rand` is the
result of `random()`, `now` the time. -/
def sendMsg (c : Client) (type : Byte) (rand : Nat) (now : Int × Int) : Option (Client × List Byte) :=
  let c := if c.retransmit then c else { c with xid := rand % 16777216, start := now }
  let c := setRequest c 8
  do
    let b ← wr (List.replicate 1500 0) 0
      [type, (c.xid / 65536 % 256).toUInt8, (c.xid / 256 % 256).toUInt8, (c.xid % 256).toUInt8]
    let (b, p) ← addRequested c (elapsed c now) c.requests b 4
    let (b, p) ← addSends c.sends b p
    let pkt ← rd b 0 p
    some (c, pkt)

/-! ## Reading -/

/-- What `g_strndup(s, n)` reads: up to `n` bytes or the first NUL. -/
def strnRead (buf : List Byte) : (p n : Nat) → Option Unit
  | _, 0 => some ()
  | p, n + 1 => (buf[p]?).bind fun x => if x = 0 then some () else strnRead buf (p + 1) n

/-- The variables of the loop of `get_addresses`. `list` is in the order of the `GList`. -/
structure Ia where
  addr : List Byte := []
  preferred : Nat := 0
  valid : Nat := 0
  st : Nat := 0
  status : Nat
  addrCount : Nat := 0
  prefixCount : Nat := 0
  list : List Val := []
  deriving DecidableEq, Repr

/-- The `switch` of `get_addresses`, `src/dhcp/client.c:1975-2019`; `o` is the offset of the data of
the sub-option. -/
def iaSub (now : Nat) (buf : List Byte) (code len o : Nat) (s : Ia) : Option Ia :=
  if code = 5 then
    (rd buf o 16).bind fun a => (be32 buf (o + 16)).bind fun p => (be32 buf (o + 20)).bind fun v =>
      some { s with addr := a, preferred := p, valid := v, addrCount := s.addrCount + 1 }
  else if code = 13 then
    (Dhcp6.be16 buf o).bind fun st =>
      (if len > 2 then strnRead buf (o + 2) (len - 2) else some ()).bind fun _ =>
        some { s with st := st, status := st }
  else if code = 26 then
    (be32 buf o).bind fun p => (be32 buf (o + 4)).bind fun v => (buf[o + 8]?).bind fun n =>
      (rd buf (o + 9) 16).bind fun a =>
        let s := { s with addr := a, preferred := p, valid := v }
        if p < v then
          some { s with list := .pfx ⟨a, n, p, v, now + v⟩ :: s.list, prefixCount := s.prefixCount + 1 }
        else some s
  else some s

/-- The loop of `get_addresses`, `src/dhcp/client.c:1962-2023`; `off` is the offset of the value in the
block, `maxLen` never changes. Running out of rounds counts as undefined, so that a theorem that the
result is defined covers termination. -/
def iaLoop (now : Nat) (buf : List Byte) (off len maxLen : Nat) : (fuel pos : Nat) → Ia → Option Ia
  | 0, _, _ => none
  | fuel + 1, pos, s =>
    (Dhcp6.getSubOption (buf.drop (off + pos)) maxLen).bind fun r =>
      match r with
      | none => some s
      | some (code, olen, _) =>
        if pos ≥ len then some s
        else (iaSub now buf code olen (off + pos + 4) s).bind fun s =>
          if pos + (2 + 2 + olen) < len then iaLoop now buf off len maxLen fuel (pos + (2 + 2 + olen)) s
          else some s

/-- The end of `get_addresses`, `src/dhcp/client.c:2025-2071`. `shortest_valid` is zero all the time:
it is only ever replaced by something smaller. -/
def iaEnd (c : Client) (code t1 t2 : Nat) (s : Ia) : Client × List Val :=
  let c := { c with status := s.status }
  if s.addrCount > 0 ∧ s.st = 0 ∧ s.preferred > s.valid then (c, [])
  else
    let (c, list) :=
      if s.addrCount > 0 ∧ s.st = 0 then
        let c := { c with t1 := t1, t2 := t2 }
        let c := if code = 3 then { c with iaNa := s.addr } else { c with iaTa := s.addr }
        let c := if s.valid > c.expire then { c with expire := s.valid } else c
        (c, s.list ++ [Val.addr s.addr])
      else (c, s.list)
    if s.prefixCount > 0 ∧ list ≠ [] then ({ c with t1 := t1, t2 := t2, expire := 0 }, list.reverse)
    else (c, list)

/-- `get_addresses`, `src/dhcp/client.c:1919-2072`. `status` always points to the status of the client
(`src/dhcp/client.c:2435,2503`). -/
def getAddresses (c : Client) (now : Nat) (buf : List Byte) (code off len : Nat) : Option (Client × List Val) :=
  if len < 4 then some (c, [])
  else
    (be32 buf off).bind fun iaid =>
      if c.iaid ≠ iaid then some (c, [])
      else if code = 3 ∨ code = 25 then
        (be32 buf (off + 4)).bind fun t1 => (be32 buf (off + 8)).bind fun t2 =>
          if t1 > t2 then some (c, [])
          else if len ≤ 12 then some (c, [])
          else (iaLoop now buf off len (len - 12) len 12 { status := c.status }).bind fun s => some (iaEnd c code t1 t2 s)
      else if len ≤ 4 then some (c, [])
      else (iaLoop now buf off len (len - 4) len 4 { status := c.status }).bind fun s => some (iaEnd c code 0 0 s)

/-- `strncpy(dns_name, s, 1025)` into an array of 1026 bytes: what is read up to the NUL, then zeros.
The last byte of the array keeps its old content `junk`. -/
def strncpy (buf : List Byte) : (p n : Nat) → Option (List Byte)
  | _, 0 => some []
  | p, n + 1 => (buf[p]?).bind fun x =>
      if x = 0 then some (List.replicate (n + 1) 0)
      else (strncpy buf (p + 1) n).bind fun t => some (x :: t)

/-- `while (c && *c)` of `get_domains`, `src/dhcp/client.c:2089-2094`: the array and the offset of `c`
at the end. A pointer more than one behind the array is undefined, and so is reading there. -/
def dots : (fuel : Nat) → (name : List Byte) → (c : Nat) → Option (List Byte × Nat)
  | 0, _, _ => none
  | fuel + 1, name, c =>
    (name[c]?).bind fun x =>
      if x = 0 then some (name, c)
      else (wr name c [ch '.']).bind fun name => dots fuel name (c + (x.toNat + 1))

/-- A C string: up to the first NUL, which must be there. -/
def cstr : List Byte → Option (List Byte)
  | [] => none
  | x :: t => if x = 0 then some [] else (cstr t).bind fun s => some (x :: s)

/-- The loop of `get_domains`, `src/dhcp/client.c:2085-2097`; `junk` is the last byte of the array. -/
def domLoop (junk : Byte) (buf : List Byte) (off maxlen : Nat) : (fuel pos : Nat) → Option (List Val)
  | 0, _ => none
  | fuel + 1, pos =>
    if pos < maxlen then
      (strncpy buf (off + pos) 1025).bind fun nm => (dots 1027 (nm ++ [junk]) 0).bind fun (nm, c) =>
        (cstr (nm.drop 1)).bind fun s => (domLoop junk buf off maxlen fuel (pos + (c + 1))).bind fun t =>
          some (.name s :: t)
    else some []

/-- `get_domains`, `src/dhcp/client.c:2074-2100`. -/
def getDomains (junk : Byte) (buf : List Byte) (off len : Nat) : Option (List Val) :=
  if len < 3 then some [] else domLoop junk buf off len (len + 1) 0

/-- The addresses of a list of servers, `src/dhcp/client.c:2124-2135`. -/
def servers (buf : List Byte) (off : Nat) : Nat → Option (List Val)
  | 0 => some []
  | n + 1 => (rd buf off 16).bind fun a => (servers buf (off + 16) n).bind fun t => some (.addr a :: t)

/-- `get_dhcpv6_option_value_list`, `src/dhcp/client.c:2102-2153`. -/
def valueList (junk : Byte) (now : Nat) (c : Client) (buf : List Byte) (code off len : Nat) : Option (Client × List Val) :=
  if code = 23 ∨ code = 31 then
    if len % 16 ≠ 0 then some (c, []) else (servers buf off (len / 16)).bind fun l => some (c, l)
  else if code = 3 ∨ code = 4 ∨ code = 25 then getAddresses c now buf code off len
  else if code = 24 then (getDomains junk buf off len).bind fun l => some (c, l)
  else some (c, [])

/-- `g_hash_table_remove` / `g_hash_table_insert` of `code_value_hash`; an empty list is NULL. -/
def Client.setValue (c : Client) (code : Nat) (l : List Val) : Client :=
  { c with values := (if l = [] then [] else [(code, l)]) ++ c.values.filter (fun e => e.1 ≠ code) }

/-- One round of `get_dhcpv6_request`, `src/dhcp/client.c:2165-2186`; the code is cut to 16 bits. -/
def getOne (junk : Byte) (now : Nat) (buf : List Byte) (pktLen : Nat) (c : Client) (code : Nat) : Option Client :=
  match Dhcp6.getOption buf pktLen code (pktLen + 1) with
  | .ok { ptr := some p, len := some l, count := _ } =>
    (valueList junk now c buf code p l).bind fun (c, v) => some (c.setValue code v)
  | .ok _ => some (c.setValue code [])
  | _ => none

/-- `get_dhcpv6_request`, `src/dhcp/client.c:2155-2188`. -/
def getRequest (junk : Byte) (now : Nat) (buf : List Byte) (pktLen : Nat) : List Nat → Client → Option Client
  | [], c => some c
  | code :: t, c => (getOne junk now buf pktLen c (code % 65536)).bind fun c => getRequest junk now buf pktLen t c

/-! ## The conversation -/

/-- The states of a DHCPv6 client, `ClientState` in `src/dhcp/client.c:62-82`. -/
inductive State
  | informationReq | solicitation | request | confirm | renew | rebind | release | decline
  deriving DecidableEq, Repr

/-- The DHCPv6 branch of `g_dhcp_client_start`, `src/dhcp/client.c:2673-2755`, when listening works: the
state and the type of the message sent (`src/dhcp/common.h`). No callback: nothing happens. While
the client releases an address the state is `RENEW` (line 2735). -/
def startWith (c : Client) : Option (State × Byte) :=
  if .informationReq ∈ c.cbs then some (.informationReq, 11)
  else if .solicitation ∈ c.cbs then some (.solicitation, 1)
  else if .request ∈ c.cbs then some (.request, 3)
  else if .confirm ∈ c.cbs then some (.confirm, 4)
  else if .renew ∈ c.cbs then some (.renew, 5)
  else if .rebind ∈ c.cbs then some (.rebind, 6)
  else if .release ∈ c.cbs then some (.renew, 8)
  else if .decline ∈ c.cbs then some (.decline, 9)
  else none

/-- What comes out of a received packet: it is ignored and the client goes on listening, or the
client stops listening and calls at most one callback. -/
inductive Reply
  | ignored
  | done (called : Option Cb)
  deriving DecidableEq, Repr

/-- `memcmp(id, packet + p, len) == 0`; all the bytes must be readable. No DUID: nothing is
compared. -/
def sameId (id : Option (List Byte)) (buf : List Byte) (p : Nat) : Option Bool :=
  match id with
  | none => some true
  | some d => (rd buf p d.length).bind fun x => some (decide (x = d))

/-- The result of an option lookup as `listener_event` uses it: offset, length and count. -/
def look (buf : List Byte) (n code : Nat) : Option (Option (Nat × Nat × Nat)) :=
  match Dhcp6.getOption buf n code (n + 1) with
  | .ok { ptr := some p, len := some l, count := k } => some (some (p, l, k))
  | .ok _ => some none
  | _ => none

/-- The server id of a reply is good: there is one, it is not empty, and with `known` it is that of the
server, `src/dhcp/client.c:2406,2490-2493`. -/
def serverOk (c : Client) (buf : List Byte) (known : Bool) : Option (Nat × Nat × Nat) → Option (Option (Nat × Nat))
  | none => some none
  | some (p, l, k) =>
    if k ≠ 1 ∨ l = 0 then some none
    else if known ∧ 0 < (c.serverDuid.getD []).length then
      (sameId c.serverDuid buf p).bind fun b => some (if b then some (p, l) else none)
    else some (some (p, l))

/-- `get_dhcpv6_request` if there is no status yet, `src/dhcp/client.c:2434-2436`. -/
def takeAdvertised (junk : Byte) (now : Nat) (buf : List Byte) (n : Nat) (c : Client) : Option Client :=
  if c.status = 0 then getRequest junk now buf n c.requests c else some c

/-- The part of `listener_event` for a solicitation, `src/dhcp/client.c:2399-2454`. -/
def onSolicit (junk : Byte) (now : Nat) (c : Client) (buf : List Byte) (n : Nat) (msg : Byte) : Option (Client × Reply) :=
  if msg ≠ 7 ∧ msg ≠ 2 then some (c, .ignored)
  else
    (look buf n 2).bind fun r => (serverOk c buf false r).bind fun s =>
      match s with
      | none => some (c, .ignored)
      | some (p, l) =>
        (rd buf p l).bind fun d =>
          let c := { c with serverDuid := some d }
          if msg = 7 then
            (look buf n 14).bind fun r =>
              match r with
              | none => some (c, .ignored)
              | some (_, rl, rk) =>
                if rl = 0 ∨ rk ≠ 1 then some (c, .ignored)
                else (takeAdvertised junk now buf n c).bind fun c =>
                  some (c, .done (if .solicitation ∈ c.cbs then some .solicitation else none))
          else (takeAdvertised junk now buf n c).bind fun c =>
            some (c, .done (if .advertise ∈ c.cbs then some .advertise else none))

/-- Which callback is called for a reply, `src/dhcp/client.c:2506-2563`. -/
def replyCb (c : Client) : Option Cb :=
  [Cb.informationReq, .request, .renew, .rebind, .release, .decline, .confirm].find? (fun k => k ∈ c.cbs)

/-- The part of `listener_event` for all the other messages, `src/dhcp/client.c:2480-2563`. Before the
callback for a confirmation the server id is stored (the option is the one looked up before, so
the second check of lines 2541-2553 succeeds). -/
def onReply (junk : Byte) (now : Nat) (c : Client) (buf : List Byte) (n : Nat) (msg : Byte) : Option (Client × Reply) :=
  if msg ≠ 7 then some (c, .ignored)
  else
    (look buf n 2).bind fun r => (serverOk c buf true r).bind fun s =>
      match s with
      | none => some (c, .ignored)
      | some (p, l) => (getRequest junk now buf n c.requests c).bind fun c =>
          if replyCb c = some .confirm then
            (rd buf p l).bind fun d => some ({ c with serverDuid := some d }, .done (some .confirm))
          else some (c, .done (replyCb c))

/-- The server id taken while rebinding, `src/dhcp/client.c:2459-2472`. -/
def learnServer (c : Client) (buf : List Byte) (n : Nat) : Option Client :=
  (look buf n 2).bind fun r =>
    match r, c.serverDuid with
    | some (p, l, k), none => if k = 1 then (rd buf p l).bind fun d => some { c with serverDuid := some d } else some c
    | _, _ => some c

/-- The status option of a reply, `src/dhcp/client.c:2304-2320`. -/
def takeStatus (c : Client) (buf : List Byte) (n : Nat) : Option Client :=
  (look buf n 13).bind fun r =>
    match r with
    | none => some c
    | some (p, l, _) =>
      if l > 0 then
        (Dhcp6.be16 buf p).bind fun st =>
          (if st ≠ 0 ∧ l > 2 then strnRead buf (p + 2) (l - 2) else some ()).bind fun _ =>
            some { c with status := st }
      else some c

/-- The `switch` over the state, `src/dhcp/client.c:2334-2567`. -/
def onState (junk : Byte) (now : Nat) (c : Client) (state : State) (buf : List Byte) (n : Nat) (msg : Byte) :
    Option (Client × Reply) :=
  match state with
  | .solicitation => onSolicit junk now c buf n msg
  | .rebind => (learnServer c buf n).bind fun c => onReply junk now c buf n msg
  | _ => onReply junk now c buf n msg

/-- `listener_event`, `src/dhcp/client.c:2229-2573`, for a DHCPv6 client that is listening, with
`check_package_owner` (lines 1461-1475). `n` is what `read` returned, `buf` the 1500-byte array
afterwards. A failed `read` leaves `packet6` NULL, which is then dereferenced (lines 2263-2269). -/
def listener (junk : Byte) (now : Nat) (c : Client) (state : State) (buf : List Byte) (n : Int) : Option (Client × Reply) :=
  let c := { c with status := 0 }
  if n < 0 then none
  else
    (rd buf 0 4).bind fun h =>
      match h with
      | [msg, x2, x1, x0] =>
        if x2.toNat * 65536 + x1.toNat * 256 + x0.toNat ≠ c.xid then some (c, .ignored)
        else
          (look buf n.toNat 1).bind fun r =>
            match r with
            | none => some (c, .ignored)
            | some (p, l, k) =>
              if k = 0 ∨ l = 0 then some (c, .ignored)
              else (sameId c.duid buf p).bind fun b =>
                if !b then some (c, .ignored)
                else (takeStatus c buf n.toNat).bind fun c => onState junk now c state buf n.toNat msg
      | _ => none

end Verif.Client6
