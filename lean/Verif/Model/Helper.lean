import Verif.C.Libc
/-!
# The DHCP helper (`src/dhcp/dhcp.c`)

The program `miracle-dhcp` around the DHCP client and server: its options, the configuration of the interface by running `ip`, the packets it
sends to the Wi-Fi daemon, and its end.  The client and the server themselves are modelled in `Model/Client.lean` and `Model/Server.lean`; here
they appear as events (a lease, no lease, a lease given to a client).  Not modelled: messages on the terminal, signal masks, failing
allocations.
-/
namespace Verif.Helper
open Verif.C

/-! ### Options -/

/-- The part of the state of `inet_pton` (glibc, `inet_pton4`): completed numbers, the current one, whether it has a digit. -/
structure Pton where
  xs : List Nat := []
  cur : Nat := 0
  saw : Bool := false
  deriving DecidableEq

/-- One character for `inet_pton`. -/
def Pton.step (s : Pton) (c : Byte) : Option Pton :=
  if 48 ≤ c.toNat ∧ c.toNat ≤ 57 then
    if s.saw ∧ s.cur = 0 then none
    else if s.cur * 10 + (c.toNat - 48) > 255 then none
    else if ¬ s.saw ∧ s.xs.length ≥ 4 then none
    else some { s with cur := s.cur * 10 + (c.toNat - 48), saw := true }
  else if c = ch '.' ∧ s.saw then
    if s.xs.length = 3 then none else some { xs := s.xs ++ [s.cur], cur := 0, saw := false }
  else none

/-- All characters. -/
def Pton.run (s : Pton) : List Byte → Option Pton
  | [] => some s
  | c :: cs => (s.step c).bind fun t => t.run cs

/-- `inet_pton(AF_INET, …)` (glibc): the four numbers of an IPv4 address in dotted form. -/
def pton (t : List Byte) : Option (List Nat) :=
  match Pton.run {} t with
  | none => none
  | some s => if s.xs.length + s.saw.toNat < 4 then none else some (s.xs ++ [s.cur])

/-- `inet_ntop(AF_INET, …)`. -/
def ntop (a : List Nat) : List Byte := List.intercalate (bytes ".") (a.map dec)

/-- `make_address`, `src/dhcp/dhcp.c:700-725`; `snprintf` is told the size of the buffer, 16. -/
def makeAddress (pre : Option (List Byte)) (suf : List Byte) : Option (List Byte) :=
  let t := pre.getD (bytes "192.168.77") ++ ch '.' :: suf
  if t.length ≥ 16 then none else (pton t).map ntop

/-- `make_subnet`, `src/dhcp/dhcp.c:727-743`. -/
def makeSubnet (t : List Byte) : Option (List Byte) := (pton t).map ntop

/-- What `getopt_long` returns, with `optarg`; `bad` is `'?'`.  (`-s` is accepted and ignored.) -/
inductive Arg where
  | help | version | logLevel (v : List Byte) | logTime | logDateTime | netdev (v : List Byte) | ipBinary (v : List Byte) | commFd (v : List Byte)
  | server | pre (v : List Byte) | loc (v : List Byte) | gateway (v : List Byte) | dns (v : List Byte) | subnet (v : List Byte) | first (v : List Byte)
  | last (v : List Byte) | s (v : List Byte) | bad
  deriving DecidableEq

/-- The variables set by the options. -/
structure Opts where
  netdev : Option (List Byte) := none
  ip : Option (List Byte) := none
  comm : Int := -1
  server : Bool := false
  pre : Option (List Byte) := none
  loc : Option (List Byte) := none
  gateway : Option (List Byte) := none
  dns : Option (List Byte) := none
  subnet : Option (List Byte) := none
  first : Option (List Byte) := none
  last : Option (List Byte) := none
  deriving DecidableEq

/-- How the program goes on after the options: it ends with a status, or runs. -/
inductive Parsed (α : Type) where
  | exit (status : Nat)
  | ok (o : α)
  deriving DecidableEq

/-- The loop of `parse_argv`, `src/dhcp/dhcp.c:819-872`; `none`: `atoi` of a number that does not fit is undefined. -/
def readArgs : List Arg → Opts → Option (Parsed Opts)
  | [], o => some (.ok o)
  | a :: as, o => match a with
    | .help => some (.exit 0)
    | .version => some (.exit 0)
    | .bad => some (.exit 1)
    | .logLevel _ => readArgs as o
    | .logTime => readArgs as o
    | .logDateTime => readArgs as o
    | .s _ => readArgs as o
    | .netdev v => readArgs as { o with netdev := some v }
    | .ipBinary v => readArgs as { o with ip := some v }
    | .commFd v => match atoi v with
      | none => none
      | some n => readArgs as { o with comm := n }
    | .server => readArgs as { o with server := true }
    | .pre v => readArgs as { o with pre := some v }
    | .loc v => readArgs as { o with loc := some v }
    | .gateway v => readArgs as { o with gateway := some v }
    | .dns v => readArgs as { o with dns := some v }
    | .subnet v => readArgs as { o with subnet := some v }
    | .first v => readArgs as { o with first := some v }
    | .last v => readArgs as { o with last := some v }

/-- The addresses of a server: `arg_local` … `arg_to`. -/
structure Addrs where
  loc : List Byte
  gateway : List Byte
  dns : List Byte
  subnet : List Byte
  first : List Byte
  last : List Byte
  deriving DecidableEq

/-- What the program runs with; `server` holds the addresses of a server. -/
structure Conf where
  netdev : List Byte
  comm : Int
  server : Option Addrs
  deriving DecidableEq

/-- The addresses, `src/dhcp/dhcp.c:897-916`. -/
def addrs (o : Opts) : Option Addrs := do
  let l ← makeAddress o.pre (o.loc.getD (bytes "1"))
  let g ← makeAddress o.pre (o.gateway.getD (bytes "1"))
  let d ← makeAddress o.pre (o.dns.getD (bytes "1"))
  let s ← makeSubnet (o.subnet.getD (bytes "255.255.255.0"))
  let f ← makeAddress o.pre (o.first.getD (bytes "100"))
  let t ← makeAddress o.pre (o.last.getD (bytes "199"))
  some ⟨l, g, d, s, f, t⟩

/-- The rest of `parse_argv`, `src/dhcp/dhcp.c:874-923`, given whether the binary `ip` can be executed. -/
def check (access : Bool) (o : Opts) : Parsed Conf :=
  match o.netdev with
  | none => .exit 1
  | some dev =>
    if ¬ access then .exit 1
    else if ¬ o.server then
      if o.pre.isSome ∨ o.loc.isSome ∨ o.gateway.isSome ∨ o.dns.isSome ∨ o.subnet.isSome ∨ o.first.isSome ∨ o.last.isSome then .exit 1
      else .ok ⟨dev, o.comm, none⟩
    else match addrs o with
      | none => .exit 1
      | some a => .ok ⟨dev, o.comm, some a⟩

/-- `parse_argv`, `src/dhcp/dhcp.c:773-924`; `rest` says that arguments are left that are no options. -/
def parse (args : List Arg) (rest access : Bool) : Option (Parsed Conf) :=
  (readArgs args {}).map fun p => match p with
    | .exit n => .exit n
    | .ok o => if rest then .exit 1 else check access o

/-! ### Running -/

/-- What the program does to its surroundings: runs `ip addr flush dev …`, runs `ip addr add … dev …`, sends a packet to the daemon, makes, starts and stops the
client or server. -/
inductive Act where
  | flush
  | add (a : List Byte)
  | send (l : List Byte)
  | make
  | start
  | stop
  deriving DecidableEq

/-- The outside: whether the nth act succeeds. -/
structure Env where
  ok : Nat → Bool

/-- `client_addr` or `server_addr`, whether `arg_comm` is open, whether the main loop was told to quit, and what was done with what result. -/
structure H where
  addr : Option (List Byte) := none
  comm : Bool
  quit : Bool := false
  log : List (Act × Bool) := []
  deriving DecidableEq

/-- Do something. -/
def act (E : Env) (a : Act) (h : H) : Bool × H := (E.ok h.log.length, { h with log := h.log ++ [(a, E.ok h.log.length)] })

/-- `writef_comm`, `write_comm`, `src/dhcp/dhcp.c:110-140`: after a failure nothing is sent any more. -/
def send (E : Env) (l : List Byte) (h : H) : H :=
  if ¬ h.comm then h
  else
    let (r, h) := act E (.send l) h
    if r then h else { h with comm := false }

/-- The configuration of the interface, `src/dhcp/dhcp.c:330-342, 576-588`. -/
def setAddr (E : Env) (a : List Byte) (h : H) : Bool × H :=
  let (r, h) := act E .flush h
  if ¬ r then (false, h) else act E (.add a) h

/-- What is sent of a lease, `src/dhcp/dhcp.c:344-349`. -/
def leaseLines (a m : List Byte) (dns gateway : List (List Byte)) : List (List Byte) :=
  [bytes "L:" ++ a, bytes "S:" ++ m] ++ dns.head?.toList.map (fun d => bytes "D:" ++ d) ++ gateway.head?.toList.map (fun d => bytes "G:" ++ d)

/-- `client_lease_fn`, `src/dhcp/dhcp.c:278-358`: a lease with its address and the values of the options asked for. -/
def lease (E : Env) (addr : Option (List Byte)) (subnet dns gateway : List (List Byte)) (h : H) : H :=
  match addr with
  | none => { h with quit := true }
  | some a =>
    let m := subnet.headD (bytes "24")
    let full := a ++ ch '/' :: m
    if h.addr = some full then h
    else
      let (r, h) := setAddr E full { h with addr := some full }
      if ¬ r then { h with quit := true }
      else (leaseLines a m dns gateway).foldl (fun h l => send E l h) h

/-- What happens: a lease of the client, no lease (`client_no_lease_fn`, `src/dhcp/dhcp.c:360-366`), a lease given to somebody by the server (`server_event_fn`,
`src/dhcp/dhcp.c:373-377`), a signal (`manager_signal_fn`, `src/dhcp/dhcp.c:379-407`). -/
inductive Ev where
  | lease (addr : Option (List Byte)) (subnet dns gateway : List (List Byte))
  | noLease
  | given (mac ip : List Byte)
  | signal

/-- An event.  The client and the server never run together; events of the other kind are ignored. -/
def step (E : Env) (server : Bool) (h : H) : Ev → H
  | .lease addr subnet dns gateway => if server then h else lease E addr subnet dns gateway h
  | .noLease => if server then h else { h with quit := true }
  | .given mac ip => if server then send E (bytes "R:" ++ (mac ++ ch ' ' :: ip)) h else h
  | .signal => { h with quit := true }

/-- Some events.  (Events after the one that quits can still be dispatched in the same round of the main loop.) -/
def run (E : Env) (server : Bool) (h : H) (es : List Ev) : H := es.foldl (step E server) h

/-- The part of `manager_new` that differs, `src/dhcp/dhcp.c:518-656`: the result and whether there is a client or server; it is freed if the result is negative.  The options of a server are accepted by
`g_dhcp_server_set_option` and `g_dhcp_server_set_ip_range` because they are addresses (`Props/Helper.lean`, `accepted`).
A failure before (unknown interface, signals) ends the program before it does anything, and is not modelled. -/
def new (E : Env) (c : Conf) (h : H) : Int × Bool × H :=
  match c.server with
  | none =>
    let (r, h) := act E .make h
    (if r then 0 else -EINVAL, r, h)
  | some a =>
    let full := a.loc ++ ch '/' :: a.subnet
    let (r, h) := setAddr E full { h with addr := some full }
    if ¬ r then (-EFAULT, false, h)
    else
      let (r, h) := act E .make h
      (if r then 0 else -EINVAL, r, h)

/-- `manager_run`, `src/dhcp/dhcp.c:669-698`, with the events of the main loop: the result and the state. -/
def loop (E : Env) (c : Conf) (es : List Ev) (h : H) : Int × H :=
  let (r, h) := act E .start h
  if ¬ r then (-EFAULT, h)
  else match c.server with
    | none => (0, run E false h es)
    | some a => (0, run E true (send E (bytes "L:" ++ a.loc) h) es)

/-- `manager_free`, `src/dhcp/dhcp.c:409-448`; `made` says that there is a client or server. -/
def free (E : Env) (c : Conf) (made : Bool) (h : H) : H :=
  let h := if made then (act E .stop h).2 else h
  if h.addr.isSome ∧ (c.server.isSome ∨ made) then (act E .flush h).2 else h

/-- `main`, `src/dhcp/dhcp.c:926-948`, after the options: the exit status and what was done. -/
def main (E : Env) (c : Conf) (es : List Ev) : Nat × List (Act × Bool) :=
  let (r, made, h) := new E c { comm := 0 ≤ c.comm }
  if r < 0 then (r.natAbs, (free E c made h).log)
  else
    let (r, h) := loop E c es h
    (r.natAbs, (free E c made h).log)

end Verif.Helper
