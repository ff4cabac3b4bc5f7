import Verif.Model.Client6
import Verif.Spec.Dhcp6
/-!
# Specification for the DHCPv6 client

Options are those of `Verif.Spec.Dhcp6`; here is what is in them (RFC 8415 §21, RFC 3646, RFC 4075).
-/
namespace Verif.Client6.Spec
open Verif.C Verif.Dhcp6.Spec

/-- Numbers in network byte order. -/
def be2 (n : Nat) : List Byte := [(n / 256 % 256).toUInt8, (n % 256).toUInt8]
def be3 (n : Nat) : List Byte := (n / 65536 % 256).toUInt8 :: be2 n
def be4 (n : Nat) : List Byte := (n / 16777216 % 256).toUInt8 :: be3 n

/-! ## Messages -/

/-- The options to be sent along are `os`. -/
def Holds (c : Client) (os : List Opt) : Prop := c.sends = os.map fun o => (o.code, o.bytes)

/-- The option a requested code stands for: the ids as far as they are known, rapid commit, and
the elapsed time. Every other code only says which values the client wants to see. -/
def own (c : Client) (el : Nat) : Nat → Option Opt
  | 1 => c.duid.map fun d => ⟨1, d⟩
  | 2 => c.serverDuid.map fun d => ⟨2, d⟩
  | 8 => some ⟨8, be2 el⟩
  | 14 => some ⟨14, []⟩
  | _ => none

/-- The codes asked for; the elapsed time always is. -/
def codes (c : Client) : List Nat := if 8 ∈ c.requests then c.requests else 8 :: c.requests

/-- All options of a message. -/
def wanted (c : Client) (el : Nat) (os : List Opt) : List Opt :=
  (codes c).filterMap (fun n => own c el (n % 65536)) ++ os

/-- `v` hundredths of a second are the time between `start` and `now` (seconds, microseconds), up to
less than one hundredth; everything from 65535 on is 65535. -/
def IsElapsed (start now : Int × Int) (v : Nat) : Prop :=
  let us := (now.1 - start.1) * 1000000 + (now.2 - start.2)
  (v < 65535 → v * 10000 < us + 10000 ∧ us < v * 10000 + 10000) ∧ (v = 65535 → 65534 * 10000 < us) ∧ v ≤ 65535

/-! ## Identity associations -/

/-- Contents of an IA_NA or IA_PD option and of an IA_TA option. -/
def ia (iaid t1 t2 : Nat) (subs : List Opt) : List Byte := be4 iaid ++ be4 t1 ++ be4 t2 ++ enc subs
def iata (iaid : Nat) (subs : List Opt) : List Byte := be4 iaid ++ enc subs

/-- What can be in an identity association. -/
inductive Sub
  /-- an address with preferred and valid lifetime, and perhaps options of its own -/
  | addr (a : List Byte) (preferred valid : Nat) (more : List Byte)
  /-- a status with a message -/
  | status (n : Nat) (text : List Byte)
  /-- a prefix -/
  | pfx (preferred valid : Nat) (len : Byte) (a : List Byte) (more : List Byte)
  /-- anything else -/
  | other (o : Opt)

def Sub.opt : Sub → Opt
  | .addr a p v m => ⟨5, a ++ be4 p ++ be4 v ++ m⟩
  | .status n t => ⟨13, be2 n ++ t⟩
  | .pfx p v n a m => ⟨26, be4 p ++ be4 v ++ [n] ++ a ++ m⟩
  | .other o => o

/-- Sizes are right. -/
def Sub.Ok (s : Sub) : Prop :=
  s.opt.Ok ∧
    match s with
    | .addr a p v _ => a.length = 16 ∧ p < W32 ∧ v < W32
    | .status n _ => n < 65536
    | .pfx p v _ a _ => a.length = 16 ∧ p < W32 ∧ v < W32
    | .other o => o.code ≠ 5 ∧ o.code ≠ 13 ∧ o.code ≠ 26

/-- The last address with its lifetimes, the last status, all prefixes. -/
def lastAddr : List Sub → Option (List Byte × Nat × Nat)
  | [] => none
  | .addr a p v _ :: t => (lastAddr t).or (some (a, p, v))
  | _ :: t => lastAddr t

def lastStatus : List Sub → Option Nat
  | [] => none
  | .status n _ :: t => (lastStatus t).or (some n)
  | _ :: t => lastStatus t

def prefixes : List Sub → List (List Byte × Byte × Nat × Nat)
  | [] => []
  | .pfx p v n a _ :: t => (a, n, p, v) :: prefixes t
  | _ :: t => prefixes t

def Sub.isAddr : Sub → Bool
  | .addr .. => true
  | _ => false

def Sub.isPfx : Sub → Bool
  | .pfx .. => true
  | _ => false

/-! ## Names -/

/-- A domain name on the wire: each label behind its length, and a zero. -/
def encName (ls : List (List Byte)) : List Byte := (ls.flatMap fun l => l.length.toUInt8 :: l) ++ [0]

/-- Labels have 1 to 63 bytes and no NUL; the name has at most 255 bytes (RFC 1035 §3.1). -/
def NameOk (ls : List (List Byte)) : Prop :=
  (∀ l ∈ ls, 0 < l.length ∧ l.length ≤ 63 ∧ (0 : Byte) ∉ l) ∧ (encName ls).length ≤ 255

/-- The usual way to write it: the labels with dots between them. -/
def dotted : List (List Byte) → List Byte
  | [] => []
  | [l] => l
  | l :: t => l ++ ch '.' :: dotted t

end Verif.Client6.Spec

namespace Verif.Client6.Spec
open Verif.C Verif.Dhcp6.Spec

/-! ## What the functions that choose options should do -/

/-- From now on `o` is sent along, in place of any option with its code; all else is as before. -/
def Adds (c c' : Client) (o : Opt) : Prop :=
  ∀ os, Holds c os → Holds c' (o :: os.filter fun x => x.code ≠ o.code)

/-- The address to be asked for: none unless one is to be added; the wish of the caller if there is
one and it is an address, else, without a wish, the address the client has. -/
def chosen (pton : List Byte → Option (List Byte)) (c : Client) (add : Bool) (want : Option (List Byte)) : Option (List Byte) :=
  match add, want with
  | false, _ => none
  | true, some s => pton s
  | true, none => if c.iaNa.all (· == 0) then none else some c.iaNa

/-- The number of the identity association: the one the client has, else the last four bytes of the
MAC address. -/
def iaidOf (c : Client) (mac : List Byte) : Nat :=
  if c.iaid ≠ 0 then c.iaid else (mac.drop 2).foldl (fun n b => n * 256 + b.toNat) 0

/-- An address and a prefix to be asked for, without lifetimes. -/
def askAddr (a : List Byte) : Opt := ⟨5, a ++ be4 0 ++ be4 0⟩
def askPrefix (p : Byte × List Byte) : Opt := ⟨26, be4 0 ++ be4 0 ++ [p.1] ++ p.2⟩

end Verif.Client6.Spec

namespace Verif.Client6.Spec
open Verif.C Verif.Dhcp6.Spec

/-! ## What a reply should lead to -/

/-- After an association with addresses: the status is that of the association. The last address
is taken if the status is success and its preferred lifetime is not longer than the valid one;
then the timers are those of the association and the lease does not end before the address. -/
def tookAddr (temporary : Bool) (c : Client) (t1 t2 : Nat) (subs : List Sub) : Client × List Val :=
  let c1 := { c with status := (lastStatus subs).getD c.status }
  match lastAddr subs with
  | some (a, p, v) =>
    if (lastStatus subs).getD 0 = 0 ∧ p ≤ v then
      let c2 := { c1 with t1 := t1, t2 := t2, expire := max c.expire v }
      (if temporary then { c2 with iaTa := a } else { c2 with iaNa := a }, [.addr a])
    else (c1, [])
  | none => (c1, [])

/-- The prefixes with a preferred lifetime below the valid one. -/
def usable (now : Nat) (subs : List Sub) : List Val :=
  ((prefixes subs).filter fun q => q.2.2.1 < q.2.2.2).map fun q => .pfx ⟨q.1, q.2.1, q.2.2.1, q.2.2.2, now + q.2.2.2⟩

end Verif.Client6.Spec

namespace Verif.Client6.Spec
open Verif.C Verif.Dhcp6.Spec

/-! ## Values -/

/-- The address of an association, if it can be used. -/
def addrValue (subs : List Sub) : List Val :=
  match lastAddr subs with
  | some (a, p, v) => if (lastStatus subs).getD 0 = 0 ∧ p ≤ v then [.addr a] else []
  | none => []

/-- What the contents of an option say to a client with the association `iaid`. -/
inductive Means (iaid now : Nat) : Nat → List Byte → List Val → Prop
  /-- DNS and SNTP servers -/
  | servers (code : Nat) (as : List (List Byte)) : code = 23 ∨ code = 31 → (∀ a ∈ as, a.length = 16) →
      Means iaid now code as.flatten (as.map .addr)
  | notServers (code : Nat) (data : List Byte) : code = 23 ∨ code = 31 → data.length % 16 ≠ 0 → Means iaid now code data []
  /-- a search list -/
  | domains (names : List (List (List Byte))) : (∀ n ∈ names, NameOk n) → 3 ≤ (names.flatMap encName).length →
      Means iaid now 24 (names.flatMap encName) (names.map fun n => .name (dotted n))
  | noDomains (data : List Byte) : data.length < 3 → Means iaid now 24 data []
  /-- addresses, temporary addresses and prefixes; associations of others say nothing -/
  | na (id t1 t2 : Nat) (subs : List Sub) : id < W32 → t1 < W32 → t2 < W32 → (∀ x ∈ subs, x.Ok) → (∀ x ∈ subs, x.isPfx = false) →
      Means iaid now 3 (ia id t1 t2 (subs.map Sub.opt)) (if id = iaid ∧ t1 ≤ t2 then addrValue subs else [])
  | ta (id : Nat) (subs : List Sub) : id < W32 → (∀ x ∈ subs, x.Ok) → (∀ x ∈ subs, x.isPfx = false) →
      Means iaid now 4 (iata id (subs.map Sub.opt)) (if id = iaid then addrValue subs else [])
  | pd (id t1 t2 : Nat) (subs : List Sub) : id < W32 → t1 < W32 → t2 < W32 → (∀ x ∈ subs, x.Ok) → (∀ x ∈ subs, x.isAddr = false) →
      Means iaid now 25 (ia id t1 t2 (subs.map Sub.opt)) (if id = iaid ∧ t1 ≤ t2 then usable now subs else [])
  /-- no other option has values -/
  | other (code : Nat) (data : List Byte) : code ∉ [3, 4, 23, 24, 25, 31] → Means iaid now code data []

/-- The values a client shows for a code (`g_dhcp_client_get_option`). -/
def valuesOf (c : Client) (code : Nat) : List Val :=
  match c.values.find? (fun e => e.1 = code) with
  | some e => e.2
  | none => []

/-- The last option with the code; the only one. -/
def lastOf (code : Nat) (os : List Opt) : Option Opt := os.reverse.find? (fun o => o.code = code)
def only (code : Nat) (os : List Opt) : Option Opt :=
  match os.filter (fun o => o.code = code) with
  | [o] => some o
  | _ => none

/-- The values of `c'` for the requested codes are those of the message, for others those of `c`. -/
def Took (now : Nat) (os : List Opt) (c c' : Client) : Prop :=
  ∀ code, code < 65536 →
    if ∃ r ∈ c.requests, r % 65536 = code then
      match lastOf code os with
      | some o => ∀ v, Means c.iaid now code o.data v → valuesOf c' code = v
      | none => valuesOf c' code = []
    else valuesOf c' code = valuesOf c code

/-! ## Replies -/

/-- A message of the server. -/
def packet (msg : Byte) (xid : Nat) (os : List Opt) : List Byte := msg :: be3 xid ++ enc os

/-- The status of a message; none is success. -/
def statusOf (os : List Opt) : Nat :=
  match lastOf 13 os with
  | some ⟨_, a :: b :: _⟩ => a.toNat * 256 + b.toNat
  | _ => 0

/-- The message answers the client: it has the number of its message, the id of the client, the id of the
server (of any server if the client has not yet chosen one), and the right type. -/
structure Answers (c : Client) (state : State) (msg : Byte) (xid : Nat) (os : List Opt) : Prop where
  number : xid = c.xid
  client : ∃ o, lastOf 1 os = some o ∧ o.data ≠ [] ∧ ∀ d, c.duid = some d → o.data = d
  server : ∃ o, only 2 os = some o ∧ o.data ≠ [] ∧ (state ≠ .solicitation → ∀ d, c.serverDuid = some d → d ≠ [] → o.data = d)
  type : if state = .solicitation then msg = 2 ∨ (msg = 7 ∧ (only 14 os).isSome) else msg = 7

end Verif.Client6.Spec
