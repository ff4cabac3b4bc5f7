import Verif.Model.Dora
import Verif.Spec.Options
import Verif.Spec.Server
import Verif.Spec.Client
/-!
# What the messages between DHCP client and server mean
-/
namespace Verif.Dora.Spec
open Verif.C

/-- The number written with these bytes, most significant first. -/
def num (bs : List Byte) : Nat := Wire.Spec.beVal bs

/-- What a server should understand when the client with the hardware address `mac` sends a message. -/
def heard (mac : List Byte) : Client.Out → Option Server.Pkt
  | .discover _ a => some { type := 1, mac := num mac, reqIp := if a = 0 then none else some a }
  | .request _ a s ci _ => some { type := 3, mac := num mac, ciaddr := ci, serverId := s, reqIp := a }
  | .release ci s => some { type := 7, mac := num mac, ciaddr := ci, serverId := some s }
  | _ => none

/-- The transaction of a message, if the client chooses it. -/
def xid : Client.Out → Option (List Byte)
  | .discover x _ => some x
  | .request x _ _ _ _ => some x
  | _ => none

/-- Addresses are 32-bit numbers, the transaction id has four bytes. -/
def Fits : Client.Out → Prop
  | .discover x a => x.length = 4 ∧ a < 2 ^ 32
  | .request x a s ci d => x.length = 4 ∧ (∀ n, a = some n → n < 2 ^ 32) ∧ (∀ n, s = some n → n < 2 ^ 32) ∧ ci < 2 ^ 32 ∧
      ∀ n, d = some n → n < 2 ^ 32
  | .release ci s => ci < 2 ^ 32 ∧ s < 2 ^ 32
  | _ => True

/-- A client as the DHCP helper sets it up: an Ethernet address, at most 255 requested options, and options to send
that are not those the client writes itself. -/
structure CliOk (k : Cli) : Prop where
  mac : k.mac.length = 6
  codes : k.codes.length ≤ 255
  sends : ∀ b ∈ k.sends, b.1 ≠ 0 ∧ b.1 ≠ 255 ∧ b.1 ≠ 52 ∧ b.1 ≠ 50 ∧ b.1 ≠ 53 ∧ b.1 ≠ 54 ∧ b.2.length < 256

/-- The sizes of what the environment supplies. -/
structure EnvOk (v : Env) : Prop where
  junk : v.junk.length = 6
  secs : v.secs.length = 2
  rand : v.rand.length = 4

/-- A server as the DHCP helper sets it up: an address of four bytes, and subnet mask, router and DNS server in
any order, each at most once. -/
structure SrvrOk (w : Srvr) : Prop where
  addr : w.addr.length = 4
  codes : ∀ o ∈ w.opts, o.1 ∈ [1, 3, 6]
  once : (w.opts.map Prod.fst).Nodup
  fits : ∀ o ∈ w.opts, o.2 < 2 ^ 32

/-- The sizes for a whole exchange. -/
structure TripOk (x : Trip) : Prop where
  cli : EnvOk x.cli
  srv : x.srv.length = 6
  buf : x.buf.length = 628

/-- An option holding a 32-bit number. -/
def word (c : Byte) (v : Nat) : Options.Spec.Item := .opt c (Options.Spec.digits 4 v)

/-- The server identifier that the answers carry. -/
def identifier (w : Srvr) : Nat :=
  match w.host with
  | .be => num w.addr
  | .le => num w.addr.reverse

/-- The options of an answer that grants an address. -/
def grantItems (w : Srvr) (type : Byte) (seconds : Nat) : List Options.Spec.Item :=
  .opt 53 [type] :: word 54 (identifier w) :: word 51 seconds :: w.opts.map (fun o => word o.1.toUInt8 o.2)

/-- What an answer should tell the client: the address granted (0: none) and the options. -/
structure Reply where
  addr : Nat
  items : List Options.Spec.Item

/-- The answers on the network for what the server does; `seconds` is its lease time. -/
def replies (w : Srvr) (seconds : Nat) : List Server.Out → List Reply
  | [] => []
  | .offer _ nip :: t => ⟨nip, grantItems w 2 seconds⟩ :: replies w seconds t
  | .ack _ nip s :: t => ⟨nip, grantItems w 5 s⟩ :: replies w seconds t
  | .nak _ :: t => ⟨0, [.opt 53 [6], word 54 (identifier w)]⟩ :: replies w seconds t
  | .inform _ :: t => ⟨0, .opt 53 [5] :: word 54 (identifier w) :: w.opts.map (fun o => word o.1.toUInt8 o.2)⟩ :: replies w seconds t
  | .event _ _ :: t => replies w seconds t

/-- The packet `p`, read with the return value `r`, is this answer for the client `mac` in the transaction `xid`: it is
legal, of the full length, and the client is the owner. -/
structure Carries (mac xid : List Byte) (p : List Byte × Int) (r : Reply) : Prop where
  len : p.2 = 548
  mine : Client.Spec.Mine mac xid p.1
  addr : Client.Spec.yiaddr p.1 = r.addr
  layout : Options.Spec.Layout p.1 548 r.items [] []

/-- The packets are the answers, one by one. -/
inductive AllCarry (mac xid : List Byte) : List (List Byte × Int) → List Reply → Prop
  | nil : AllCarry mac xid [] []
  | cons {p : List Byte × Int} {r : Reply} {ps : List (List Byte × Int)} {rs : List Reply} (h : Carries mac xid p r)
      (t : AllCarry mac xid ps rs) : AllCarry mac xid (p :: ps) (r :: rs)

/-- What the server does names 32-bit numbers only. -/
def OutFits : Server.Out → Prop
  | .offer _ n => n < 2 ^ 32
  | .ack _ n s => n < 2 ^ 32 ∧ s < 2 ^ 32
  | _ => True

/-- The address a message is sent to, if it is not for everybody. -/
def dest : Client.Out → Option Nat
  | .request _ _ _ _ d => d
  | .release _ s => some s
  | _ => none

/-- The message reaches a host with this address. -/
def Reaches (addr : List Byte) (o : Client.Out) : Prop := ∀ d, dest o = some d → d = num addr

/-- The byte order as the server model has it. -/
def little : Wire.Host → Bool
  | .le => true
  | .be => false

/-- A state the server `w` for the addresses `a` to `b` and leases of `d` seconds can be in. -/
def Live (w : Srvr) (a b d : Nat) (s : Server.Srv) : Prop :=
  b + 1 < 2 ^ 32 ∧ d < 2 ^ 32 ∧
    ∃ pre o, Server.run (Server.start a b (identifier w) d (little w.host)) pre = some (s, o)

/-- The bytes of a 32-bit number in reverse order. -/
def reversed (n : Nat) : Nat := n % 256 * 16777216 + n / 256 % 256 * 65536 + n / 65536 % 256 * 256 + n / 16777216 % 256

/-- The client can read what it asks for: options holding addresses. -/
def AsksAddresses (k : Cli) : Prop := ∀ c ∈ k.codes, c ∈ [1, 3, 6, 42, 50]

/-- The four bytes of an address given as a number. -/
def quad (v : Nat) : Byte × Byte × Byte × Byte :=
  ((v / 16777216).toUInt8, (v / 65536).toUInt8, (v / 256).toUInt8, v.toUInt8)

/-- The dotted text of an address given as a number. -/
def text (v : Nat) : List Byte := OptValue.Spec.dotted (quad v)

/-- What the user should be told for an option: the one address the server is configured with, as text. -/
def told (w : Srvr) (code : Nat) : Option (List (List Byte)) := (w.opts.find? (·.1 = code)).map (fun o => [text o.2])

end Verif.Dora.Spec
