import Verif.Model.Server
/-!
# What the lease table and the answers of the DHCP server should be
-/
namespace Verif.Server.Spec
open Verif.Server

/-- The server has entered this lease. -/
def Holds (s : Srv) (l : Lease) : Prop := ∃ id ∈ s.list, s.heap id = some l

/-- The two indexes and the heap hold the same leases, each once. -/
def Consistent (s : Srv) : Prop :=
  s.list.Nodup ∧ (∀ id, id ∈ s.list ↔ s.heap id ≠ none) ∧
    ∀ nip id, s.hash nip = some id ↔ id ∈ s.list ∧ ∃ l, s.heap id = some l ∧ l.nip = nip

/-- No address and no hardware address occurs in two leases, and every address is in the range. -/
def Exclusive (s : Srv) : Prop :=
  (∀ l m, Holds s l → Holds s m → l.nip = m.nip ∨ l.mac = m.mac → l = m) ∧
    ∀ l, Holds s l → s.startIp ≤ l.nip ∧ l.nip ≤ s.endIp ∧ l.nip ≠ 0

/-- The list is ordered, latest expiry first. -/
def Descending (s : Srv) : Prop :=
  s.list.Pairwise fun a b => ∀ l m, s.heap a = some l → s.heap b = some m → m.expire ≤ l.expire

/-- The address a REQUEST is taken to ask for: the option, or else the client address, on a little-endian machine
with its bytes reversed. -/
def asked (little : Bool) (p : Pkt) : Nat :=
  match p.reqIp with
  | some (n + 1) => n + 1
  | _ => if little then p.ciaddr % 256 * 16777216 + p.ciaddr / 256 % 256 * 65536 + p.ciaddr / 65536 % 256 * 256 + p.ciaddr / 16777216 % 256 else p.ciaddr

/-- The packet names another server. -/
def foreign (s : Srv) (p : Pkt) : Prop := ∃ n, p.serverId = some n ∧ n ≠ s.serverNip

/-- Addresses the server gives out on its own. -/
def usable (s : Srv) (ip : Nat) : Prop := s.startIp ≤ ip ∧ ip ≤ s.endIp ∧ ip % 256 ≠ 0 ∧ ip % 256 ≠ 255

/-- A DHCP client may have this hardware address. -/
def client (mac : Nat) : Prop := mac ≠ 0 ∧ mac ≠ 281474976710655

/-- All times of a run. -/
def Times (P : Int → Prop) (es : List Step) : Prop := ∀ e ∈ es, P e.now

end Verif.Server.Spec
