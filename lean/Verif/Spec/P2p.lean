import Verif.Model.P2p
/-!
# What peers and groups should do

Stated on the visible history (`S.log`) and on which objects point at which.
-/
namespace Verif.P2p.Spec
open Verif.C Verif.P2p

/-- What a D-Bus client knows about a peer object. -/
inductive Known
  | unseen
  | here (connected : Bool)
  | gone
  deriving DecidableEq, Repr

/-- A client follows what happens to peer `p`; `none` means that what happens makes no sense to it: a peer that appears
twice, disappears without having appeared, says something while it is not there, or announces a connection state that
it already has. -/
def follow (p : Nat) (k : Known) : Out → Option Known
  | .added q c => if q ≠ p then some k else if k = .unseen then some (.here c) else none
  | .removed q => if q ≠ p then some k else match k with | .here _ => some .gone | _ => none
  | .connected q v => if q ≠ p then some k else if k = .here (!v) then some (.here v) else none
  | .failure q | .provision q | .negotiation q => if q ≠ p then some k else match k with | .here c => some (.here c) | _ => none
  | _ => some k

/-- A client follows a history. -/
def follows (p : Nat) : Known → List Out → Option Known
  | k, [] => some k
  | k, o :: t => (follow p k o).bind (fun k => follows p k t)

/-- The client's knowledge fits the peer. -/
def Fits (k : Known) : Option Peer → Prop
  | some y => k = if y.shown then .here y.connected else .unseen
  | none => ∀ c, k ≠ .here c

/-- What is known about the DHCP helper of a group. -/
inductive Helper
  | never
  | up (subnet : Nat)
  | down
  deriving DecidableEq, Repr

/-- Following the helper of group `g`; `none` if it is started a second time, or killed when it is not running. -/
def tend (g : Nat) (k : Helper) : Out → Option Helper
  | .dhcpServer h n => if h ≠ g then some k else if k = .never then some (.up n) else none
  | .dhcpClient h => if h ≠ g then some k else if k = .never then some (.up 0) else none
  | .dhcpKill h => if h ≠ g then some k else match k with | .up _ => some .down | _ => none
  | _ => some k

/-- Following the helper of a group over a history. -/
def tends (g : Nat) : Helper → List Out → Option Helper
  | k, [] => some k
  | k, o :: t => (tend g k o).bind (fun k => tends g k t)

/-- The helper fits the group. -/
def Keeps (k : Helper) : Option Grp → Prop
  | some x => x.dhcp = true ∧ k = .up x.subnet
  | none => ∀ n, k ≠ .up n

/-- The peers in a group. -/
def members (s : S) (g : Nat) : List Nat := s.peers.filter (fun p => (s.pheap p).any (fun y => decide (y.g = some g)))

/-- The peers in a group that are not its owner. -/
def plain (s : S) (g : Nat) : List Nat := (members s g).filter (fun p => (s.gheap g).all (fun x => decide (x.owner ≠ some p)))

/-- How often a request to remove the group on an interface was made. -/
def removals (ifname : List Byte) (l : List Out) : Nat := l.count (.groupRemove ifname)

/-- The event makes the program destroy group `g` at once: wpa_supplicant removed it, or its DHCP helper is gone. -/
def Destroys (s : S) (op : Op) (g : Nat) : Prop :=
  match op with
  | .groupRemoved i => s.bus = true ∧ s.findGroup i = some g
  | .comm h .hup _ _ => h = g ∧ g ∈ s.groups
  | .helperDied h => h = g ∧ g ∈ s.groups
  | _ => False

/-- The event takes peer `p` out of its group. -/
def Leaves (s : S) (op : Op) (p : Nat) : Prop :=
  match op with
  | .lost mac | .staDisconnected mac => s.bus = true ∧ ∃ y, s.pheap p = some y ∧ y.mac = mac
  | .disconnect mac => ∃ y, s.pheap p = some y ∧ y.mac = s.norm mac ∧ y.shown = true
  | _ => False

/-- A text up to its first NUL. -/
def cut (l : List Byte) : List Byte := l.takeWhile (· ≠ 0)

/-- How a packet of the DHCP helper reads: a letter and a text that is not empty, of at most 509 bytes. -/
def reads (l : List Byte) : Option (Byte × List Byte) :=
  match l with
  | k :: c :: t => if c = ch ':' ∧ cut (t.take 509) ≠ [] then some (k, cut (t.take 509)) else none
  | _ => none

/-- Destroying group `g` now touches it after it was freed: all its remaining references belong to peers that do not own it. -/
def Doomed (s : S) (g : Nat) : Prop := ∃ x, s.gheap g = some x ∧ plain s g ≠ [] ∧ x.users = (plain s g).length

/-- The event makes the program look at the owner of group `g`, which is gone. -/
def Dangles (s : S) (op : Op) : Prop :=
  match op with
  | .comm g (.line l) true _ => ∃ x p k t, g ∈ s.groups ∧ s.gheap g = some x ∧ x.owner = some p ∧ s.pheap p = none ∧
      reads l = some (k, t) ∧ (k = ch 'G' ∨ k = ch 'L' ∨ x.localAddr ≠ none)
  | _ => False

/-- A peer that can be talked to: it is in a live group, and both addresses are known. -/
def Linked (s : S) (y : Peer) : Prop := y.remote ≠ none ∧ ∃ g x, y.g = some g ∧ s.gheap g = some x ∧ x.localAddr ≠ none

/-- Every group's owner is one of its members. -/
def Tidy (s : S) : Prop := ∀ g x p, s.gheap g = some x → x.owner = some p → ∃ y, s.pheap p = some y ∧ y.g = some g

/-- A run during which owners stay in their groups. -/
def tidyRun : S → List Op → Prop
  | s, [] => Tidy s
  | s, o :: t => Tidy s ∧ ∀ s', s.step o = some s' → tidyRun s' t

/-- A text that fits into a packet. -/
def Text (t : List Byte) : Prop := t ≠ [] ∧ 0 ∉ t ∧ t.length ≤ 509

/-- Everything about a peer but whether it is connected. -/
def forget (y : Peer) : Peer := { y with connected := false }

/-- The attempt to connect to `p` is over: it failed, the peer is gone, or a new search was started. -/
def Ends (s : S) (op : Op) (p : Nat) : Prop :=
  match op with
  | .formationFailed => True
  | .startScan => True
  | .stopped => True
  | .lost mac | .staDisconnected mac => ∃ y, s.pheap p = some y ∧ y.mac = mac
  | _ => False

end Verif.P2p.Spec
