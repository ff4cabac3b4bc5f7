import Verif.Model.Phone
import Verif.Spec.Event
import Verif.Spec.Ask
import Verif.Spec.Wpas
import Verif.Spec.Bus
/-! # Specification: a device asks to be connected -/
namespace Verif.Phone.Spec
open Verif.C

/-- The datagram is the event with these arguments. -/
structure Line (d name : List Byte) (ps : List Event.Spec.Piece) : Prop where
  short : d.length ≤ 16383
  text : ∃ x level, level ≤ 2147483647 ∧ Wpas.Spec.Split d x (Wpas.Spec.eventText level name (Event.Spec.args ps))
  ok : ∀ p ∈ ps, p.Ok

/-- … and names the interface it is about. -/
structure LineOf (i d name : List Byte) (ps : List Event.Spec.Piece) : Prop where
  short : d.length ≤ 16383
  text : ∃ level, level ≤ 2147483647 ∧ Wpas.Spec.Split d (some i) (Wpas.Spec.eventText level name (Event.Spec.args ps))
  ok : ∀ p ∈ ps, p.Ok

/-- The words behind the address with which a proposal is taken: the push button if nothing was proposed, or that; a PIN with the method that goes with it.
A method that needs a PIN without one cannot be taken. -/
def answer (prov pin : Option (List Byte)) : Option (List (List Byte)) :=
  match prov with
  | none => some [bytes "pbc"]
  | some w =>
    if w = bytes "pbc" then some [bytes "pbc"]
    else if w = bytes "display" ∨ w = bytes "pin" ∨ w = bytes "keypad" then
      match pin with
      | none => none
      | some k => if k = [] then none else some [k, w]
    else none

/-- The daemon, in a state it can be in, runs and shows the device; the device is in no group. The controller runs on that link, knows the device as one with Wi-Fi
Display, and has no session. -/
structure Meet (W : World) (p : Nat) (y : P2p.Peer) (q : Mirror.Peer) : Prop where
  reach : ∃ zx ops, (P2p.start zx).run ops = some W.s
  bus : W.s.bus = true
  running : W.s.running = true
  peer : W.s.pheap p = some y
  shown : y.shown = true
  alone : y.g = none
  known : W.w.peerAt (Wifid.peerPath y.mac W.idx) = some q
  label : q.label = Daemon.peerLabel y.mac W.idx
  link : W.w.app.runLink = some q.l
  display : q.wfd.getD [] ≠ []
  idle : W.w.app.runPeer = none

/-- The daemon, in a state it can be in, runs and shows the device, which is connected in the group `g`. The controller has a session with it. -/
structure On (W : World) (p : Nat) (y : P2p.Peer) (q : Mirror.Peer) (g : Nat) (x : P2p.Grp) : Prop where
  reach : ∃ zx ops, (P2p.start zx).run ops = some W.s
  bus : W.s.bus = true
  running : W.s.running = true
  peer : W.s.pheap p = some y
  shown : y.shown = true
  on : y.connected = true
  isin : y.g = some g
  grp : W.s.gheap g = some x
  known : W.w.peerAt (Wifid.peerPath y.mac W.idx) = some q
  label : q.label = Daemon.peerLabel y.mac W.idx
  link : W.w.app.runLink = some q.l
  display : q.wfd.getD [] ≠ []
  qon : q.connected = true
  session : W.w.app.runPeer = some q.id
  alive : W.w.app.alive = true

/-- No other device is in the group. -/
def Sole (s : P2p.S) (g p : Nat) : Prop := ∀ r z, s.pheap r = some z → z.g = some g → r = p

/-- The interface of the group is not that of another. -/
def OneName (s : P2p.S) (g : Nat) (i : List Byte) : Prop := ∀ k z, s.gheap k = some z → z.ifname = i → k = g

/-- The other devices are as before, and so is what the daemon knows of its own address. -/
def Kept (s s' : P2p.S) (p : Nat) : Prop := (∀ r, r ≠ p → s'.pheap r = s.pheap r) ∧ s'.p2pMac = s.p2pMac

/-- A PIN that can be passed on as it is. -/
def PinOk (pin : Option (List Byte)) : Prop := ∀ k, pin = some k → Ask.Spec.Unquoted k ∧ k.length ≤ 1000000000

end Verif.Phone.Spec
