import Verif.Model.Bus
import Verif.Spec.Mirror
/-! # Specification: what a controller should show of the daemon's objects -/
namespace Verif.Daemon
open Verif.C

/-- A link is shown with its index, name, friendly name and sub-elements. -/
def linkShown (l : Wifid.Link) (v : Mirror.LinkView) : Prop :=
  v.ifindex = l.idx ∧ v.ifname = some l.name ∧ v.friendly = some (l.friendly.getD []) ∧ v.wfd = some (l.wfd.getD [])

/-- A peer is shown with its MAC address, friendly name, sub-elements, and whether it is connected. -/
def peerShown (mac : List Byte) (pv : PV) (v : Mirror.PeerView) : Prop :=
  v.mac = some mac ∧ v.friendly = some (pv.friendly.getD (bytes "<unknown>")) ∧ v.wfd = some (pv.wfd.getD []) ∧ v.connected = pv.connected

/-- The interface and addresses of a peer are shown: those of its group if it is connected, otherwise none. -/
def addrShown (pv : PV) (v : Mirror.PeerView) : Prop :=
  if pv.connected then v.iface = some (pv.iface.getD []) ∧ v.loc = some (pv.loc.getD []) ∧ v.rem = some (pv.rem.getD [])
  else v.iface = some [] ∧ v.loc = some [] ∧ v.rem = some []

/-- The label of a peer. -/
def peerLabel (mac : List Byte) (idx : Nat) : List Byte := mac ++ ch '@' :: dec idx

/-- A public peer of the daemon. -/
def Public (d : D) (mac : List Byte) (idx : Nat) : Prop := ∃ l ∈ d.m.links, l.idx = idx ∧ ∃ p ∈ l.peers, p.mac = mac ∧ p.pub = true

/-- The copy of a controller has the links and the public peers of the daemon with their values, and no others. A link that scans is shown as scanning. -/
structure Copied {σ : Type} (d : D) (w : Mirror.W σ) : Prop where
  link : ∀ l ∈ d.m.links, ∃ k, w.findLink (dec l.idx) = some k ∧ linkShown l k.view ∧ (d.scan l.idx = true → k.scanning = true)
  peer : ∀ mac i, Public d mac i → ∃ p, w.findPeer (peerLabel mac i) = some p ∧ peerShown mac (d.px mac i) p.view
  onlyLink : ∀ label k, w.findLink label = some k → ∃ l ∈ d.m.links, Mirror.key label = dec l.idx
  onlyPeer : ∀ label p, w.findPeer label = some p → ∃ mac i, Public d mac i ∧ Mirror.key label = peerLabel mac i

/-- The addresses of a peer change only while it is not connected. -/
def AddrSteady (o : Wifid.Opts) (zx : Bool) (d : D) (ops : List Op) (mac : List Byte) (i : Nat) : Prop :=
  ∀ a b d1 iface loc rem, ops = a ++ .addr mac i iface loc rem :: b → run o zx d a = some d1 → (d1.px mac i).connected = false

/-- A link ends to scan only when wpa_supplicant says so. -/
def StopTold (o : Wifid.Opts) (zx : Bool) (d : D) (ops : List Op) (i : Nat) : Prop :=
  ∀ a e b d1 d2, ops = a ++ e :: b → run o zx d a = some d1 → step o zx d1 e = some d2 → d1.scan i = true → d2.scan i = false → e = .scan i false

end Verif.Daemon
