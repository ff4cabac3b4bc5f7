import Verif.Model.Wifictl
import Verif.Spec.Mirror
import Verif.Spec.Atoi
import Verif.Spec.Cli
/-! # Specification of the controller of the wifi daemon -/
namespace Verif.Wifictl
open Verif.C Verif.Mirror

/-- The controller before anything happens. -/
def start : S := { app := {} }

/-! ### An observer of the bus -/

/-- What an observer of the bus knows: what was said about links and peers, and on which links (by label, up to the case of letters) the
controller has had scanning turned on since they appeared. -/
structure Obs where
  known : Known
  mine : List Byte → Bool

/-- Nothing. -/
def Obs.nothing : Obs := ⟨.nothing, fun _ => false⟩

/-- A request of the controller that was granted: `Managed` is from then on what was asked for. -/
def Obs.granted (o : Obs) : Act → Obs
  | .set path prop v =>
    { known := if prop = bytes "Managed" then o.known.change path linkIf [(prop, v)] else o.known,
      mine := if prop = bytes "P2PScanning" ∧ v = .b true then fun x => o.mine x || (labelOf Wifid.linkPre path).map key = some x else o.mine }
  | _ => o

/-- Requests, the first of which is number `n`. -/
def Obs.asked (E : Env) (o : Obs) (n : Nat) : List Act → Obs
  | [] => o
  | a :: as => (if E.bus n < 0 then o else o.granted a).asked E (n + 1) as

/-- A message. -/
def Obs.hear (o : Obs) (m : Msg) : Obs :=
  { known := o.known.hear m,
    mine := match m with
      | .removed path => fun x => o.mine x && (labelOf Wifid.linkPre path).map key ≠ some x
      | _ => o.mine }

/-- One event, which took the controller from `w` to `w'`. -/
def Obs.see (E : Env) (o : Obs) (w w' : S) : Ev → Obs
  | .msg m => o.hear m
  | .line _ => o.asked E w.app.log.length (w'.app.log.drop w.app.log.length)

/-- A sequence of events. -/
def Obs.follow (E : Env) (o : Obs) (w : S) : List Ev → Obs
  | [] => o
  | e :: es => match step E w e with
    | none => o
    | some w' => (o.see E w w' e).follow E w' es

/-! ### Requests and output that fit what is known -/

/-- A request to set a property of a link is only made if that changes something; scanning is only touched on managed links. -/
def fitsSet (v : LinkView) (prop : List Byte) (x : Val) : Prop :=
  (prop = bytes "P2PScanning" ∧ v.managed = true ∧ x = .b (!v.scanning)) ∨
  (prop = bytes "Managed" ∧ x = .b (!v.managed)) ∨
  (prop = bytes "FriendlyName" ∧ ∃ t, x = .s t ∧ v.friendly ≠ some t) ∨
  (prop = bytes "WfdSubelements" ∧ x = .s (bytes "000600111c4400c8") ∧ v.wfd ≠ some (bytes "000600111c4400c8"))

/-- What `show` has to say of a link: name and value of each line. -/
def linkSays (v : LinkView) (k x : List Byte) : Prop :=
  (k = bytes "InterfaceIndex" ∧ v.ifindex ≠ 0 ∧ x = dec v.ifindex) ∨
  (k = bytes "InterfaceName" ∧ v.ifname = some x ∧ x ≠ []) ∨
  (k = bytes "FriendlyName" ∧ v.friendly = some x ∧ x ≠ []) ∨
  (k = bytes "P2PScanning" ∧ x = if v.scanning then bytes "1" else bytes "0") ∨
  (k = bytes "WfdSubelements" ∧ v.wfd = some x ∧ x ≠ []) ∨
  (k = bytes "Managed" ∧ x = if v.managed then bytes "1" else bytes "0")

/-- What `show` has to say of a peer. -/
def peerSays (v : PeerView) (k x : List Byte) : Prop :=
  (k = bytes "P2PMac" ∧ v.mac = some x ∧ x ≠ []) ∨
  (k = bytes "FriendlyName" ∧ v.friendly = some x ∧ x ≠ []) ∨
  (k = bytes "Connected" ∧ x = if v.connected then bytes "1" else bytes "0") ∨
  (k = bytes "Interface" ∧ v.iface = some x ∧ x ≠ []) ∨
  (k = bytes "LocalAddress" ∧ v.loc = some x ∧ x ≠ []) ∨
  (k = bytes "RemoteAddress" ∧ v.rem = some x ∧ x ≠ []) ∨
  (k = bytes "WfdSubelements" ∧ v.wfd = some x ∧ x ≠ [])

/-- The text in a table for a name that may be missing. -/
def named (x : Option (List Byte)) (t : List Byte) : Prop := if x = none ∨ x = some [] then t = bytes "<unknown>" else x = some t

/-- The row of a link. -/
def linkTold (k : Known) (row : List (List Byte)) (label : List Byte) : Prop :=
  ∃ i f m, row = [label, i, f, m] ∧ (label ≠ [] → ∃ v, k.link (key label) = some v ∧ named v.ifname i ∧ named v.friendly f ∧ m = if v.managed then bytes "yes" else bytes "no")

/-- The row of a peer. -/
def peerTold (k : Known) (row : List (List Byte)) (label : List Byte) : Prop :=
  ∃ l f c v, row = [l, label, f, c] ∧ (afterAt label).map key = some (key l) ∧ k.peer (key label) = some v ∧ named v.friendly f ∧ c = if v.connected then bytes "yes" else bytes "no"

/-- What is done fits what is known.  (Nothing is said about links whose label is empty.) -/
def fits (k : Known) : Act → Prop
  | .set path prop x => ∃ label, labelOf Wifid.linkPre path = some label ∧ (label = [] ∨ ∃ v, k.link (key label) = some v ∧ fitsSet v prop x)
  | .call path member args => ∃ label l v, labelOf Wifid.peerPre path = some label ∧ (k.peer (key label)).isSome ∧
      afterAt label = some l ∧ k.link (key l) = some v ∧ v.managed = true ∧ ((member = bytes "Connect" ∧ args.length = 2) ∨ (member = bytes "Disconnect" ∧ args = []))
  | .lines ls => ∃ t label rest, ls = (t, label) :: rest ∧
      ((t = bytes "Link" ∧ (label = [] ∨ ∃ v, k.link (key label) = some v ∧ ∀ a b, (a, b) ∈ rest ↔ linkSays v a b)) ∨
       (t = bytes "Peer" ∧ ∃ v, k.peer (key label) = some v ∧ ∀ a b, (a, b) ∈ rest ↔ peerSays v a b))
  | .tables links peers =>
      (∀ row ∈ links, linkTold k row (row.headD [])) ∧ (∀ row ∈ peers, peerTold k row ((row.drop 1).headD [])) ∧
      (links.Pairwise fun x y => x.headD [] ≠ [] → key (x.headD []) ≠ key (y.headD [])) ∧ (peers.Pairwise fun x y => key ((x.drop 1).headD []) ≠ key ((y.drop 1).headD [])) ∧
      (∀ x, x ≠ [] → (k.link (key x)).isSome → ∃ row ∈ links, key (row.headD []) = key x) ∧ ∀ x, (k.peer (key x)).isSome → ∃ row ∈ peers, key ((row.drop 1).headD []) = key x

/-! ### Announcements that say enough -/

/-- An announcement of a link says its `WfdSubelements` and `FriendlyName` (possibly empty). -/
def fullObject (path : List Byte) (ifs : Ifaces) : Prop := labelOf Wifid.linkPre path ≠ none →
    (∃ ps ∈ about linkIf ifs, ∃ v, (bytes "WfdSubelements", Val.s v) ∈ ps) ∧ ∃ ps ∈ about linkIf ifs, ∃ v, (bytes "FriendlyName", Val.s v) ∈ ps

/-- Announcements of links in a message are full. -/
def fullMsg : Msg → Prop
  | .added path ifs => fullObject path ifs
  | .objects l => ∀ q ∈ l, fullObject q.1 q.2
  | _ => True

/-- … in an event. -/
def fullEv : Ev → Prop
  | .msg m => fullMsg m
  | _ => True

/-! ### Which object a name means -/

/-- The first of a list with some property. -/
def firstOf {α : Type} (ls : List α) (P : α → Prop) (a : α) : Prop := ∃ u v, ls = u ++ a :: v ∧ P a ∧ ∀ b ∈ u, ¬ P b

/-- Which link a name means: the one with that label; if there is none, the first one with that interface name; if there is none, the first one with that
friendly name; the case of letters does not matter. -/
def meansLink (w : S) (n : List Byte) (l : Link) : Prop := n ≠ [] ∧
  (firstOf w.links (fun a => key a.label = key n) l ∨ ((∀ a ∈ w.links, key a.label ≠ key n) ∧
    (firstOf w.links (fun a => a.ifname.map key = some (key n)) l ∨ ((∀ a ∈ w.links, a.ifname.map key ≠ some (key n)) ∧
      firstOf w.links (fun a => a.friendly.map key = some (key n)) l))))

/-- A decimal number. -/
def isNumber (n : List Byte) (i : Nat) : Prop := Atoi.Spec.stop n 10 = n.length ∧ Atoi.Spec.number n 10 = i ∧ i < W32

/-- Which of some peers a name means: the first one whose label is the name, followed by `@` and the link; else the first one with that friendly name; else the first one
with that interface; else the one at that place. -/
def meansAmong (ps : List Peer) (n : List Byte) (p : Peer) : Prop :=
  firstOf ps (fun q => n ++ [ch '@'] <+: q.label) p ∨ ((∀ q ∈ ps, ¬ n ++ [ch '@'] <+: q.label) ∧
    (firstOf ps (fun q => q.friendly.map key = some (key n)) p ∨ ((∀ q ∈ ps, q.friendly.map key ≠ some (key n)) ∧
      (firstOf ps (fun q => q.iface.map key = some (key n)) p ∨ ((∀ q ∈ ps, q.iface.map key ≠ some (key n)) ∧ ∃ i, isNumber n i ∧ ps[i]? = some p)))))

/-- All peers. -/
def peersOf (w : S) : List Peer := w.links.flatMap (·.peers)

/-- The name is `x@l`, and among the peers of the link that `l` means, `x` means this one. -/
def meansThere (w : S) (n : List Byte) (p : Peer) : Prop := ∃ x l k, n = x ++ ch '@' :: l ∧ ch '@' ∉ x ∧ meansLink w l k ∧ meansAmong k.peers x p

/-- Which peer a name means: the one with that label; else one in the form `x@l`; else one that it means among all. -/
def meansPeer (w : S) (n : List Byte) (p : Peer) : Prop := n ≠ [] ∧
  ((p ∈ peersOf w ∧ key p.label = key n) ∨ ((∀ q ∈ peersOf w, key q.label ≠ key n) ∧
    (meansThere w n p ∨ ((∀ q, ¬ meansThere w n q) ∧ meansAmong (peersOf w) n p))))

/-! ### What comes of a command -/

/-- The controller did nothing, and the command succeeded. -/
def idle (r : Int) (w w' : S) : Prop := r = 0 ∧ w'.app.log = w.app.log

/-- One request was made, and the command succeeded if the request did. -/
def sent (E : Env) (r : Int) (w w' : S) (a : Act) : Prop := w'.app.log = w.app.log ++ [a] ∧ (r = 0 ↔ 0 ≤ E.bus w.app.log.length)

/-- The path of an object. -/
def isPath (pre path label : List Byte) : Prop := labelOf pre path = some label

/-- How to provision, and the PIN: both can be given; one word alone is a way of provisioning if it is one, and else a PIN. -/
def asksFor : List (List Byte) → List Byte → List Byte → Prop
  | [], prov, pin => prov = bytes "auto" ∧ pin = []
  | [x], prov, pin => if x ∈ [bytes "auto", bytes "pbc", bytes "display", bytes "pin"] then prov = x ∧ pin = [] else prov = bytes "auto" ∧ pin = x
  | x :: y :: _, prov, pin => prov = x ∧ pin = y

/-- The link selected. -/
def selectedLink (w : S) : Option (List Byte) := (w.app.selected.bind fun i => w.links.find? fun l => l.id = i).map (·.label)

/-- Is this the removal of the link with that label? -/
def removes (x : Option (List Byte)) (path : List Byte) : Prop := ∃ label, label ≠ [] ∧ labelOf Wifid.linkPre path = some label ∧ x.map key = some (key label)

/-- Commands understood outside the prompt, and how many arguments they take. -/
def accepts (cmd : List Byte) (n : Nat) : Prop :=
  (cmd = bytes "list" ∧ n = 0) ∨ (cmd = bytes "show" ∧ n ≤ 1) ∨ (cmd = bytes "set-friendly-name" ∧ n ≤ 2) ∨ (cmd = bytes "set-managed" ∧ n ≤ 2) ∨
  (cmd = bytes "connect" ∧ n ≤ 3) ∨ (cmd = bytes "disconnect" ∧ n = 1) ∨ cmd = bytes "help"

/-- Something asked of the daemon (rather than shown). -/
def isRequest : Act → Prop
  | .set .. => True
  | .call .. => True
  | _ => False

/-- What an observer knows after these events. -/
def after (E : Env) (es : List Ev) : Obs := Obs.nothing.follow E start es

end Verif.Wifictl
