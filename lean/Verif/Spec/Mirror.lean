import Verif.Model.Mirror
/-! # Specification of the copy: what a listener knows

A listener keeps, for every label (up to the case of letters), what was last said about a link or
peer of that label. -/
namespace Verif.Mirror
open Verif.C

/-- Labels are the same if they agree up to the case of letters. -/
def key (label : List Byte) : List Byte := label.map toLower

/-- What is shown of a link. -/
structure LinkView where
  ifindex : Nat := 0
  ifname : Option (List Byte) := none
  friendly : Option (List Byte) := none
  managed : Bool := false
  wfd : Option (List Byte) := none
  scanning : Bool := false
deriving DecidableEq, Repr

/-- What is shown of a peer. -/
structure PeerView where
  mac : Option (List Byte) := none
  friendly : Option (List Byte) := none
  connected : Bool := false
  iface : Option (List Byte) := none
  loc : Option (List Byte) := none
  rem : Option (List Byte) := none
  wfd : Option (List Byte) := none
deriving DecidableEq, Repr

def Link.view (l : Link) : LinkView := ⟨l.ifindex, l.ifname, l.friendly, l.managed, l.wfd, l.scanning⟩
def Peer.view (p : Peer) : PeerView := ⟨p.mac, p.friendly, p.connected, p.iface, p.loc, p.rem, p.wfd⟩

/-- The last value given for a property. -/
def last (ps : Props) (t : String) : Option Val := ((ps.filter (fun q => q.1 = bytes t)).getLast?).map (·.2)

/-- The last string given for a property. -/
def strAt (ps : Props) (t : String) : Option (List Byte) := (last ps t).bind (·.str)
/-- The last truth value given for a property. -/
def boolAt (ps : Props) (t : String) : Option Bool := (last ps t).bind (·.bool)

/-- Are the values of the known properties of a link of the right types? -/
def linkTyped (ps : Props) : Bool := ps.all fun q =>
  (q.1 ∈ [bytes "InterfaceName", bytes "FriendlyName", bytes "WfdSubelements"] → q.2.str.isSome) &&
  (q.1 ∈ [bytes "Managed", bytes "P2PScanning"] → q.2.bool.isSome) &&
  (q.1 = bytes "InterfaceIndex" → q.2.uint.isSome)

/-- Are the values of the known properties of a peer of the right types? -/
def peerTyped (ps : Props) : Bool := ps.all fun q =>
  (q.1 ∈ [bytes "P2PMac", bytes "FriendlyName", bytes "Interface", bytes "LocalAddress", bytes "RemoteAddress", bytes "WfdSubelements"] → q.2.str.isSome) &&
  (q.1 = bytes "Connected" → q.2.bool.isSome)

/-- The new properties of a link. -/
def LinkView.say (v : LinkView) (ps : Props) : LinkView :=
  { ifindex := match (last ps "InterfaceIndex").bind (·.uint) with
      | some (n + 1) => n + 1
      | _ => v.ifindex
    ifname := (strAt ps "InterfaceName").or v.ifname
    friendly := (strAt ps "FriendlyName").or v.friendly
    managed := (boolAt ps "Managed").getD v.managed
    wfd := (strAt ps "WfdSubelements").or v.wfd
    scanning := (boolAt ps "P2PScanning").getD v.scanning }

/-- The new properties of a peer. -/
def PeerView.say (v : PeerView) (ps : Props) : PeerView :=
  { mac := (strAt ps "P2PMac").or v.mac
    friendly := (strAt ps "FriendlyName").or v.friendly
    connected := (boolAt ps "Connected").getD v.connected
    iface := (strAt ps "Interface").or v.iface
    loc := (strAt ps "LocalAddress").or v.loc
    rem := (strAt ps "RemoteAddress").or v.rem
    wfd := (strAt ps "WfdSubelements").or v.wfd }

/-- What is said of one interface of an object. -/
def about (name : List Byte) (ifs : Ifaces) : List Props := (ifs.filter (fun q => q.1 = name)).map (·.2)

/-- What a listener knows. -/
structure Known where
  link : List Byte → Option LinkView
  peer : List Byte → Option PeerView

/-- Nothing. -/
def Known.nothing : Known := ⟨fun _ => none, fun _ => none⟩

/-- Replace one entry. -/
def setAt {α : Type} (f : List Byte → Option α) (k : List Byte) (v : Option α) : List Byte → Option α :=
  fun x => if x = k then v else f x

/-- An object is announced; the truth value says that the message could be understood to its end. -/
def Known.add (k : Known) (path : List Byte) (ifs : Ifaces) : Known × Bool :=
  match labelOf Wifid.linkPre path with
  | some label =>
    if label ≠ [] ∧ (k.link (key label)).isSome then (k, true)
    else if ¬ (about linkIf ifs).all linkTyped then (k, false)
    else if label = [] then (k, true)
    else ({ k with link := setAt k.link (key label) (some ((about linkIf ifs).foldl LinkView.say {})) }, true)
  | none =>
    match labelOf Wifid.peerPre path with
    | none => (k, true)
    | some label =>
      if (k.peer (key label)).isSome then (k, true)
      else match afterAt label with
        | none => (k, false)
        | some l =>
          if l = [] ∨ k.link (key l) = none then (k, false)
          else if ¬ (about peerIf ifs).all peerTyped then (k, false)
          else ({ k with peer := setAt k.peer (key label) (some ((about peerIf ifs).foldl PeerView.say {})) }, true)

/-- A list of objects is announced: read until something could not be understood. -/
def Known.addAll (k : Known) : List (List Byte × Ifaces) → Known
  | [] => k
  | (path, ifs) :: r => if (k.add path ifs).2 then (k.add path ifs).1.addAll r else (k.add path ifs).1

/-- An object is gone; with a link all its peers. -/
def Known.drop (k : Known) (path : List Byte) : Known :=
  match labelOf Wifid.linkPre path with
  | some label =>
    if label = [] then k
    else ⟨setAt k.link (key label) none, fun x => if afterAt x = some (key label) then none else k.peer x⟩
  | none =>
    match labelOf Wifid.peerPre path with
    | none => k
    | some label => { k with peer := setAt k.peer (key label) none }

/-- Properties changed. -/
def Known.change (k : Known) (path iface : List Byte) (ps : Props) : Known :=
  match labelOf Wifid.linkPre path with
  | some label =>
    if label ≠ [] ∧ iface = linkIf ∧ linkTyped ps then
      { k with link := setAt k.link (key label) ((k.link (key label)).map (·.say ps)) }
    else k
  | none =>
    match labelOf Wifid.peerPre path with
    | none => k
    | some label =>
      if iface = peerIf ∧ peerTyped ps then { k with peer := setAt k.peer (key label) ((k.peer (key label)).map (·.say ps)) }
      else k

/-- A message is heard. -/
def Known.hear (k : Known) : Msg → Known
  | .added path ifs => (k.add path ifs).1
  | .removed path => k.drop path
  | .changed path iface ps => k.change path iface ps
  | .objects l => k.addAll l
  | _ => k

/-- The functions of the program do not touch the copy, except for the mark of links that were told to
scan. -/
def Quiet {σ : Type} (H : Hooks σ) : Prop :=
  let ok := fun (f : W σ → Option (W σ)) => ∀ w w', f w = some w' → w'.next = w.next ∧ ∃ g : Link → Bool, w'.links = w.links.map fun l => { l with haveScan := g l }
  (∀ p, ok (H.peerNew p) ∧ ok (H.peerFree p) ∧ ok (H.connected p) ∧ ok (H.disconnected p)) ∧ (∀ l, ok (H.linkNew l) ∧ ok (H.linkFree l)) ∧
  (∀ p a b, ok (H.prov p a b) ∧ ok (H.goNeg p a b)) ∧ ∀ p a, ok (H.failure p a)

end Verif.Mirror
