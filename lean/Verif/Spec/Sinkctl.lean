import Verif.Model.Sinkctl
import Verif.Spec.Mirror
/-! # Specification of the sink controller -/
namespace Verif.Sinkctl
open Verif.C Verif.Mirror

/-- The controller before anything happens. -/
def start : S := { app := {} }

/-! ### Sessions -/

/-- What an observer of the controller's doings knows of sessions. -/
structure Sess where
  /-- The peer of the session. -/
  peer : Option Nat := none
  /-- A connection may exist. -/
  opened : Bool := false
  /-- The player that was started. -/
  player : Option Nat := none
deriving DecidableEq, Repr

/-- Sessions do not overlap; connections and players exist only within a session, players one at a time and only after a connection
was tried; only the player that was started is killed; when a session ends, the player was killed and the connection closed. -/
def Sess.step (s : Sess) : Act → Option Sess
  | .running i => if s.peer = none then some { s with peer := some i } else none
  | .stopped i => if s.peer = some i ∧ s.opened = false ∧ s.player = none then some { s with peer := none } else none
  | .connect _ => if s.peer ≠ none then some { s with opened := true } else none
  | .close => some { s with opened := false }
  | .spawn p => if s.peer ≠ none ∧ s.opened = true ∧ s.player = none then some { s with player := some p } else none
  | .kill p => if s.player = some p then some { s with player := none } else none
  | _ => some s

/-- All of what was done. -/
def Sess.all (s : Sess) : List Act → Option Sess
  | [] => some s
  | a :: as => (s.step a).bind (·.all as)

/-- A session begins. -/
def isRunning : Act → Bool
  | .running _ => true
  | _ => false

/-- A connection is tried. -/
def isConnect : Act → Bool
  | .connect _ => true
  | _ => false

/-- The connections tried since the last session began. -/
def attempts (log : List Act) : Nat := ((log.reverse.takeWhile fun a => !isRunning a).filter isConnect).length

/-- A request to scan on the link, which the daemon agreed to. -/
def agreed (E : Env) (id : Nat) : Act × Nat → Bool
  | (.scan i _ true, n) => i == id && E.bus n
  | _ => false

/-- The controller asked for scanning on the link, and the daemon agreed. -/
def started (E : Env) (log : List Act) (id : Nat) : Bool := log.zipIdx.any (agreed E id)

/-- Running on a link, in no session and not waiting for one. -/
def FreeOn (c : Ctl) (i : Nat) : Prop := c.runLink = some i ∧ c.runPeer = none ∧ c.scanT = false

/-! ### References -/

/-- The link exists. -/
def isLink (w : S) (id : Nat) : Prop := ∃ l ∈ w.links, l.id = id

/-- The peer exists, on the link given. -/
def isPeer (w : S) (link id : Nat) : Prop := ∃ l ∈ w.links, l.id = link ∧ ∃ p ∈ l.peers, p.id = id

/-- The references the controller keeps refer to things that exist; peers are on the link it runs on. -/
def Valid (w : S) : Prop :=
  (∀ i, w.app.runLink = some i → isLink w i) ∧
  (∀ i, w.app.runPeer = some i → ∃ k, w.app.runLink = some k ∧ isPeer w k i) ∧
  ∀ i, w.app.pending = some i → ∃ k, w.app.runLink = some k ∧ isPeer w k i

/-- An object is announced with each interface once, and a link with its `WfdSubelements` and `FriendlyName` (possibly empty). -/
def cleanObject (path : List Byte) (ifs : Ifaces) : Prop :=
  (ifs.map (·.1)).Nodup ∧ (labelOf Wifid.linkPre path ≠ none →
    (∃ ps ∈ about linkIf ifs, ∃ v, (bytes "WfdSubelements", Val.s v) ∈ ps) ∧ ∃ ps ∈ about linkIf ifs, ∃ v, (bytes "FriendlyName", Val.s v) ∈ ps)

/-- … and no change makes the `WfdSubelements` of a peer empty. -/
def clean : Msg → Prop
  | .added path ifs => cleanObject path ifs
  | .objects l => ∀ q ∈ l, cleanObject q.1 q.2
  | .changed _ iface ps => iface = peerIf → ∀ v, (bytes "WfdSubelements", Val.s v) ∈ ps → v ≠ []
  | _ => True

/-- Events whose messages are clean. -/
def cleanEv : Ev → Prop
  | .msg m => clean m
  | _ => True

end Verif.Sinkctl
