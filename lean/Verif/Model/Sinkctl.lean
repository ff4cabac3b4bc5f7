import Verif.Model.Search
/-! # The sink controller

`src/ctl/sinkctl.c`: which link and peer it runs on, its timers, the session with the source and the player.  It is the
program behind the copy of links and peers (`Model/Mirror.lean`).  Pointers to links and peers
are addresses; following one that is no longer in the lists, or using the sink after it was freed, is undefined behaviour
(`none`).  Printed text is left out, except that printing the pending peer's name reads it. Allocations, and adding
timers, succeed. -/
namespace Verif.Sinkctl
open Verif.C Verif.Mirror

/-- What is done to the outside. -/
inductive Act where
  /-- `P2PScanning` of a link is set on the bus (which of the controller's links it is, is not visible). -/
  | scan (id : Nat) (label : List Byte) (val : Bool)
  /-- `WfdSubelements` of a link is set. -/
  | wfd (label val : List Byte)
  /-- `Managed` of a link is set. -/
  | managed (label : List Byte) (val : Bool)
  /-- `FriendlyName` of a link is set. -/
  | name (label val : List Byte)
  /-- `Connect` is called on a peer. -/
  | accept (label prov pin : List Byte)
  /-- A connection to the address is attempted (`none` is a null pointer). -/
  | connect (target : Option (List Byte))
  /-- `ctl_sink_close`. -/
  | close
  /-- A player is started. -/
  | spawn (pid : Nat)
  /-- `kill(pid, SIGTERM)`. -/
  | kill (pid : Nat)
  /-- Not visible: `running_peer` is set. -/
  | running (id : Nat)
  /-- Not visible: `running_peer` is cleared. -/
  | stopped (id : Nat)
deriving DecidableEq, Repr

/-- What the outside answers; `n` is the number of things done before. -/
structure Env where
  /-- Does the call on the bus succeed? -/
  bus : Nat → Bool
  /-- Does `ctl_sink_connect` succeed for a target that is not NULL (`ctl-sink.c:476-515, 583-610`)? -/
  acc : Nat → Bool
  /-- `fork`; the process id is one more. -/
  fork : Nat → Option Nat
  /-- `cli_running()`. -/
  cli : Bool

/-- The static variables, `sinkctl.c:55-67`, the sink as far as it matters (`fd < 0`, freed), and what was done (last
thing last). -/
structure Ctl where
  bound : Option (List Byte) := none
  runLink : Option Nat := none
  runPeer : Option Nat := none
  pending : Option Nat := none
  /-- `scan_timeout != NULL`; it is always armed for 60 s. -/
  scanT : Bool := false
  /-- `sink_timeout`, with the seconds it was armed for. -/
  sinkT : Option Nat := none
  /-- `sink_timeout_time`. -/
  time : Nat := 0
  /-- `sink_connected`. -/
  conn : Bool := false
  /-- `sink_pid`, if positive. -/
  pid : Option Nat := none
  /-- `sink` was not freed. -/
  alive : Bool := true
  /-- `sink->fd >= 0`. -/
  isOpen : Bool := false
  log : List Act := []
deriving DecidableEq, Repr

abbrev S := W Ctl

/-- Something is done. -/
def act (a : Act) (w : S) : S := { w with app := { w.app with log := w.app.log ++ [a] } }

/-- The number of things done. -/
def steps (w : S) : Nat := w.app.log.length

/-- Follow a pointer to a link. -/
def linkAt (w : S) (id : Nat) : Option Link := w.links.find? (fun l => l.id = id)

/-- Follow a pointer to a peer. -/
def peerAt (w : S) (id : Nat) : Option Peer := (w.links.flatMap (·.peers)).find? (fun p => p.id = id)

/-! ### Requests to the daemon -/

/-- `ctl_link_set_p2p_scanning`, `ctl-wifi.c:694-755`. -/
def setScan (E : Env) (id : Nat) (val : Bool) (w : S) : Option S := do
  let l ← linkAt w id
  if l.scanning = val then some w
  else
    let ok := E.bus (steps w)
    let w := act (.scan l.id l.label val) w
    some (if ok && val then { w with links := w.links.map fun l => { l with haveScan := l.id = id || l.haveScan } } else w)

/-- `ctl_link_set_wfd_subelements`, `ctl-wifi.c:580-635`; `strcmp` of a null pointer is undefined. -/
def setWfd (id : Nat) (val : List Byte) (w : S) : Option S := do
  let l ← linkAt w id
  let cur ← l.wfd
  if cur = val then some w else some (act (.wfd l.label val) w)

/-- `ctl_link_set_friendly_name`, `ctl-wifi.c:525-578`. -/
def setName (id : Nat) (val : List Byte) (w : S) : Option S := do
  let l ← linkAt w id
  let cur ← l.friendly
  if cur = val then some w else some (act (.name l.label val) w)

/-- `ctl_link_set_managed`, `ctl-wifi.c:637-692`. -/
def setManaged (E : Env) (id : Nat) (val : Bool) (w : S) : Option S := do
  let l ← linkAt w id
  if l.managed = val then some w
  else
    let ok := E.bus (steps w)
    let w := act (.managed l.label val) w
    some (if ok then w.putLink { l with managed := val } else w)

/-! ### Sessions and players -/

/-- `kill_gst`, `sinkctl.c:576-583`. -/
def killPlayer (w : S) : S :=
  match w.app.pid with
  | none => w
  | some p => { act (.kill p) w with app := { (act (.kill p) w).app with pid := none } }

/-- `ctl_sink_close(sink)`, `ctl-sink.c:612-618`. -/
def closeSink (w : S) : Option S :=
  if !w.app.alive then none else some { act .close w with app := { (act .close w).app with isOpen := false } }

/-- `sink_timeout_fn`, `sinkctl.c:414-436`. -/
def sinkFn (E : Env) (w : S) : Option S :=
  let w := { w with app := { w.app with sinkT := none } }
  match w.app.runPeer with
  | none => some w
  | some i => do
    let p ← peerAt w i
    if !p.connected then some w
    else if !w.app.alive then none
    else if w.app.isOpen then some w
    else
      let ok := E.acc (steps w) && p.rem.isSome
      let w := act (.connect p.rem) w
      if ok then some { w with app := { w.app with isOpen := true } }
      else
        let t := w.app.time
        if t ≥ 3 then some { w with app := { w.app with time := (t + 1) % W32 } }
        else some { w with app := { w.app with time := (t + 1) % W32, sinkT := some ((t + 1) % W32) } }

/-- The end of the session with the running peer, `sinkctl.c:633-640, 733-740`. -/
def endSession (E : Env) (p : Peer) (w : S) : Option S := do
  let w := { w with app := { w.app with sinkT := none } }
  let w ← closeSink (killPlayer w)
  let w := act (.stopped p.id) w
  let w := { w with app := { w.app with runPeer := none, scanT := false } }
  setScan E p.l true w

/-- `run_on`, `sinkctl.c:255-264`. -/
def runOn (E : Env) (id : Nat) (w : S) : Option S :=
  match w.app.runLink with
  | some _ => some w
  | none => do
    let w := { w with app := { w.app with runLink := some id } }
    let w ← setWfd id (bytes "000600111c4400c8") w
    setScan E id true w

/-! ### What the copy of links and peers calls -/

/-- `p->l != running_link || shl_isempty(p->wfd_subelements)`. -/
def ignored (p : Peer) (w : S) : Bool := w.app.runLink ≠ some p.l || p.wfd.getD [] = []

/-- The pending peer goes, `sinkctl.c:624-630`. -/
def dropPending (E : Env) (p : Peer) (w : S) : Option S :=
  if w.app.pending = some p.id then setScan E p.l true { w with app := { w.app with pending := none, scanT := false } } else some w

/-- `ctl_fn_peer_free`, `sinkctl.c:619-646`. -/
def onPeerFree (E : Env) (p : Peer) (w : S) : Option S :=
  if ignored p w then some w
  else do
    let w ← dropPending E p w
    if w.app.runPeer = some p.id then endSession E p w else some w

/-- `ctl_fn_peer_go_neg_request`, `sinkctl.c:660-685`. -/
def onGoNeg (p : Peer) (w : S) : Option S :=
  if ignored p w then some w
  else match w.app.runPeer with
    | some _ => some w
    | none =>
      let w := act (.accept p.label (bytes "auto") []) w
      some { w with app := { w.app with pending := some p.id, scanT := true } }

/-- `ctl_fn_peer_formation_failure`, `sinkctl.c:687-700`. -/
def onFailure (E : Env) (p : Peer) (w : S) : Option S :=
  if ignored p w then some w
  else match w.app.runPeer with
    | some _ => some w
    | none => setScan E p.l true { w with app := { w.app with scanT := false } }

/-- `ctl_fn_peer_connected`, `sinkctl.c:702-725`. -/
def onConnected (p : Peer) (w : S) : Option S :=
  if ignored p w then some w
  else
    let w := { w with app := { w.app with pending := none } }
    match w.app.runPeer with
    | some _ => some w
    | none =>
      let w := act (.running p.id) w
      some { w with app := { w.app with runPeer := some p.id, scanT := false, conn := false, time := 1, sinkT := some 1 } }

/-- `ctl_fn_peer_disconnected`, `sinkctl.c:727-746`. -/
def onDisconnected (E : Env) (p : Peer) (w : S) : Option S :=
  if ignored p w then some w
  else if w.app.runPeer = some p.id then endSession E p w else some w

/-- `ctl_fn_link_new`, `sinkctl.c:748-761`. -/
def onLinkNew (E : Env) (w : S) : Option S :=
  match w.app.runLink, w.app.bound with
  | none, some b =>
    match w.searchLink b with
    | some l => runOn E l.id w
    | none => some w
  | _, _ => some w

/-- `ctl_fn_link_free`, `sinkctl.c:763-775`. -/
def onLinkFree (l : Link) (w : S) : Option S :=
  if w.app.runLink = some l.id then some { w with app := { w.app with runLink := none, scanT := false } } else some w

/-- All of them; `ctl_fn_peer_new` and `ctl_fn_peer_provision_discovery` only print. -/
def hooks (E : Env) : Hooks Ctl :=
  { peerNew := fun _ => some, peerFree := onPeerFree E, connected := onConnected, disconnected := onDisconnected E,
    linkNew := fun _ => onLinkNew E, linkFree := onLinkFree, prov := fun _ _ _ => some, goNeg := fun p _ _ => onGoNeg p,
    failure := fun p _ => onFailure E p }

/-! ### Commands, timers, the session -/

/-- `cmd_run`, `sinkctl.c:266-289`. -/
def cmdRun (E : Env) (name : List Byte) (w : S) : Option S :=
  match w.app.runLink with
  | some id => (linkAt w id).map fun _ => w
  | none =>
    match w.searchLink name with
    | none => some w
    | some l => if !l.managed then some w else runOn E l.id w

/-- `cmd_bind`, `sinkctl.c:295-324`. -/
def cmdBind (E : Env) (name : List Byte) (w : S) : Option S :=
  match w.app.runLink with
  | some id => (linkAt w id).map fun _ => w
  | none =>
    let w := { w with app := { w.app with bound := some name } }
    match w.searchLink name with
    | none => some w
    | some l => if !l.managed then some w else runOn E l.id w

/-- `cmd_set_managed`, `sinkctl.c:330-345`. -/
def cmdManaged (E : Env) (name val : List Byte) (w : S) : Option S :=
  match w.searchLink name with
  | none => some w
  | some l => setManaged E l.id (val ≠ bytes "no") w

/-- `cmd_set_friendly_name`, `sinkctl.c:220-249`. -/
def cmdName (args : List (List Byte)) (w : S) : Option S :=
  match args with
  | [] => some w
  | [n] => match w.app.runLink with
    | none => some w
    | some id => setName id n w
  | l :: n :: _ => match w.searchLink l with
    | none => some w
    | some l => setName l.id n w

/-- The pending peer is no longer waited for, `sinkctl.c:400-406`. -/
def expire (E : Env) (w : S) : Option S :=
  match w.app.pending with
  | none => some w
  | some i =>
    let w' := { w with app := { w.app with pending := none } }
    if E.cli then (peerAt w i).map fun _ => w' else some w'

/-- `scan_timeout_fn`, `sinkctl.c:396-412`; nothing happens if the timer is not armed. -/
def scanTimer (E : Env) (w : S) : Option S :=
  if !w.app.scanT then some w
  else do
    let w ← expire E { w with app := { w.app with scanT := false } }
    match w.app.runLink with
    | none => some w
    | some i => setScan E i true w

/-- What happens. -/
inductive Ev where
  /-- A message from the daemon. -/
  | msg (m : Msg)
  | run (name : List Byte)
  | bind (name : List Byte)
  | setManaged (name val : List Byte)
  | setName (args : List (List Byte))
  /-- The timers expire. -/
  | scanTimer
  | sinkTimer
  /-- The connection to the source is established (`ctl-sink.c:443`). -/
  | up
  /-- It broke, or could not be established (`ctl-sink.c:391-394, 460-463`). -/
  | down
  /-- The source set the resolution. -/
  | resolution

/-- Caused by the sink: `ctl_fn_sink_connected`, `ctl_fn_sink_disconnected` and `ctl_fn_sink_resolution_set`, `sinkctl.c:585-607`. -/
def Ev.sink : Ev → Bool
  | .up | .down | .resolution => true
  | _ => false

/-- One event.  `down`: the sink is closed before the call, `sinkctl.c:591-600`; `resolution`: `spawn_gst`,
`sinkctl.c:451-491, 602-607`. Events of the session occur only while the socket is open. -/
def step (E : Env) (w : S) : Ev → Option S
  | .msg m => (receive (hooks E) w m).map (·.2)
  | .run n => cmdRun E n w
  | .bind n => cmdBind E n w
  | .setManaged n v => cmdManaged E n v w
  | .setName a => cmdName a w
  | .scanTimer => scanTimer E w
  | .sinkTimer => if w.app.sinkT = none then some w else sinkFn E w
  | .up => if !w.app.isOpen then some w else some { w with app := { w.app with conn := true } }
  | .down => if !w.app.isOpen then some w
    else
      let w := { w with app := { w.app with isOpen := false } }
      if !w.app.conn then sinkFn E w else some { w with app := { w.app with conn := false } }
  | .resolution => if !w.app.isOpen || !w.app.conn || w.app.pid.isSome then some w
    else match E.fork (steps w) with
      | none => some w
      | some n => some { act (.spawn (n + 1)) w with app := { (act (.spawn (n + 1)) w).app with pid := some (n + 1) } }

/-- A sequence of events. -/
def run (E : Env) (w : S) : List Ev → Option S
  | [] => some w
  | e :: es => do
    let w ← step E w e
    run E w es

/-- One link of "stop all scans", `sinkctl.c:866-869`. -/
def stopScan (E : Env) (l : Link) (w : S) : Option S := if l.haveScan then setScan E l.id false w else some w

/-- "stop all scans", `sinkctl.c:865-870`, for the links given. -/
def stopScans (E : Env) : List Link → S → Option S
  | [], w => some w
  | l :: ls, w => do
    let w ← stopScan E l w
    stopScans E ls w

/-- The end of the program, `sinkctl.c:839-842, 864-873`: the sink is freed, scans are stopped, the links
are freed. -/
def finish (E : Env) (w : S) : Option S := do
  let w := { w with app := { w.app with alive := false, isOpen := false } }
  let w ← stopScans E w.links w
  freeLinks (hooks E) w.links.reverse w

end Verif.Sinkctl
