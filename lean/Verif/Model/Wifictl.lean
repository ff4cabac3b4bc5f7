import Verif.Model.Search
import Verif.Model.Cli
/-! # The controller of the wifi daemon

`src/ctl/wifictl.c`: its commands, run on the copy of links and peers (`Model/Mirror.lean`) through the command table
(`Model/Cli.lean`).  Pointers to links are addresses; following one that is no longer in the list, or `strcmp` of a null
pointer, is undefined behaviour (`none`).  Of what is printed, the tables of `list` and the lines of `show` are kept, as cells
without padding; notices and complaints are left out.  Paths can be encoded and messages built. -/
namespace Verif.Wifictl
open Verif.C Verif.Mirror

/-- What is asked of the daemon, and what is shown. -/
inductive Act where
  /-- `org.freedesktop.DBus.Properties.Set` of a property of a link. -/
  | set (path prop : List Byte) (v : Val)
  /-- A method of a peer is called. -/
  | call (path member : List Byte) (args : List (List Byte))
  /-- The lines `show` prints. -/
  | lines (ls : List (List Byte × List Byte))
  /-- The two tables `list` prints. -/
  | tables (links peers : List (List (List Byte)))
deriving DecidableEq, Repr

/-- `selected_link`, `wifictl.c:45`, whether `cli_exit` was called, and what was done (last thing last). -/
structure Ctl where
  selected : Option Nat := none
  quit : Bool := false
  log : List Act := []
deriving DecidableEq

abbrev S := W Ctl

/-- The result of the call on the bus after `n` things were done; negative is failure. -/
structure Env where
  bus : Nat → Int

/-- Something is done. -/
def act (a : Act) (w : S) : S := { w with app := { w.app with log := w.app.log ++ [a] } }

/-- Follow a pointer to a link. -/
def linkAt (w : S) (id : Nat) : Option Link := w.links.find? (fun l => l.id = id)

/-- `sd_bus_path_encode` (libsystemd). -/
def pathOf (pre label : List Byte) : List Byte := pre ++ ch '/' :: Wifid.escape label

/-- A call on the bus and its result (`r < 0 ? r : 0`). -/
def call (E : Env) (a : Act) (w : S) : Int × S := (min (E.bus w.app.log.length) 0, act a w)

/-- The request to set a property of a link. -/
def setReq (l : Link) (prop : String) (v : Val) : Act := .set (pathOf Wifid.linkPre l.label) (bytes prop) v

/-- `ctl_link_set_p2p_scanning`, `ctl-wifi.c:694-755`. -/
def setScan (E : Env) (id : Nat) (val : Bool) (w : S) : Option (Int × S) := do
  let l ← linkAt w id
  if l.scanning = val then some (0, w)
  else
    let (r, w) := call E (setReq l "P2PScanning" (.b val)) w
    some (r, if r = 0 && val then { w with links := w.links.map fun l => { l with haveScan := l.id = id || l.haveScan } } else w)

/-- `ctl_link_set_wfd_subelements`, `ctl-wifi.c:580-635`. -/
def setWfd (E : Env) (id : Nat) (val : List Byte) (w : S) : Option (Int × S) := do
  let l ← linkAt w id
  let cur ← l.wfd
  if cur = val then some (0, w) else some (call E (setReq l "WfdSubelements" (.s val)) w)

/-- `ctl_link_set_friendly_name`, `ctl-wifi.c:525-578`. -/
def setName (E : Env) (id : Nat) (val : List Byte) (w : S) : Option (Int × S) := do
  let l ← linkAt w id
  let cur ← l.friendly
  if cur = val then some (0, w) else some (call E (setReq l "FriendlyName" (.s val)) w)

/-- `ctl_link_set_managed`, `ctl-wifi.c:637-692`. -/
def setManaged (E : Env) (id : Nat) (val : Bool) (w : S) : Option (Int × S) := do
  let l ← linkAt w id
  if l.managed = val then some (0, w)
  else
    let (r, w) := call E (setReq l "Managed" (.b val)) w
    some (r, if r = 0 then w.putLink { l with managed := val } else w)

/-! ### Commands -/

/-- `shl_isempty(x) ? "<unknown>" : x`. -/
def cell (x : Option (List Byte)) : List Byte :=
  match x with
  | none => bytes "<unknown>"
  | some [] => bytes "<unknown>"
  | some v => v

/-- `x ? "yes" : "no"`. -/
def yesNo (x : Bool) : List Byte := if x then bytes "yes" else bytes "no"

/-- The row of a link, `wifictl.c:86-92`. -/
def linkRow (l : Link) : List (List Byte) := [l.label, cell l.ifname, cell l.friendly, yesNo l.managed]

/-- The row of a peer, `wifictl.c:109-114`; `p->l` is followed. -/
def peerRow (w : S) (p : Peer) : Option (List (List Byte)) := (linkAt w p.l).map fun l => [l.label, p.label, cell p.friendly, yesNo p.connected]

/-- The rows of some peers, `wifictl.c:105-115`. -/
def peerRows (w : S) : List Peer → Option (List (List (List Byte)))
  | [] => some []
  | p :: ps => do
    let r ← peerRow w p
    let rs ← peerRows w ps
    some (r :: rs)

/-- `cmd_list`, `wifictl.c:70-121`. -/
def cmdList (w : S) : Option (Int × S) := do
  let ps ← peerRows w (w.links.flatMap (·.peers))
  some (0, act (.tables (w.links.map linkRow) ps) w)

/-- `cmd_select`, `wifictl.c:127-152`; deselecting prints the label, the result of setting `WfdSubelements` is dropped. -/
def cmdSelect (E : Env) (args : List (List Byte)) (w : S) : Option (Int × S) :=
  match args with
  | [] => match w.app.selected with
    | none => some (0, w)
    | some i => (linkAt w i).map fun _ => (0, { w with app := { w.app with selected := none } })
  | n :: _ => match w.searchLink n with
    | none => some (0, w)
    | some l => (setWfd E l.id (bytes "000600111c4400c8") { w with app := { w.app with selected := some l.id } }).map fun r => (0, r.2)

/-- A line of `show` for a text that is printed unless it is missing or empty. -/
def line (k : String) (x : Option (List Byte)) : List (List Byte × List Byte) :=
  match x with
  | none => []
  | some [] => []
  | some v => [(bytes k, v)]

/-- What `show` prints of a link, `wifictl.c:176-186`. -/
def linkLines (l : Link) : List (List Byte × List Byte) :=
  (bytes "Link", l.label) :: (if l.ifindex > 0 then [(bytes "InterfaceIndex", dec l.ifindex)] else []) ++ line "InterfaceName" l.ifname ++
    line "FriendlyName" l.friendly ++ [(bytes "P2PScanning", dec l.scanning.toNat)] ++ line "WfdSubelements" l.wfd ++ [(bytes "Managed", dec l.managed.toNat)]

/-- What `show` prints of a peer, `wifictl.c:188-201`. -/
def peerLines (p : Peer) : List (List Byte × List Byte) :=
  (bytes "Peer", p.label) :: line "P2PMac" p.mac ++ line "FriendlyName" p.friendly ++ [(bytes "Connected", dec p.connected.toNat)] ++
    line "Interface" p.iface ++ line "LocalAddress" p.loc ++ line "RemoteAddress" p.rem ++ line "WfdSubelements" p.wfd

/-- What `show` finds, `wifictl.c:164-167`. -/
def showWhat (n : List Byte) (w : S) : Option Act :=
  match w.findLink n with
  | some l => some (.lines (linkLines l))
  | none => match w.findPeer n with
    | some p => some (.lines (peerLines p))
    | none => match w.searchLink n with
      | some l => some (.lines (linkLines l))
      | none => (w.searchPeer n).map fun p => .lines (peerLines p)

/-- `cmd_show`, `wifictl.c:158-208`. -/
def cmdShow (args : List (List Byte)) (w : S) : Option (Int × S) :=
  match args with
  | n :: _ => match showWhat n w with
    | none => some (0, w)
    | some a => some (0, act a w)
  | [] => match w.app.selected with
    | none => some (0, w)
    | some i => (linkAt w i).map fun l => (0, act (.lines (linkLines l)) w)

/-- `cmd_set_friendly_name`, `wifictl.c:214-243`. -/
def cmdName (E : Env) (args : List (List Byte)) (w : S) : Option (Int × S) :=
  match args with
  | [] => some (0, w)
  | [n] => match w.app.selected with
    | none => some (0, w)
    | some i => setName E i n w
  | l :: n :: _ => match w.searchLink l with
    | none => some (0, w)
    | some l => setName E l.id n w

/-- `cmd_set_managed`, `wifictl.c:249-282`. -/
def cmdManaged (E : Env) (args : List (List Byte)) (w : S) : Option (Int × S) :=
  match args with
  | [] => some (0, w)
  | [v] => match w.app.selected with
    | none => some (0, w)
    | some i => setManaged E i (v ≠ bytes "no") w
  | l :: v :: _ => match w.searchLink l with
    | none => some (0, w)
    | some l => setManaged E l.id (v ≠ bytes "no") w

/-- The loop of `cmd_p2p_scan`, `wifictl.c:294-304`: the link named last and whether `stop` was among the words; `none`
is an unknown link. -/
def scanArgs (w : S) : List (List Byte) → Option Nat → Bool → Option (Option Nat × Bool)
  | [], l, stop => some (l, stop)
  | a :: as, l, stop =>
    if a = bytes "stop" then scanArgs w as l true
    else match w.searchLink a with
      | none => none
      | some k => scanArgs w as (some k.id) stop

/-- `cmd_p2p_scan`, `wifictl.c:288-318`. -/
def cmdScan (E : Env) (args : List (List Byte)) (w : S) : Option (Int × S) :=
  match scanArgs w args none false with
  | none => some (0, w)
  | some (l, stop) =>
    match l.or w.app.selected with
    | none => some (0, w)
    | some i => do
      let l ← linkAt w i
      if !l.managed then some (0, w) else setScan E i (!stop) w

/-- `is_valid_prov`, `wifictl.c:324-330`. -/
def validProv (p : List Byte) : Bool := p = bytes "auto" || p = bytes "pbc" || p = bytes "display" || p = bytes "pin"

/-- The way of provisioning and the PIN, `wifictl.c:348-362`. -/
def provPin : List (List Byte) → List Byte × List Byte
  | [] => (bytes "auto", [])
  | [x] => if validProv x then (x, []) else (bytes "auto", x)
  | x :: y :: _ => (x, y)

/-- `ctl_peer_connect`, `ctl-wifi.c:250-282`, and `ctl_peer_disconnect`, `ctl-wifi.c:284-314`: a method of a peer. -/
def peerCall (E : Env) (p : Peer) (member : String) (args : List (List Byte)) (w : S) : Int × S :=
  call E (.call (pathOf Wifid.peerPre p.label) (bytes member) args) w

/-- `cmd_connect`, `wifictl.c:332-370`. -/
def cmdConnect (E : Env) (args : List (List Byte)) (w : S) : Option (Int × S) :=
  match args with
  | [] => some (0, w)
  | n :: rest => match w.searchPeer n with
    | none => some (0, w)
    | some p => do
      let l ← linkAt w p.l
      if !l.managed then some (0, w) else some (peerCall E p "Connect" [(provPin rest).1, (provPin rest).2] w)

/-- `cmd_disconnect`, `wifictl.c:376-397`. -/
def cmdDisconnect (E : Env) (args : List (List Byte)) (w : S) : Option (Int × S) :=
  match args with
  | [] => some (0, w)
  | n :: _ => match w.searchPeer n with
    | none => some (0, w)
    | some p => do
      let l ← linkAt w p.l
      if !l.managed then some (0, w) else some (peerCall E p "Disconnect" [] w)

/-- `cmd_quit`, `wifictl.c:403-407`. -/
def cmdQuit (w : S) : Option (Int × S) := some (0, { w with app := { w.app with quit := true } })

/-- A handler for the table; behaviour stays undefined once it is. -/
def lift (f : List (List Byte) → S → Option (Int × S)) (args : List (List Byte)) : Option S → Int × Option S
  | none => (0, none)
  | some w => match f args w with
    | none => (0, none)
    | some (r, w) => (r, some w)

/-- `cli_cmds`, `wifictl.c:413-426`, without the completion functions. -/
def table (E : Env) : List (Cli.Cmd (Option S)) := [
  { cmd := bytes "list", cli := .maybe, cmp := .less, argc := 0, fn := some (lift fun _ => cmdList), desc := some (bytes "List all objects") },
  { cmd := bytes "select", args := some (bytes "[link]"), cli := .yes, cmp := .less, argc := 1, fn := some (lift (cmdSelect E)), desc := some (bytes "Select default link") },
  { cmd := bytes "show", args := some (bytes "[link|peer]"), cli := .maybe, cmp := .less, argc := 1, fn := some (lift cmdShow), desc := some (bytes "Show detailed object information") },
  { cmd := bytes "set-friendly-name", args := some (bytes "[link] <name>"), cli := .maybe, cmp := .less, argc := 2, fn := some (lift (cmdName E)), desc := some (bytes "Set friendly name of an object") },
  { cmd := bytes "set-managed", args := some (bytes "[link] <yes|no>"), cli := .maybe, cmp := .less, argc := 2, fn := some (lift (cmdManaged E)), desc := some (bytes "Manage or unmanage a link") },
  { cmd := bytes "p2p-scan", args := some (bytes "[link] [stop]"), cli := .yes, cmp := .less, argc := 2, fn := some (lift (cmdScan E)), desc := some (bytes "Control neighborhood P2P scanning") },
  { cmd := bytes "connect", args := some (bytes "<peer> [provision] [pin]"), cli := .maybe, cmp := .less, argc := 3, fn := some (lift (cmdConnect E)), desc := some (bytes "Connect to peer") },
  { cmd := bytes "disconnect", args := some (bytes "<peer>"), cli := .maybe, cmp := .equal, argc := 1, fn := some (lift (cmdDisconnect E)), desc := some (bytes "Disconnect from peer") },
  { cmd := bytes "quit", cli := .yes, cmp := .more, argc := 0, fn := some (lift fun _ => cmdQuit), desc := some (bytes "Quit program") },
  { cmd := bytes "exit", cli := .yes, cmp := .more, argc := 0, fn := some (lift fun _ => cmdQuit) },
  { cmd := bytes "help", cli := .maybe, cmp := .more, argc := 0, desc := some (bytes "Print help") }]

/-! ### The program -/

/-- `ctl_fn_link_free`, `wifictl.c:483-494`. -/
def onLinkFree (l : Link) (w : S) : Option S := some { w with app := { w.app with selected := if w.app.selected = some l.id then none else w.app.selected } }

/-- What the copy of links and peers calls, `wifictl.c:428-494`; all else only prints. -/
def hooks : Hooks Ctl :=
  { peerNew := fun _ => some, peerFree := fun _ => some, connected := fun _ => some, disconnected := fun _ => some, linkNew := fun _ => some, linkFree := onLinkFree,
    prov := fun _ _ _ => some, goNeg := fun _ _ _ => some, failure := fun _ _ => some }

/-- What happens while the program runs: a message, or an input line (its words). -/
inductive Ev where
  | msg (m : Msg)
  | line (words : List (List Byte))

/-- The words of a line, or of the arguments of the program, are carried out. -/
def command (E : Env) (rl : Bool) (words : List (List Byte)) (w : S) : Option (Int × S) :=
  match Cli.cliDo (fun _ s => s) rl (table E) words (some w) with
  | (_, none) => none
  | (r, some w) => some (r, w)

/-- One event. -/
def step (E : Env) (w : S) : Ev → Option S
  | .msg m => (receive hooks w m).map (·.2)
  | .line words => (command E true words w).map (·.2)

/-- A sequence of events. -/
def run (E : Env) (w : S) : List Ev → Option S
  | [] => some w
  | e :: es => do
    let w ← step E w e
    run E w es

/-- "stop managed scans", `wifictl.c:538-542`, for the links given; a link that is not marked is left alone. -/
def stopScans (E : Env) : List Link → S → Option S
  | [], w => some w
  | l :: ls, w => do
    let w ← if l.haveScan then (setScan E l.id false w).map (·.2) else some w
    stopScans E ls w

/-- The end of `ctl_main`, `wifictl.c:578`. -/
def finish (w : S) : Option S := freeLinks hooks w.links.reverse w

/-- `ctl_interactive` and `ctl_main`, `wifictl.c:521-547, 564-580`, given what happens while `cli_run` runs (which then returns 0): the
program ends at once if the objects cannot be read. -/
def interactive (E : Env) (objects : List (List Byte × Ifaces)) (es : List Ev) : Option (Int × S) := do
  let (r, w) ← fetch hooks objects { app := {} }
  if r < 0 then (finish w).map fun w => (r, w)
  else do
    let w ← run E w es
    let w ← stopScans E w.links w
    (finish w).map fun w => (0, w)

/-- `ctl_single` and `ctl_main`, `wifictl.c:549-580`. -/
def single (E : Env) (objects : List (List Byte × Ifaces)) (words : List (List Byte)) : Option (Int × S) := do
  let (r, w) ← fetch hooks objects { app := {} }
  if r < 0 then (finish w).map fun w => (r, w)
  else do
    let (r, w) ← command E false words w
    (finish w).map fun w => (r, w)

end Verif.Wifictl
