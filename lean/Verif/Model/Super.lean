import Verif.C.Basic
import Verif.Model.Ratelimit
/-!
# The supervisor of wpa_supplicant

Model of the last part of `src/wifi/wifid-supplicant.c`: starting the process, connecting to it, the requests made to set
it up, restarting it. Peers and groups are the subject of `Model/P2p`; requests made once it runs have no callback
that matters here. Replies come in the order of the requests (C26). Times are those of `CLOCK_MONOTONIC` in
microseconds.
-/
namespace Verif.Super
open Verif.C Verif.Ratelimit

/-- Requests on the global connection whose reply is waited for. -/
inductive Req
  | attach
  | status
  | freq
  | peers
  | wfd
  deriving DecidableEq, Repr

/-- `s->pid`: -1, 0 or a process. -/
inductive Proc
  | off
  | down
  | up
  deriving DecidableEq, Repr

/-- `s->bus_dev`: none, the global connection, or one of its own, with or without its ATTACH unanswered. -/
inductive Dev
  | none
  | shared
  | own (asked : Bool)
  deriving DecidableEq, Repr

/-- What can be observed. -/
inductive Out
  /-- a process was forked -/
  | spawn (t : Nat)
  /-- a process could not be started; the next attempt is `d` later -/
  | spawnFailed (t d : Nat)
  /-- the process was told to terminate -/
  | kill
  /-- the supplicant failed; it will be started again `d` later -/
  | failed (t d : Nat)
  /-- connecting failed; the next attempt is `d` later -/
  | openFailed (t d : Nat)
  /-- a setup request is made (`++s->setup_cnt`) -/
  | asked (r : Req)
  /-- the reply to a setup request was handled -/
  | answered (r : Req)
  /-- the connections are closed -/
  | closed
  /-- `link_supplicant_started` -/
  | started
  /-- `link_supplicant_stopped` -/
  | stopped
  /-- the user starts the supplicant -/
  | userStart
  deriving DecidableEq, Repr

/-- The members of `struct supplicant` (`src/wifi/wifid-supplicant.c:76-104`) that matter here. `timer` is the time the timer
fires, if it is enabled; `child` says that the process is watched; `glob` is the global connection with the requests that
are unanswered; `cnt` is `setup_cnt`. -/
structure Sup where
  proc : Proc
  child : Bool
  timer : Option Nat
  restart : RL
  exec : RL
  openCnt : Nat
  glob : Option (List Req)
  dev : Dev
  cnt : Nat
  hasP2p : Bool
  hasWfd : Bool
  running : Bool
  now : Nat
  log : List Out

/-- `supplicant_new`, `src/wifi/wifid-supplicant.c:2118-2144`. -/
def new (now : Nat) : Sup where
  proc := .off
  child := false
  timer := none
  restart := init 10000000 2
  exec := init 10000000 3
  openCnt := 0
  glob := none
  dev := .none
  cnt := 0
  hasP2p := false
  hasWfd := false
  running := false
  now := now
  log := []

/-- Something visible happens. -/
def Sup.emit (s : Sup) (o : Out) : Sup := { s with log := s.log ++ [o] }

/-- `supplicant_close`, `src/wifi/wifid-supplicant.c:2331-2344`. Requests that are unanswered are dropped with the
connection, without calling their callbacks. -/
def Sup.close (s : Sup) : Sup := { s with glob := none, dev := .none }.emit .closed

/-- The end of `supplicant_stopped`, `src/wifi/wifid-supplicant.c:1919-1922`. -/
def Sup.quit (s : Sup) : Sup := if s.running then { s with running := false }.emit .stopped else s

/-- The process is told to terminate, `src/wifi/wifid-supplicant.c:2367-2375`. -/
def Sup.term (s : Sup) : Sup := if s.proc = .up then s.emit .kill else s

/-- `supplicant_failed`, `src/wifi/wifid-supplicant.c:2346-2383`. -/
def Sup.failed (s : Sup) : Sup :=
  let (rl, ok) := test s.restart s.now
  let d := if ok then 200 * 1000 else 30 * 1000 * 1000
  let s := ({ s with restart := rl, timer := some (s.now + d) }.emit (.failed s.now d)).term
  { s with proc := .down, child := false }.close.quit

/-- `supplicant_try_ready`, `src/wifi/wifid-supplicant.c:1529-1548`. -/
def Sup.tryReady (s : Sup) : Sup :=
  if s.running then s
  else if s.cnt > 0 then s
  else { s with hasWfd := s.hasP2p && s.hasWfd, running := true }.emit .started

/-- `++s->setup_cnt`, without the overflow, which would take 2^64 requests. -/
def Sup.count (s : Sup) (r : Req) : Sup := { s with cnt := s.cnt + 1 }.emit (.asked r)

/-- A request is queued. -/
def Sup.queue (s : Sup) (r : Req) : Sup := { s with glob := s.glob.map (· ++ [r]) }

/-- `supplicant_started`, `src/wifi/wifid-supplicant.c:1864-1899`; `ok` says whether the request could be made. -/
def Sup.begin (s : Sup) (ok : Bool) : Sup :=
  let s := s.count .status
  if ok then (s.queue .status).tryReady else s.failed

/-- What a reply says: it is OK, it is FAIL, it tells of P2P that is not disabled, of wifi-display support, it starts with
an argument. -/
structure Ans where
  ok : Bool
  fail : Bool
  p2p : Bool
  wfd : Bool
  text : Bool
  deriving DecidableEq, Repr

/-- The result of opening the connection for the device, `src/wifi/wifid-supplicant.c:2247-2279`: there is none, it
is used, or something else goes wrong. -/
inductive DevOpen
  | absent
  | used
  | broken
  deriving DecidableEq, Repr

/-- The part of `supplicant_status_fn` for P2P, `src/wifi/wifid-supplicant.c:1724-1806`; `good` is the number of requests that can be made before
one fails, `none` is the path to the label `error`. -/
def Sup.statusP2p (s : Sup) (good : Nat) : Sup × Bool :=
  let s := { s with hasP2p := true }
  if good = 0 then (s, false)
  else
    let s := s.count .freq
    if good = 1 then (s, false)
    else
      let s := (s.queue .freq).count .peers
      if good = 2 then (s, false) else (s.queue .peers, true)

/-- The part of `supplicant_status_fn` for wifi-display, `src/wifi/wifid-supplicant.c:1808-1842`; `ok` says whether the request can be made. -/
def Sup.statusWfd (s : Sup) (ok : Bool) : Sup × Bool :=
  let s := { s with hasWfd := true }.count .wfd
  if ok then (s.queue .wfd, true) else (s, false)

/-- `supplicant_status_fn`, `src/wifi/wifid-supplicant.c:1703-1862`, after `--s->setup_cnt`. -/
def Sup.onStatus (s : Sup) (a : Ans) (good : Nat) : Sup :=
  let r := if a.p2p then s.statusP2p good else (s, true)
  if r.2 = false then r.1.failed
  else
    let q := if a.wfd ∧ r.1.hasP2p then r.1.statusWfd (decide (good > 3 ∨ (good > 0 ∧ a.p2p = false))) else (r.1, true)
    if q.2 = false then q.1.failed else q.1.tryReady

/-- `supplicant_init_p2p_peer_fn`, `src/wifi/wifid-supplicant.c:1568-1641`, after `--s->setup_cnt`. -/
def Sup.onPeers (s : Sup) (a : Ans) (good : Nat) : Sup :=
  if a.fail ∨ a.text = false ∨ good = 0 then s.tryReady else ((s.queue .peers).count .peers).tryReady

/-- `supplicant_set_wifi_display_fn`, `src/wifi/wifid-supplicant.c:1643-1701`, after `--s->setup_cnt`. -/
def Sup.onWfd (s : Sup) (a : Ans) (good : Nat) : Sup :=
  let s := { s with hasWfd := s.hasWfd && a.ok }
  if s.hasWfd ∧ good = 0 then s.failed else s.tryReady

/-- `supplicant_global_attach_fn`, `src/wifi/wifid-supplicant.c:2220-2285`. -/
def Sup.onAttach (s : Sup) (a : Ans) (d : DevOpen) (good : Nat) : Sup :=
  if a.ok = false then s.failed
  else match d with
    | .broken => s.failed
    | .used => { s with dev := .own true }
    | .absent => if good = 0 then { s with dev := .shared }.failed else { s with dev := .shared }.begin (decide (good > 1))

/-- `--s->setup_cnt`. -/
def Sup.uncount (s : Sup) (r : Req) : Sup := { s with cnt := if s.cnt = 0 then W64 - 1 else s.cnt - 1 }.emit (.answered r)

/-- The callback of the first unanswered request on the global connection is called. -/
def Sup.reply (s : Sup) (a : Ans) (d : DevOpen) (good : Nat) : Sup :=
  match s.glob with
  | some (r :: t) =>
    let s := { s with glob := some t }
    match r with
    | .attach => s.onAttach a d good
    | .status => (s.uncount .status).onStatus a good
    | .freq => (s.uncount .freq).tryReady
    | .peers => (s.uncount .peers).onPeers a good
    | .wfd => (s.uncount .wfd).onWfd a good
  | _ => s

/-- `supplicant_dev_attach_fn`, `src/wifi/wifid-supplicant.c:2200-2218`. -/
def Sup.devReply (s : Sup) (a : Ans) (good : Nat) : Sup :=
  match s.dev with
  | .own true => if a.ok then { s with dev := .own false }.begin (decide (good > 0)) else { s with dev := .own false }.failed
  | _ => s

/-- Hang-up of the global connection: `supplicant_global_fn`, `src/wifi/wifid-supplicant.c:2176-2198`. If it is also the
connection of the device, `supplicant_dev_fn` (`src/wifi/wifid-supplicant.c:2157-2174`) is called after it, although it was
removed meanwhile (`wpas__call`, `src/shared/wpas.c:847-866`). -/
def Sup.hup (s : Sup) : Sup :=
  match s.glob with
  | none => s
  | some _ => if s.dev = .shared then s.failed.failed else s.failed

/-- Hang-up of the connection of the device. -/
def Sup.devHup (s : Sup) : Sup :=
  match s.dev with
  | .own _ => s.failed
  | _ => s

/-- The outcome of `supplicant_spawn`, `src/wifi/wifid-supplicant.c:2499-2548`: it works, it fails before the process is forked, or when
it is about to be watched. -/
inductive Spawn
  | ok
  | refused
  | unwatched
  deriving DecidableEq, Repr

/-- `supplicant_spawn`, `src/wifi/wifid-supplicant.c:2499-2548`. -/
def Sup.spawn (s : Sup) (o : Spawn) : Sup × Bool :=
  if s.proc = .up then (s, true)
  else match o with
    | .refused => (s, false)
    | .ok => ({ s with proc := .up, openCnt := 0, child := true }.emit (.spawn s.now), true)
    | .unwatched => ({ s with proc := .up, openCnt := 0, child := false }.emit (.spawn s.now), false)

/-- `supplicant_stop`, `src/wifi/wifid-supplicant.c:2714-2750`. -/
def Sup.stop (s : Sup) : Sup :=
  let s := { s.close with child := false, timer := none }.term
  { s with proc := .off }.quit

/-- `supplicant_start`, `src/wifi/wifid-supplicant.c:2658-2712`; `prep` says whether everything before the first process goes well. -/
def Sup.start (s : Sup) (prep : Bool) (o : Spawn) : Sup :=
  if s.proc ≠ .off then s
  else
    let s := { s with restart := reset s.restart, exec := reset s.exec }.emit .userStart
    if prep = false then s.stop
    else
      let s := { s with timer := some (s.now + 200 * 1000) }
      let r := s.spawn o
      if r.2 then r.1 else r.1.stop

/-- `supplicant_timer_fn`, `src/wifi/wifid-supplicant.c:2550-2609`, with `supplicant_open` (`src/wifi/wifid-supplicant.c:2287-2329`), which is successful if
`opened`. -/
def Sup.fire (s : Sup) (o : Spawn) (opened : Bool) : Sup :=
  match s.proc with
  | .down =>
    let r := s.spawn o
    let s := r.1
    if r.2 then { s with timer := some (s.now + 200 * 1000) }
    else
      let (rl, ok) := test s.exec s.now
      let d := if ok then 1000 * 1000 else 60 * 1000 * 1000
      { s with exec := rl, timer := some (s.now + d) }.emit (.spawnFailed s.now d)
  | .up =>
    if s.running then { s with timer := none }
    else if opened then { s with glob := some [.attach], timer := none }
    else
      let n := min (s.openCnt + 1) 1000
      { s with openCnt := n, timer := some (s.now + n * 200 * 1000) }.emit (.openFailed s.now (n * 200 * 1000))
  | .off => { s with timer := none }

/-- What can happen. -/
inductive Op
  | wait (d : Nat)
  | start (prep : Bool) (o : Spawn)
  | stop
  | fire (o : Spawn) (opened : Bool)
  | exit
  | hup
  | devHup
  | reply (a : Ans) (d : DevOpen) (good : Nat)
  | devReply (a : Ans) (good : Nat)
  deriving DecidableEq, Repr

/-- One event. The timer fires only when it is due, an exit is seen only if the process is watched
(`supplicant_child_fn`, `src/wifi/wifid-supplicant.c:2385-2394`). -/
def Sup.step (s : Sup) : Op → Sup
  | .wait d => { s with now := s.now + d }
  | .start prep o => s.start prep o
  | .stop => s.stop
  | .fire o opened => if s.timer.any (· ≤ s.now) then s.fire o opened else s
  | .exit => if s.child then s.failed else s
  | .hup => s.hup
  | .devHup => s.devHup
  | .reply a d good => s.reply a d good
  | .devReply a good => s.devReply a good

/-- A run. -/
def Sup.run (s : Sup) (ops : List Op) : Sup := ops.foldl Sup.step s

end Verif.Super
