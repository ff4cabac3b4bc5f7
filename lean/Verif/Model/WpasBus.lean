import Verif.C.Basic
/-!
# The wpa_supplicant control bus

Model of the queueing part of `src/shared/wpas.c`.  Message objects live in `objs`; a message is named by its
index.  The contents of messages are the subject of `Model/Wpas`; a received datagram is given by its class
(reply or not) and a number that stands for its contents.

A callback of a message is the last thing `wpas_io_fn` does before it drops its reference, so what a
callback does through the API is modelled as operations that follow.  The same holds for match callbacks as
far as the message queue is concerned; the list of matches is the subject of `Model/WpasMatch`.
Memory allocation in `wpas_message_seal` may fail (`sealOk`).  A reply without arguments has no text and
`wpas__send` returns without sending anything; here it counts as written like any other message.
-/
namespace Verif.WpasBus
open Verif.C

/-- `EALREADY`. -/
def EALREADY : Int := 114
/-- `ENOTCONN`. -/
def ENOTCONN : Int := 107

/-- The fields of `struct wpas_message` that matter for queueing, `src/shared/wpas.c:52-80`.  `hasCb` is
`m->cb_fn != NULL`. -/
structure Obj where
  request : Bool
  isSealed : Bool := false
  hasPeer : Bool := false
  queued : Bool := false
  sent : Bool := false
  removed : Bool := false
  cookie : Nat := 0
  hasCb : Bool := false
  deriving DecidableEq, Repr

/-- `struct wpas`, `src/shared/wpas.c:90-112`: `queue` is `msg_list`, `attached` is `w->event != NULL`. -/
structure Bus where
  server : Bool := false
  dead : Bool := false
  attached : Bool := false
  cookies : Nat := 0
  queue : List Nat := []
  objs : List Obj := []
  deriving DecidableEq, Repr

/-- What can be observed. -/
inductive Ev
  /-- `wpas_call_async` has accepted a message and returned a cookie -/
  | called (id cookie : Nat) (hasCb : Bool)
  /-- `wpas_send` has accepted a message -/
  | submitted (id : Nat)
  /-- `wpas_call_async_cancel` was called -/
  | cancelled (cookie : Nat)
  /-- the text of a message went to the socket -/
  | wrote (id : Nat)
  /-- a reply was read from the socket -/
  | got (payload : Nat)
  /-- the callback of a message was called with a reply -/
  | answered (id payload : Nat)
  /-- the matches were called with a message -/
  | event (payload : Nat)
  /-- the matches were called with NULL -/
  | hup
  deriving DecidableEq, Repr

/-- Change the object of a message. -/
def setObj (w : Bus) (id : Nat) (o : Obj) : Bus := { w with objs := w.objs.set id o }

/-- `wpas__link_message`, `src/shared/wpas.c:877-883`. -/
def link (w : Bus) (id : Nat) (o : Obj) : Bus :=
  { setObj w id { o with queued := true } with queue := w.queue ++ [id] }

/-- `wpas__unlink_message`, `src/shared/wpas.c:885-891`. -/
def unlink (w : Bus) (id : Nat) (o : Obj) : Bus :=
  { setObj w id { o with queued := false } with queue := w.queue.erase id }

/-- `m->cookie = ++w->cookies ? : ++w->cookies`, `src/shared/wpas.c:1242`. -/
def nextCookie (c : Nat) : Nat := if (c + 1) % W64 ≠ 0 then (c + 1) % W64 else 1

/-- `wpas_call_async`, `src/shared/wpas.c:1215-1250` (`m->w == w`). -/
def callAsync (w : Bus) (id : Nat) (hasCb sealOk : Bool) : Int × Bus × List Ev :=
  match w.objs[id]? with
  | none => (-EINVAL, w, [])
  | some o =>
    if o.queued ∨ o.sent then (-EALREADY, w, [])
    else if w.server ∨ o.request = false ∨ o.hasPeer then (-EINVAL, w, [])
    else
      let o := { o with hasPeer := true }
      if sealOk = false then (-ENOMEM, setObj w id o, [])
      else
        let c := nextCookie w.cookies
        (0, { link w id { o with isSealed := true, hasCb := hasCb, cookie := c } with cookies := c },
          [.called id c hasCb])

/-- The loop of `wpas_call_async_cancel`, `src/shared/wpas.c:1260-1271`: the first queued message with the
cookie. -/
def findCookie (w : Bus) (cookie : Nat) : Option (Nat × Obj) :=
  w.queue.findSome? (fun id =>
    match w.objs[id]? with
    | some o => if o.cookie = cookie then some (id, o) else none
    | none => none)

/-- `wpas_call_async_cancel`, `src/shared/wpas.c:1252-1272`. -/
def cancel (w : Bus) (cookie : Nat) : Bus × List Ev :=
  if cookie = 0 then (w, [])
  else match findCookie w cookie with
    | none => (w, [.cancelled cookie])
    | some (id, o) =>
      if o.sent then (setObj w id { o with removed := true }, [.cancelled cookie])
      else (unlink w id o, [.cancelled cookie])

/-- `wpas_send`, `src/shared/wpas.c:1274-1305`. -/
def send (w : Bus) (id : Nat) (sealOk : Bool) : Int × Bus × List Ev :=
  match w.objs[id]? with
  | none => (-EINVAL, w, [])
  | some o =>
    if o.queued ∨ o.sent then (-EALREADY, w, [])
    else if o.hasPeer = false ∧ w.server then (-EINVAL, w, [])
    else
      let o := { o with hasPeer := true }
      if sealOk = false then (-ENOMEM, setObj w id o, [])
      else (0, link w id { o with isSealed := true, hasCb := false, cookie := 0 }, [.submitted id])

/-- Outcome of `sendto`. -/
inductive SendRes
  | ok
  | again
  | err
  deriving DecidableEq, Repr

/-- Outcome of `wpas__read_message`: nothing there, an error, or a message. -/
inductive ReadRes
  | again
  | err
  | msg (reply : Bool) (payload : Nat)
  deriving DecidableEq, Repr

/-- `wpas__write`, `src/shared/wpas.c:1332-1350`, with `wpas__send`, `src/shared/wpas.c:1307-1330`; the result
is the outcome of sending. -/
def write (w : Bus) (r : SendRes) : SendRes × Bus × List Ev :=
  match w.queue with
  | [] => (.ok, w, [])
  | id :: _ =>
    match w.objs[id]? with
    | none => (.ok, w, [])
    | some o =>
      if o.sent then (.ok, w, [])
      else if r ≠ .ok then (r, w, [])
      else
        let o := { o with sent := true }
        let w := setObj w id o
        if o.cookie = 0 then (.ok, unlink w id o, [.wrote id]) else (.ok, w, [.wrote id])

/-- `wpas__read`, `src/shared/wpas.c:1381-1412`; the result tells whether reading was an error, came up
empty, or delivered something. -/
def read (w : Bus) (r : ReadRes) : ReadRes × Bus × List Ev :=
  match r with
  | .again => (r, w, [])
  | .err => (r, w, [])
  | .msg false p => (r, w, [.event p])
  | .msg true p =>
    match w.queue with
    | [] => (r, w, [.got p])
    | id :: _ =>
      match w.objs[id]? with
      | none => (r, w, [.got p])
      | some o =>
        if o.sent = false then (r, w, [.got p])
        else if o.removed then (r, unlink w id o, [.got p])
        else if o.hasCb then (r, unlink w id o, [.got p, .answered id p])
        else (r, unlink w id o, [.got p])

/-- `wpas__hup`, `src/shared/wpas.c:1097-1106`. -/
def hangup (w : Bus) : Bus × List Ev :=
  if w.dead then (w, []) else ({ w with dead := true, attached := false }, [.hup])

/-- The end of `wpas_io_fn`, `src/shared/wpas.c:1456-1466`. -/
def ioEnd (w : Bus) (hup : Bool) (wr : SendRes) : Bus × List Ev :=
  if hup ∨ wr = .err then hangup w else (w, [])

/-- The reading part of `wpas_io_fn`, `src/shared/wpas.c:1436-1466`. -/
def ioRead (w : Bus) (inp hup : Bool) (wr : SendRes) (r : ReadRes) : Bus × List Ev :=
  if inp ∨ wr = .err then
    let x := read w r
    match r with
    | .err => let h := hangup x.2.1; (h.1, x.2.2 ++ h.2)
    | .msg _ _ => (x.2.1, x.2.2)
    | .again => let h := ioEnd x.2.1 hup wr; (h.1, x.2.2 ++ h.2)
  else ioEnd w hup wr

/-- `wpas_io_fn`, `src/shared/wpas.c:1414-1467`, for the events in the mask.  It runs only while the bus is
attached to an event loop. -/
def io (w : Bus) (inp out hup : Bool) (s : SendRes) (r : ReadRes) : Bus × List Ev :=
  if w.attached = false then (w, [])
  else
    let x := if out then write w s else (.ok, w, [])
    let y := ioRead x.2.1 inp hup x.1 r
    (y.1, x.2.2 ++ y.2)

/-- `wpas_timer_fn`, `src/shared/wpas.c:1503-1533`. -/
def timer (w : Bus) : Bus × List Ev :=
  if w.attached = false then (w, [])
  else if w.queue = [] then (w, []) else hangup w

/-- `wpas_attach_event`, `src/shared/wpas.c:1531-1597` (event loop calls succeed). -/
def attach (w : Bus) : Int × Bus :=
  if w.dead then (-ENOTCONN, w) else if w.attached then (-EALREADY, w) else (0, { w with attached := true })

/-- Things that happen to a bus. -/
inductive Op
  | newMsg (request : Bool)
  | setPeer (id : Nat) (peer : Bool)
  | sealMsg (id : Nat)
  | call (id : Nat) (hasCb sealOk : Bool)
  | cancel (cookie : Nat)
  | send (id : Nat) (sealOk : Bool)
  | io (inp out hup : Bool) (s : SendRes) (r : ReadRes)
  | timer
  | attach
  | detach
  deriving DecidableEq, Repr

/-- `wpas_message_set_peer`, `src/shared/wpas.c:349-372`: a peer is set, or removed if none is given. -/
def setPeer (w : Bus) (id : Nat) (peer : Bool) : Bus :=
  match w.objs[id]? with
  | none => w
  | some o => if o.isSealed then w else setObj w id { o with hasPeer := peer }

/-- `wpas_message_seal`, `src/shared/wpas.c:488-519`, called by the user. -/
def sealUser (w : Bus) (id : Nat) : Bus :=
  match w.objs[id]? with
  | none => w
  | some o => setObj w id { o with isSealed := true }

/-- One operation. -/
def step (w : Bus) : Op → Bus × List Ev
  | .newMsg request => ({ w with objs := w.objs ++ [{ request := request }] }, [])
  | .setPeer id peer => (setPeer w id peer, [])
  | .sealMsg id => (sealUser w id, [])
  | .call id hasCb sealOk => (callAsync w id hasCb sealOk).2
  | .cancel cookie => cancel w cookie
  | .send id sealOk => (send w id sealOk).2
  | .io inp out hup s r => io w inp out hup s r
  | .timer => timer w
  | .attach => ((attach w).2, [])
  | .detach => ({ w with attached := false }, [])

/-- A run, with what was observed. -/
def run (w : Bus) : List Op → Bus × List Ev
  | [] => (w, [])
  | o :: t =>
    let x := step w o
    let y := run x.1 t
    (y.1, x.2 ++ y.2)

/-- A fresh client (`wpas_open`, `src/shared/wpas.c:1143-1146`) or server (`wpas_create`,
`src/shared/wpas.c:1148-1151`). -/
def start (server : Bool) : Bus := { server := server }

end Verif.WpasBus
