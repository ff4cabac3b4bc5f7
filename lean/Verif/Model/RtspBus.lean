import Verif.Model.Rtsp
/-!
# Model of the bus layer of `src/shared/rtsp.c`: queues, calls, replies, timeouts

A transition system: each API call, each message from the parser, each write, timeout and hang-up is a step. User
callbacks are called last in each of these functions, so what a callback does is the next steps of the
trace. The messages handed in are any `Rtsp.Msg`; the parser is modelled in `Model/RtspParse.lean`, here
the messages it delivers simply arrive.

Simplifications: allocations and timer registrations succeed; messages are never freed, instead following a table entry
whose reference was dropped is undefined (`none`); the address of a message is a number; the order in
which a lookup meets the entries of the table `waiting` is any (each insertion says at which place).
-/
namespace Verif.RtspBus
open Verif.C Verif.Rtsp

/-- A message and the fields of `struct rtsp_message` (`src/shared/rtsp.c:113-170`) the bus uses: `cb` is `cb_fn != NULL`, `timer` tells
that `timer_source` is set and enabled. -/
structure Item where
  msg : Msg
  cb : Bool
  sent : Nat
  isOutgoing : Bool
  isWaiting : Bool
  isSending : Bool
  timer : Bool
  deriving DecidableEq

/-- The parts of `struct rtsp` (`src/shared/rtsp.c:48-96`) used here; `attached` is `event != NULL`. `heap` are the messages, `next` the
first free address. -/
structure St where
  cookies : Nat
  heap : Nat → Option Item
  next : Nat
  outgoing : List Nat
  waiting : List Nat
  dead : Bool
  attached : Bool

/-- What can be seen from outside. -/
inductive Event
  /-- a call was accepted: address, cookie, bytes, with completion callback? -/
  | queued (id cookie : Nat) (raw : List Byte) (cb : Bool)
  /-- an API call returned this -/
  | ret (r : Int)
  /-- some bytes of a message were given to the socket (none if it would block) -/
  | wrote (id : Nat) (bs : List Byte)
  /-- a reply with this number came in -/
  | arrived (cookie : Nat)
  /-- the completion callback of a call ran, with the reply of this number or with NULL -/
  | done (id : Nat) (reply : Option Nat)
  /-- a call was cancelled -/
  | cancel (cookie : Nat)
  /-- the match callbacks were told about the hang-up -/
  | hup
  deriving DecidableEq

/-- Steps. -/
inductive Op
  | create (m : Msg)
  | setCookie (id cookie : Nat)
  | sealIt (id : Nat)
  | callAsync (id : Nat) (cb : Bool) (place : Nat)
  | cancel (cookie : Nat)
  | reply (cookie : Nat)
  | used (n : Nat)
  | write (res : Option Nat)
  | timeout (id : Nat)
  | attach
  | detach
  | hup

/-- A bus as `rtsp_open` makes it, `src/shared/rtsp.c:2919-2939`. -/
def init : St := ⟨0, fun _ => none, 0, [], [], false, false⟩

/-- Change a message. -/
def St.mod (s : St) (id : Nat) (f : Item → Item) : St :=
  { s with heap := fun j => if j = id then (s.heap j).map f else s.heap j }

/-- The message at `id` has this cookie. -/
def St.hasCookie (s : St) (id cookie : Nat) : Bool :=
  match s.heap id with
  | some it => it.msg.cookie = cookie
  | none => false

/-- `shl_htable_lookup_u64(&bus->waiting, cookie, &elem)`. -/
def St.lookup (s : St) (cookie : Nat) : Option Nat := s.waiting.find? (fun j => s.hasCookie j cookie)

/-- `rtsp_link_waiting`, `src/shared/rtsp.c:2680-2717`; the new entry gets the given place in the table. -/
def linkWaiting (s : St) (id place : Nat) : St :=
  { s.mod id (fun it => { it with isWaiting := true, timer := s.attached && it.cb }) with
    waiting := s.waiting.take place ++ id :: s.waiting.drop place }

/-- `rtsp_unlink_waiting`, `src/shared/rtsp.c:2719-2731`, for a message that is waiting. It removes the entry the
table finds for the cookie. -/
def unlinkWaiting (s : St) (id cookie : Nat) : St :=
  { s.mod id (fun it => { it with isWaiting := false, timer := false }) with
    waiting := s.waiting.eraseP (fun j => s.hasCookie j cookie) }

/-- `rtsp_link_outgoing`, `src/shared/rtsp.c:2733-2739`. -/
def linkOutgoing (s : St) (id : Nat) : St :=
  { s.mod id (fun it => { it with isOutgoing := true }) with outgoing := s.outgoing ++ [id] }

/-- `rtsp_unlink_outgoing`, `src/shared/rtsp.c:2741-2752`, for a message that is outgoing. -/
def unlinkOutgoing (s : St) (id : Nat) : St :=
  { s.mod id (fun it => { it with isOutgoing := false, isSending := false }) with outgoing := s.outgoing.erase id }

/-- `rtsp_drop_message`, `src/shared/rtsp.c:3246-3259`: a message that was still in the outgoing queue is not taken out
of the table. -/
def drop (s : St) (id : Nat) (it : Item) : St :=
  if it.isSending = false ∧ it.isOutgoing then unlinkOutgoing s id
  else if it.isWaiting then unlinkWaiting s id it.msg.cookie else s

/-- `rtsp_call_message`, `src/shared/rtsp.c:2579-2597`. -/
def complete (id : Nat) (it : Item) (reply : Option Nat) : List Event := if it.cb then [.done id reply] else []

/-- `rtsp_call_async`, `src/shared/rtsp.c:3197-3244`; `rtsp_send` (3192) is the case without callback. -/
def callAsync (mv : Moves) (s : St) (id : Nat) (it : Item) (cb : Bool) (place : Nat) : Option (St × List Event) :=
  if s.dead ∨ it.msg.cookie = 0 then some (s, [.ret (-EINVAL)])
  else if it.isOutgoing ∨ it.isWaiting ∨ it.msg.isUsed then some (s, [.ret (-EINVAL)])
  else do
    let r ← sealMsg mv s.cookies it.msg
    let s := { s with cookies := r.2.1 }
    let m := r.2.2
    if r.1 < 0 then some (s.mod id (fun it => { it with msg := m }), [.ret r.1])
    else match m.raw with
      | none => some (s.mod id (fun it => { it with msg := m }), [.ret (-EINVAL)])
      | some raw =>
        let s := s.mod id (fun it => { it with msg := { m with isUsed := true }, cb := cb })
        if isRemote m.cookie = true ∧ m.type ≠ .unknown ∧ m.type ≠ .reply then some (s, [.ret (-EINVAL)])
        else if isRemote m.cookie = false ∧ m.type = .reply then some (s, [.ret (-EINVAL)])
        else some (linkOutgoing (linkWaiting s id place) id, [.queued id m.cookie raw cb, .ret 0])

/-- `rtsp_call_async_cancel`, `src/shared/rtsp.c:3261-3274`. -/
def cancel (s : St) (cookie : Nat) : Option (St × List Event) :=
  if cookie = 0 then some (s, [.cancel cookie])
  else match s.lookup cookie with
    | none => some (s, [.cancel cookie])
    | some id => do
      let it ← s.heap id
      if it.isWaiting then some (drop s id it, [.cancel cookie]) else none

/-- `rtsp_call_reply`, `src/shared/rtsp.c:2599-2618`, for a reply with cookie `c` (flag masked out). -/
def reply (s : St) (c : Nat) : Option (St × List Event) :=
  match s.lookup (local_ c) with
  | none => some (s, [.arrived (local_ c)])
  | some id => do
    let it ← s.heap id
    if it.isWaiting then some (drop s id it, .arrived (local_ c) :: complete id it (some (local_ c))) else none

/-- `rtsp_write_message`, `src/shared/rtsp.c:2805-2837`; `res` is what `send` returns, `none` an error. -/
def writeMessage (s : St) (id : Nat) (it : Item) (res : Option Nat) : St × List Event :=
  let raw := it.msg.raw.getD []
  match res with
  | none => (s.mod id (fun it => { it with isSending := true }), [.wrote id []])
  | some n =>
    let n := min n (raw.length - it.sent)
    let s := s.mod id (fun it => { it with isSending := true, sent := it.sent + n })
    let ev := [Event.wrote id ((raw.drop it.sent).take n)]
    if it.sent + n < raw.length then (s, ev)
    else if it.cb = false ∧ it.isWaiting then (unlinkWaiting s id it.msg.cookie, ev)
    else (unlinkOutgoing s id, ev)

/-- `rtsp_write`, `src/shared/rtsp.c:2839-2848`. -/
def write (s : St) (res : Option Nat) : Option (St × List Event) :=
  match s.outgoing with
  | [] => some (s, [])
  | id :: _ => do
    let it ← s.heap id
    some (writeMessage s id it res)

/-- `rtsp_timer_fn`, `src/shared/rtsp.c:2663-2678`. -/
def timeout (s : St) (id : Nat) (it : Item) : St × List Event :=
  (drop (s.mod id (fun it => { it with timer := false })) id { it with timer := false }, complete id it none)

/-- Some entry of the table points to a message whose reference was dropped. -/
def St.stale (s : St) : Bool :=
  s.waiting.any fun j => match s.heap j with
    | some it => !it.isWaiting
    | none => true

/-- `rtsp_attach_event`, `src/shared/rtsp.c:3026-3088`: timers for all waiting calls. -/
def attach (s : St) : Option St :=
  if s.dead ∨ s.attached then some s
  else if s.stale then none
  else some { s with
    attached := true
    heap := fun j => (s.heap j).map fun it => if j ∈ s.waiting ∧ it.cb then { it with timer := true } else it }

/-- `rtsp_detach_event`, `src/shared/rtsp.c:3090-3107`. -/
def detach (s : St) : Option St :=
  if s.attached = false then some s
  else if s.stale then none
  else some { s with
    attached := false
    heap := fun j => (s.heap j).map fun it => if j ∈ s.waiting then { it with timer := false } else it }

/-- `rtsp_hup`, `src/shared/rtsp.c:2653-2661`. -/
def hup (s : St) : Option (St × List Event) :=
  if s.dead then some (s, []) else (detach s).map fun s => ({ s with dead := true }, [.hup])

/-- The cookie counter after `n` messages sealed by the receiver. -/
def advance : Nat → Nat → Nat
  | 0, c => c
  | n + 1, c => advance n (nextCookie c)

/-- One step. API calls on addresses that are no message do nothing. The event loop writes and hangs up only
if it is attached, timers fire if there are any; a reply may still come in after a callback detached the bus, while the parser is working off
what was read, but not after a hang-up, which is the last thing `rtsp_io_fn` does (`src/shared/rtsp.c:2850-2908`). -/
def step (mv : Moves) (s : St) : Op → Option (St × List Event)
  | .create m => some ({ s with
      next := s.next + 1
      heap := fun j => if j = s.next then some ⟨m, false, 0, false, false, false, false⟩ else s.heap j }, [])
  | .setCookie id c =>
    match s.heap id with
    | none => some (s, [])
    | some it => some (s.mod id (fun it => { it with msg := (setCookie it.msg c).2 }), [.ret (setCookie it.msg c).1])
  | .sealIt id =>
    match s.heap id with
    | none => some (s, [])
    | some it => do
      let r ← sealMsg mv s.cookies it.msg
      some ({ s with cookies := r.2.1 }.mod id (fun it => { it with msg := r.2.2 }), [.ret r.1])
  | .callAsync id cb place =>
    match s.heap id with
    | none => some (s, [])
    | some it => callAsync mv s id it cb place
  | .cancel c => cancel s c
  | .reply c => if s.dead then some (s, []) else reply s c
  | .used n => some ({ s with cookies := advance n s.cookies }, [])
  | .write res => if s.attached then write s res else some (s, [])
  | .timeout id =>
    match s.heap id with
    | none => some (s, [])
    | some it => if it.timer then some (timeout s id it) else some (s, [])
  | .attach => (attach s).map fun s => (s, [])
  | .detach => (detach s).map fun s => (s, [])
  | .hup => if s.attached then hup s else some (s, [])

/-- A trace. -/
def exec (mv : Moves) (s : St) : List Op → Option (St × List Event)
  | [] => some (s, [])
  | o :: t => do
    let a ← step mv s o
    let b ← exec mv a.1 t
    some (b.1, a.2 ++ b.2)

end Verif.RtspBus
