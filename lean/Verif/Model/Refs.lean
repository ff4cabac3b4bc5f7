import Verif.C.Basic
/-!
# Reference counts of busses and messages

Model of how `src/shared/rtsp.c` and `src/shared/wpas.c` keep busses and messages alive.  A message holds a
reference of its bus; the bus holds one reference of a message for each of its queues the message is in.  So
references go round in circles, and `rtsp_unref`/`wpas_unref` look for the case that only those are left.

A wpas bus is a bus whose table of waiting calls is always empty and that has no parser; `wpas_unref`,
`wpas__link_message`, `wpas__unlink_message` and the functions for messages are the same code then
(`src/shared/wpas.c:1161-1215`, `874-892`, `235-253`).

Reading or writing a freed object is undefined (`none`).  Simplifications: the counters `outgoing_cnt` and
`waiting_cnt` are the lengths of the queues; reference counts do not overflow; a message is removed from the
table of waiting calls by its own entry, which is the case if the numbers of waiting calls differ (C22, C23).
-/
namespace Verif.Refs

/-- The fields of `struct rtsp_message` (`src/shared/rtsp.c:113-175`) that matter; `used` is `is_used`. -/
structure Item where
  ref : Nat
  out : Bool := false
  wait : Bool := false
  used : Bool := false
  deriving DecidableEq, Repr

/-- A bus with the memory of its messages; `alive`: it has not been freed. -/
structure St where
  bref : Nat
  alive : Bool
  heap : Nat → Option Item
  outgoing : List Nat
  waiting : List Nat
  parser : Option Nat

def St.set (s : St) (m : Nat) (it : Option Item) : St := { s with heap := fun j => if j = m then it else s.heap j }

/-- `rtsp_open`, `src/shared/rtsp.c:2919-2939`; `wpas_new`, `src/shared/wpas.c:1108-1141`. -/
def opened : St := ⟨1, true, fun _ => none, [], [], none⟩

/-- `rtsp_ref`, `src/shared/rtsp.c:2941-2947`. -/
def busRef (s : St) : Option St :=
  if s.alive = false then none
  else if s.bref = 0 then some s
  else some { s with bref := s.bref + 1 }

/-- `rtsp_message_new`, `src/shared/rtsp.c:350-372`, at the free address `m`. -/
def newMsg (s : St) (m : Nat) : Option St := (busRef s).map fun s => s.set m (some { ref := 1 })

/-- `rtsp_message_ref`, `src/shared/rtsp.c:563-569`. -/
def msgRef (s : St) (m : Nat) : Option St :=
  match s.heap m with
  | none => none
  | some it => if it.ref = 0 then some s else some (s.set m (some { it with ref := it.ref + 1 }))

/-- `rtsp_message_unref`, `src/shared/rtsp.c:571-605`; `u` is `rtsp_unref`. -/
def msgUnref (u : St → Option St) (s : St) (m : Nat) : Option St :=
  match s.heap m with
  | none => none
  | some it =>
    if it.ref = 0 then some s
    else if it.ref - 1 ≠ 0 then some (s.set m (some { it with ref := it.ref - 1 }))
    else (u (s.set m (some { it with ref := 0 }))).map fun s => s.set m none

/-- `rtsp_unlink_outgoing`, `src/shared/rtsp.c:2741-2752`. -/
def unlinkOut (u : St → Option St) (s : St) (m : Nat) : Option St :=
  match s.heap m with
  | none => none
  | some it =>
    if it.out = false then some s
    else if s.alive = false then none
    else msgUnref u ({ s with outgoing := s.outgoing.erase m }.set m (some { it with out := false })) m

/-- `rtsp_unlink_waiting`, `src/shared/rtsp.c:2719-2731`. -/
def unlinkWait (u : St → Option St) (s : St) (m : Nat) : Option St :=
  match s.heap m with
  | none => none
  | some it =>
    if it.wait = false then some s
    else if s.alive = false then none
    else msgUnref u ({ s with waiting := s.waiting.erase m }.set m (some { it with wait := false })) m

/-- The loop that empties the queue, `src/shared/rtsp.c:2989-2994`; the number bounds the rounds. -/
def emptyOut (u : St → Option St) : Nat → St → Option St
  | n, s =>
    if s.alive = false then none
    else match s.outgoing, n with
      | [], _ => some s
      | _ :: _, 0 => none
      | m :: _, n + 1 => (unlinkOut u s m).bind (emptyOut u n)

/-- The loop that empties the table, `src/shared/rtsp.c:2996-2997`; the number bounds the rounds. -/
def emptyWait (u : St → Option St) : Nat → St → Option St
  | n, s =>
    if s.alive = false then none
    else match s.waiting, n with
      | [], _ => some s
      | _ :: _, 0 => none
      | m :: _, n + 1 => (unlinkWait u s m).bind (emptyWait u n)

/-- The search for messages with other references, `src/shared/rtsp.c:2971-2987`. -/
def quiet (s : St) : List Nat → Option Bool
  | [] => some true
  | m :: t =>
    match s.heap m with
    | none => none
    | some it => if it.ref > 1 then some false else quiet s t

/-- The message being parsed is dropped, `src/shared/rtsp.c:2999-3000`. -/
def dropParser (u : St → Option St) (s : St) : Option St :=
  match s.parser with
  | none => some s
  | some p => (msgUnref u s p).bind fun s => if s.alive = false then none else some { s with parser := none }

/-- The three together, `src/shared/rtsp.c:2988-3001`. -/
def dropAll (u : St → Option St) (s : St) : Option St :=
  ((emptyOut u s.outgoing.length s).bind fun s => emptyWait u s.waiting.length s).bind (dropParser u)

/-- The search for the last reference, `src/shared/rtsp.c:2965-3002`. -/
def collect (u : St → Option St) (s : St) : Option St :=
  if s.bref ≤ s.outgoing.length + s.waiting.length + 1 + (if s.parser.isSome then 1 else 0) then
    (quiet s (s.outgoing ++ s.waiting)).bind fun q => if q then dropAll u s else some s
  else some s

/-- The end of `rtsp_unref`, `src/shared/rtsp.c:3004-3019`.  Messages that are left would refer to freed
memory; that is counted as undefined here. -/
def release (s : St) : Option St :=
  if s.alive = false then none
  else if s.bref = 0 then some s
  else if s.bref - 1 ≠ 0 then some { s with bref := s.bref - 1 }
  else if s.outgoing ≠ [] ∨ s.waiting ≠ [] ∨ s.parser.isSome then none
  else some { s with bref := 0, alive := false }

/-- `rtsp_unref`, `src/shared/rtsp.c:2949-3019`; it is called again for each message that is freed.  The
number bounds the depth of these calls. -/
def unref : Nat → St → Option St
  | 0, _ => none
  | f + 1, s =>
    if s.alive = false then none
    else if s.bref = 0 then some s
    else (collect (unref f) s).bind release

/-- `rtsp_call_async`, `src/shared/rtsp.c:3197-3244`, from `m->is_used = true` on; `ok`: the table takes the entry.
`wpas_call_async`, `src/shared/wpas.c:1217-1255`, and `wpas_send` queue only (`wpas`); they refuse a message that
was sent before, which is not modelled (more is possible here). -/
def call (wpas ok : Bool) (s : St) (m : Nat) : Option St :=
  match s.heap m with
  | none => none
  | some it =>
    if s.alive = false then none
    else if it.out ∨ it.wait ∨ it.ref = 0 ∨ (wpas = false ∧ it.used) then some s
    else if wpas then
      some ({ s with outgoing := s.outgoing ++ [m] }.set m (some { it with used := true, out := true, ref := it.ref + 1 }))
    else if ok = false then some (s.set m (some { it with used := true }))
    else
      some ({ s with outgoing := s.outgoing ++ [m], waiting := m :: s.waiting }.set m
        (some { it with used := true, out := true, wait := true, ref := it.ref + 2 }))

/-- `rtsp_drop_message`, `src/shared/rtsp.c:3246-3260`; only one of the links is removed. -/
def drop (u : St → Option St) (sending : Bool) (s : St) (m : Nat) : Option St :=
  match s.heap m with
  | none => none
  | some it =>
    if sending = false ∧ it.out then unlinkOut u s m else unlinkWait u s m

/-- What `rtsp_write_message`, `src/shared/rtsp.c:2826-2834`, does after the last byte; `cb`: there is a
callback.  `wpas__write`, `src/shared/wpas.c:1332-1350`, and `wpas__read` unlink the message (`cb` is true then). -/
def written (u : St → Option St) (cb : Bool) (s : St) (m : Nat) : Option St :=
  match s.heap m with
  | none => none
  | some it => if cb = false ∧ it.wait then unlinkWait u s m else unlinkOut u s m

/-- The parser starts a message at the free address `m`, `src/shared/rtsp.c:2131-2132`. -/
def parse (s : St) (m : Nat) : Option St :=
  if s.alive = false then none
  else if s.parser.isSome then some s
  else (newMsg s m).map fun s => { s with parser := some m }

/-- `parser_submit`, `src/shared/rtsp.c:2139-2158`: the message is taken from the parser; the caller drops it at the end. -/
def submit (s : St) : Option (St × Option Nat) :=
  if s.alive = false then none else some ({ s with parser := none }, s.parser)

end Verif.Refs
