import Verif.Model.Rtsp
/-!
# Model of the stream parser of `src/shared/rtsp.c`

The ring buffer is replaced by the list of its bytes (`ring_is_fifo`); copying more bytes than there are
leaves the rest of the target uninitialised, which is an outcome of its own (`none`) here, as is any use of
a stale header pointer. What the user's callbacks do is an oracle: the value returned, and how many
cookies of the bus they used up by sealing messages, as a function of all messages delivered so far.
-/
namespace Verif.Rtsp
open Verif.C

/-- States of the parser, `src/shared/rtsp.c:73-81`. -/
inductive PState
  | new
  | header
  | headerQuote
  | headerNl
  | body
  | dataHead
  | dataBody
  deriving DecidableEq, Repr

/-- `struct rtsp_parser`, `src/shared/rtsp.c:69-92`. -/
structure Parser where
  m : Option Msg
  ring : List Byte
  buflen : Nat
  state : PState
  lastChr : Byte
  remaining : Nat
  dataSize : Nat
  dataChannel : Nat
  quoted : Bool
  deriving DecidableEq, Repr

/-- The parts of `struct rtsp` (`src/shared/rtsp.c:48-96`) the parser uses, and a ghost list of the messages handed to
`rtsp_incoming_message`. -/
structure Bus where
  cookies : Nat
  dec : Parser
  log : List Msg
  deriving DecidableEq, Repr

/-- The environment: allocator and callbacks. -/
structure Env where
  mv : Moves
  H : List Msg → Msg → Int × Nat

/-- The counter of cookies after `n` seals. -/
def advance : Nat → Nat → Nat
  | 0, c => c
  | n + 1, c => advance n (nextCookie c)

/-- `rtsp_incoming_message`, `src/shared/rtsp.c:2754-2778`: hand a message to the callbacks. -/
def incoming (env : Env) (b : Bus) (m : Msg) : Int × Bus :=
  let r := env.H b.log m
  (if r.1 < 0 then r.1 else 0, { b with cookies := advance r.2 b.cookies, log := b.log ++ [m] })

/-- `dec->state = s`. -/
def Parser.goto (d : Parser) (s : PState) : Parser := { d with state := s }
/-- `++dec->buflen`. -/
def Parser.inc (d : Parser) : Parser := { d with buflen := d.buflen + 1 }
/-- `dec->m = m`. -/
def Parser.setM (d : Parser) (m : Option Msg) : Parser := { d with m := m }
/-- The bus with another parser state. -/
def Bus.put (b : Bus) (d : Parser) : Bus := { b with dec := d }

/-- `shl_ring_copy` of `n` bytes into a fresh block of `n` bytes. -/
def copyOut (d : Parser) (n : Nat) : Option (List Byte) := if n ≤ d.ring.length then some (d.ring.take n) else none

/-- `shl_ring_pull(buf, n)` followed by setting `buflen`. -/
def pull (d : Parser) (n len : Nat) : Parser := { d with ring := d.ring.drop n, buflen := len }

/-- `parser_append_header`, `src/shared/rtsp.c:2075-2115`. The new header is the last of the message, `h == header_clen` holds iff
it became the content length just now. -/
def parserAppendHeader (env : Env) (d : Parser) (m : Msg) (line : List Byte) : Option (Int × Parser) :=
  let r := appendHeaderLine env.mv m line
  let m := r.2
  if r.1 < 0 then some (r.1, { d with m := some m })
  else do
    let h ← m.headers.getLast?
    let me : Ptr := ⟨m.gen, m.headers.length - 1⟩
    if m.clen = some me then
      match h.tokens with
      | [] => some (-EINVAL, { d with m := some m })
      | t :: _ =>
        let a := Atoi.atoiZn t 10
        if a.code < 0 ∨ a.next ≠ t.length then some (-EINVAL, { d with m := some m })
        else some (a.code, { d with m := some m, remaining := a.out })
    else if m.cseq = some me then
      match h.tokens with
      | [] => some (r.1, { d with m := some m })
      | t :: _ =>
        let a := Atoi.atoiZn t 10
        let m' := if 0 ≤ a.code ∧ a.next = t.length ∧ isRemote a.out = false then { m with cookie := remote a.out } else m
        some (a.code, { d with m := some m' })
    else some (r.1, { d with m := some m })

/-- `parser_finish_header_line`, `src/shared/rtsp.c:2117-2137`. -/
def finishHeaderLine (env : Env) (d : Parser) : Option (Int × Parser) := do
  let raw ← copyOut d d.buflen
  let line := Sanitize.Spec.text raw
  match d.m with
  | none =>
    match fromHead line with
    | some m => some (0, { d with m := some m })
    | none => some (-EINVAL, d)
  | some m => parserAppendHeader env d m line

/-- `parser_submit`, `src/shared/rtsp.c:2139-2158`. -/
def submit (env : Env) (b : Bus) : Option (Int × Bus) :=
  match b.dec.m with
  | none => some (0, b)
  | some m => do
    let r ← sealMsg env.mv b.cookies m
    let b := { b.put (b.dec.setM none) with cookies := r.2.1 }
    if r.1 < 0 then some (r.1, b) else some (incoming env b { r.2.2 with isUsed := true })

/-- `parser_submit_data`, `src/shared/rtsp.c:2160-2182`. -/
def submitData (env : Env) (b : Bus) (p : List Byte) : Option (Int × Bus) :=
  match newData b.dec.dataChannel p with
  | none => some (-EINVAL, b)
  | some m => do
    let r ← sealMsg env.mv b.cookies m
    if r.1 < 0 then some (r.1, { b with cookies := r.2.1 })
    else some (incoming env { b with cookies := r.2.1 } { r.2.2 with isUsed := true })

/-- `parser_feed_char_new`, `src/shared/rtsp.c:2184-2222`. -/
def feedNew (d : Parser) (c : Byte) : Parser :=
  if c = 13 ∨ c = 10 ∨ c = 9 ∨ c = ch ' ' then d.inc
  else if c = ch '$' then
    pull { d.goto .dataHead with dataChannel := 0, dataSize := 0 } (d.buflen + 1) 0
  else pull { d.goto .header with remaining := 0 } d.buflen 1

/-- An empty line was seen: finish the header line before it, throw away the buffer and the current character, and
submit the message if there is no body to come; `s0` and `s1` are the states for a message without and with
body. Common part of `src/shared/rtsp.c:2240-2258` and `2276-2294`. -/
def headerEnd (env : Env) (b : Bus) (d : Parser) (s0 s1 : PState) : Option (Int × Bus) := do
  let r ← finishHeaderLine env d
  if r.1 < 0 then some (r.1, b.put r.2)
  else
    let d := pull r.2 (r.2.buflen + 1) 0
    if d.remaining = 0 then submit env (b.put (d.goto s0)) else some (0, b.put (d.goto s1))

/-- A character of a header line was seen, `src/shared/rtsp.c:2327-2335`. -/
def headerChar (d : Parser) (c : Byte) : Parser :=
  if c = ch '"' then { d.inc.goto .headerQuote with quoted := false } else d.inc

/-- `parser_feed_char_header`, `src/shared/rtsp.c:2224-2335`. -/
def feedHeader (env : Env) (b : Bus) (c : Byte) : Option (Int × Bus) :=
  let d := b.dec
  if c = 13 then
    if d.lastChr = 13 ∨ d.lastChr = 10 then headerEnd env b (d.goto .headerNl) .headerNl .headerNl
    else some (0, b.put d.inc)
  else if c = 10 then
    if d.lastChr = 10 then headerEnd env b d .new .body else some (0, b.put d.inc)
  else if c = 9 ∨ c = ch ' ' then some (0, b.put d.inc)
  else if d.lastChr = 13 ∨ d.lastChr = 10 then do
    let r ← finishHeaderLine env d
    if r.1 < 0 then some (r.1, b.put r.2)
    else some (0, b.put (headerChar (pull r.2 r.2.buflen 0) c))
  else some (0, b.put (headerChar d c))

/-- `parser_feed_char_header_quote`, `src/shared/rtsp.c:2337-2356`. -/
def feedQuote (d : Parser) (c : Byte) : Parser :=
  if d.lastChr = ch '\\' ∧ d.quoted = false then { d.inc with quoted := true }
  else if c = ch '"' then { d.inc.goto .header with quoted := false } else { d.inc with quoted := false }

/-- The text of the body goes into the message, which is submitted, `src/shared/rtsp.c:2382-2398`. -/
def bodyDone (env : Env) (b : Bus) : Option (Int × Bus) :=
  match b.dec.m with
  | none => some (0, b)
  | some m => do
    let raw ← copyOut b.dec b.dec.buflen
    let a ← appendBody env.mv m raw
    if 0 ≤ a.1 then submit env (b.put (b.dec.setM (some a.2))) else some (a.1, b.put (b.dec.setM (some a.2)))

/-- Back to the start state with an empty buffer, `src/shared/rtsp.c:2400-2405`, `2487-2492`. -/
def reset (r : Int × Bus) : Int × Bus :=
  (if r.1 < 0 then r.1 else 0, r.2.put (pull (r.2.dec.goto .new) r.2.dec.buflen 0))

/-- `parser_feed_char_body`, `src/shared/rtsp.c:2358-2407`. -/
def feedBody (env : Env) (b : Bus) (c : Byte) : Option (Int × Bus) :=
  if b.dec.remaining = 0 then some (0, b.put (feedNew (b.dec.goto .new) c))
  else
    let d := { b.dec.inc with remaining := b.dec.remaining - 1 }
    if d.remaining ≠ 0 then some (0, b.put d) else (bodyDone env (b.put d)).map reset

/-- `parser_feed_char_header_nl`, `src/shared/rtsp.c:2409-2439`. -/
def feedNl (env : Env) (b : Bus) (c : Byte) : Option (Int × Bus) :=
  if c = 10 then
    some (0, b.put ((pull b.dec (b.dec.buflen + 1) 0).goto (if b.dec.remaining = 0 then .new else .body)))
  else feedBody env (b.put ((pull b.dec b.dec.buflen 0).goto .body)) c

/-- `parser_feed_char_data_head`, `src/shared/rtsp.c:2441-2459`. -/
def feedDataHead (d : Parser) : Option Parser :=
  if 3 ≤ d.buflen + 1 then do
    let x ← copyOut d 3
    let a ← x[0]?
    let b ← x[1]?
    let c ← x[2]?
    some (pull { d.goto .dataBody with dataChannel := a.toNat, dataSize := b.toNat * 256 + c.toNat } (d.buflen + 1) 0)
  else some d.inc

/-- `parser_feed_char_data_body`, `src/shared/rtsp.c:2461-2492`. -/
def feedDataBody (env : Env) (b : Bus) : Option (Int × Bus) :=
  let d := b.dec.inc
  if d.dataSize ≤ d.buflen then do
    let p ← copyOut d d.dataSize
    let r ← submitData env (b.put d) p
    some (reset r)
  else some (0, b.put d)

/-- `parser_feed_char`, `src/shared/rtsp.c:2494-2524`. -/
def feedChar (env : Env) (b : Bus) (c : Byte) : Option (Int × Bus) :=
  match b.dec.state with
  | .new => some (0, b.put (feedNew b.dec c))
  | .header => feedHeader env b c
  | .headerQuote => some (0, b.put (feedQuote b.dec c))
  | .headerNl => feedNl env b c
  | .body => feedBody env b c
  | .dataHead => (feedDataHead b.dec).map fun d => (0, b.put d)
  | .dataBody => feedDataBody env b

/-- The loop of `rtsp_parse_data`, `src/shared/rtsp.c:2549-2555`. -/
def feedLoop (env : Env) (b : Bus) : List Byte → Option (Int × Bus)
  | [] => some (0, b)
  | c :: t => do
    let r ← feedChar env b c
    if r.1 < 0 then some r
    else feedLoop env { r.2 with dec := { r.2.dec with lastChr := c } } t

/-- `rtsp_parse_data`, `src/shared/rtsp.c:2526-2562`. -/
def parseData (env : Env) (b : Bus) (chunk : List Byte) : Option (Int × Bus) :=
  if chunk = [] then some (-EAGAIN, b)
  else do
    let b := { b with dec := { b.dec with buflen := b.dec.ring.length, ring := b.dec.ring ++ chunk } }
    let r ← feedLoop env b chunk
    if r.1 < 0 then some r
    else if r.2.dec.buflen ≠ r.2.dec.ring.length then some (-EFAULT, r.2)
    else some (0, r.2)

/-- Successive reads, `rtsp_read` and `rtsp_io_fn`, `src/shared/rtsp.c:2780-2803`, `2878-2892`: `-EAGAIN` is ignored, any other error
hangs up and ends the stream. The cut into chunks of at most 4096 bytes is the caller's. -/
def reads (env : Env) (b : Bus) : List (List Byte) → Option (Int × Bus)
  | [] => some (0, b)
  | c :: t => do
    let r ← parseData env b c
    if r.1 < 0 ∧ r.1 ≠ -EAGAIN then some r else reads env r.2 t

/-- A bus as `rtsp_open` makes it, `src/shared/rtsp.c:2919-2939`. -/
def openBus : Bus := ⟨0, ⟨none, [], 0, .new, 0, 0, 0, 0, false⟩, []⟩

end Verif.Rtsp
