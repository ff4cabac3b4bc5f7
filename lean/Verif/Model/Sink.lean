import Verif.Model.RtspRead
import Verif.Spec.RtspRead
import Verif.Model.Wfd
/-!
# Model of the RTSP session of the sink, `src/ctl/ctl-sink.c`

Simplifications, for the whole file: allocations succeed (except where an event says otherwise), so `strdup` copies; debug output is left out; the messages are those of
`Model/Rtsp.lean`, read by `Model/RtspRead.lean`. Of the bus only the counter of cookies and the SETUP calls waiting for a reply are kept; what is handed to `rtsp_call_async` and
accepted is logged. The globals `uibc_enabled` and `uibc_port` are part of the state. `none` is undefined behaviour.
-/
namespace Verif.Sink
open Verif.C
open Verif.Rtsp (Msg Rd Val Arg Moves)

/-- `RTSP_CODE_OK`, `src/shared/rtsp.h:59`. -/
def OK : Nat := 200

/-- What is fixed when a connection is made: `src/ctl/ctl-sink.h:70-77` and the globals `rstp_port` and `uibc_option`. `ext` is `protocol_extensions` in the order of
`g_hash_table_get_keys`; without a table it is empty. -/
structure Cfg where
  cea : Nat
  vesa : Nat
  hh : Nat
  port : Int
  uibc : Bool
  ext : List (List Byte × List Byte)
  deriving DecidableEq, Repr

/-- What can be seen from outside. -/
inductive Out
  /-- these bytes were handed to the bus for sending -/
  | sent (raw : List Byte)
  /-- `ctl_fn_sink_resolution_set` -/
  | resolution (h v : Nat)
  /-- `ctl_fn_sink_connected` -/
  | connected
  /-- `ctl_fn_sink_disconnected` -/
  | disconnected
  /-- `close` of a descriptor -/
  | closed (fd : Nat)
  deriving DecidableEq, Repr

/-- `struct ctl_sink`, `src/ctl/ctl-sink.h:52-78`, with the globals `uibc_enabled`, `uibc_port`. `fd` counts the sockets opened instead of naming descriptors; `bus` is
`rtsp != NULL`; `cookies` and `setups` belong to the bus (its counter, and the cookies of the SETUP requests in its table of waiting messages). -/
structure St where
  cfg : Cfg
  fd : Option Nat
  bus : Bool
  connected : Bool
  hup : Bool
  session : Option (List Byte)
  url : Option (List Byte)
  uibcConfig : Option (List Byte)
  uibcSetting : Option (List Byte)
  hres : Nat
  vres : Nat
  uibcEnabled : Bool
  uibcPort : Int
  cookies : Nat
  setups : List Nat
  opened : Nat
  log : List Out
  deriving DecidableEq, Repr

/-- `ctl_sink_new`, `src/ctl/ctl-sink.c:541-561`, and the initial values of the globals, `src/ctl/sinkctl.c:75-78`. -/
def new (c : Cfg) : St := ⟨c, none, false, false, false, none, none, none, none, 0, 0, false, 0, 0, [], 0, []⟩

/-- Log something. -/
def St.out (s : St) (o : Out) : St := { s with log := s.log ++ [o] }

/-- `rtsp_message_seal` (its result is not looked at) followed by `rtsp_call_async`, `src/shared/rtsp.c:3197-3247`; `setup` says that the callback is `sink_setup_fn`. The message
belongs to this bus and is new, the bus is not dead while its callbacks run, and inserting into the table succeeds. -/
def send (mv : Moves) (s : St) (m : Msg) (setup : Bool) : Option (Int × St) := do
  let a ← Rtsp.sealMsg mv s.cookies m
  let m := a.2.2
  let s := { s with cookies := a.2.1 }
  if s.bus = false ∨ m.cookie = 0 then some (-EINVAL, s)
  else do
    let b ← Rtsp.sealMsg mv s.cookies m
    let m := b.2.2
    let s := { s with cookies := b.2.1 }
    if b.1 < 0 then some (b.1, s)
    else match m.raw with
    | none => some (-EINVAL, s)
    | some raw =>
      if Rtsp.isRemote m.cookie = true ∧ m.type ≠ .unknown ∧ m.type ≠ .reply then some (-EINVAL, s)
      else if Rtsp.isRemote m.cookie = false ∧ m.type = .reply then some (-EINVAL, s)
      else some (0, { s.out (.sent raw) with setups := if setup then s.setups ++ [m.cookie] else s.setups })

/-- `rtsp_message_new_request`, `rtsp_message_append(rep, "<s>", name, value)`, `rtsp_message_seal` and `rtsp_call_async`, as in `src/ctl/ctl-sink.c:58-76`, `193-209`, `338-355`. A NULL
uri is an empty one (`src/shared/rtsp.c:405`). -/
def request (mv : Moves) (s : St) (method uri name value : List Byte) (setup : Bool) : Option (Int × St) :=
  match Rtsp.newRequest method uri with
  | none => some (-EINVAL, s)
  | some q => do
    let a ← Rtsp.append mv q [.headerStart name, .str value, .headerEnd]
    if a.1 < 0 then some (a.1, s) else send mv s a.2 setup

/-- `sink_handle_options`, `src/ctl/ctl-sink.c:32-77`. -/
def handleOptions (mv : Moves) (s : St) (m : Msg) : Option St :=
  match Rtsp.newReplyFor m OK [] with
  | none => some s
  | some rep => do
    let a ← Rtsp.append mv rep [.headerStart (bytes "Public"), .str (bytes "org.wfa.wfd1.0, GET_PARAMETER, SET_PARAMETER"), .headerEnd]
    if a.1 < 0 then some s
    else do
      let r ← send mv s a.2 false
      if r.1 < 0 then some r.2
      else do
        let q ← request mv r.2 (bytes "OPTIONS") (bytes "*") (bytes "Require") (bytes "org.wfa.wfd1.0") false
        some q.2

/-- `check_rtsp_option`, `src/ctl/ctl-sink.c:164-166`: the answer and the message. -/
def asked (m : Msg) (name : List Byte) : Option (Bool × Msg) := do
  let r ← Rtsp.read m [.bodyStart, .headerStart name, .headerEnd, .bodyEnd]
  some (decide (0 ≤ r.1), r.2.1)

/-- `check_and_response_option`, `src/ctl/ctl-sink.h:82-90`: the buffer of 512 bytes takes the text and a NUL. Result code, request and reply. -/
def respond (mv : Moves) (m rep : Msg) (name value : List Byte) : Option (Int × Msg × Msg) := do
  let a ← asked m name
  if a.1 then
    if 512 < (name ++ bytes ": " ++ value).length + 1 then none
    else do
      let r ← Rtsp.append mv rep [.bodyStart, .raw (name ++ bytes ": " ++ value), .bodyEnd]
      some (r.1, a.2, r.2)
  else some (0, a.2, rep)

/-- The uses of `check_and_response_option` one after the other; each returns from the function if it fails. -/
def respondAll (mv : Moves) : List (List Byte × List Byte) → Msg → Msg → Option (Int × Msg)
  | [], _, rep => some (0, rep)
  | p :: ps, m, rep => do
    let r ← respond mv m rep p.1 p.2
    if r.1 < 0 then some (r.1, r.2.2) else respondAll mv ps r.2.1 r.2.2

/-- The default of `wfd_video_formats`, `src/ctl/ctl-sink.c:101-106`. -/
def defaultVideo (c : Cfg) : List Byte :=
  bytes "00 00 03 10 " ++ Rtsp.Spec.hex8 c.cea ++ bytes " " ++ Rtsp.Spec.hex8 c.vesa ++ bytes " " ++ Rtsp.Spec.hex8 c.hh ++ bytes " 00 0000 0000 10 none none"

/-- The default of `wfd_uibc_capability`, `src/ctl/ctl-sink.c:143-146`. -/
def defaultUibc : List Byte := bytes "input_category_list=GENERIC;generic_cap_list=Mouse,SingleTouch;hidc_cap_list=none;port=none"

/-- The options looked for, in order, with their values, `src/ctl/ctl-sink.c:89-154`. -/
def options (c : Cfg) : List (List Byte × List Byte) :=
  [(bytes "wfd_content_protection", bytes "none"),
   (bytes "wfd_video_formats", (c.ext.lookup (bytes "wfd_video_formats")).getD (defaultVideo c)),
   (bytes "wfd_audio_codecs", (c.ext.lookup (bytes "wfd_audio_codecs")).getD (bytes "AAC 00000007 00")),
   (bytes "wfd_client_rtp_ports", bytes "RTP/AVP/UDP;unicast " ++ decInt c.port ++ bytes " 0 mode=play")] ++
  (c.ext.filter fun p => p.1 ≠ bytes "wfd_video_formats" ∧ p.1 ≠ bytes "wfd_audio_codecs" ∧ p.1 ≠ bytes "wfd_uibc_capability").map
    (fun p => (p.1, (c.ext.lookup p.1).getD [])) ++
  (if c.uibc then [(bytes "wfd_uibc_capability", (c.ext.lookup (bytes "wfd_uibc_capability")).getD defaultUibc)] else [])

/-- `sink_handle_get_parameter`, `src/ctl/ctl-sink.c:79-162`. -/
def handleGet (mv : Moves) (s : St) (m : Msg) : Option St :=
  match Rtsp.newReplyFor m OK [] with
  | none => some s
  | some rep => do
    let a ← respondAll mv (options s.cfg) m rep
    if a.1 < 0 then some s
    else do
      let r ← send mv s a.2 false
      some r.2

/-- The pieces `strtok(s, ";")` returns one after the other; `cur` is the piece being collected. -/
def pieces : List Byte → List Byte → List (List Byte)
  | cur, [] => if cur = [] then [] else [cur]
  | cur, c :: t => if c = ch ';' then (if cur = [] then [] else [cur]) ++ pieces [] t else pieces (cur ++ [c]) t

/-- `sscanf(token, fmt, &v)` for a format made of the literal `lit` and `%d`: `-1` if the text ends before the conversion, `0` if it does not match, else `1` and the number. -/
def scanAfter : List Byte → List Byte → Option (Int × Option Int)
  | [], t =>
    if t.dropWhile isSpace = [] then some (-1, none)
    else (sscanfD t).map fun r => match r with
      | none => (0, none)
      | some v => (1, some v)
  | _ :: _, [] => some (-1, none)
  | l :: ls, c :: t => if l = c then scanAfter ls t else some (0, none)

/-- The loop over the pieces, `src/ctl/ctl-sink.c:289-300`; any result but 0 of `sscanf` counts as success. The flag and the port. -/
def scanPorts (opt : Bool) (en : Bool) (port : Int) : List (List Byte) → Option (Bool × Int)
  | [] => some (en, port)
  | t :: ts => do
    let r ← scanAfter (bytes "port=") t
    if r.1 ≠ 0 then some (if opt then true else en, r.2.getD port) else scanPorts opt en port ts

/-- What a new `wfd_uibc_capability` does, `src/ctl/ctl-sink.c:277-303`. That `strtok` cuts the value inside of the message is left out, since nothing reads it again. -/
def setUibc (s : St) (v : List Byte) : Option St :=
  if s.uibcConfig = some v then some s
  else
    let s := { s with uibcConfig := some v }
    if caseEq v (bytes "none") then some { s with uibcEnabled := false }
    else do
      let r ← scanPorts s.cfg.uibc s.uibcEnabled s.uibcPort (pieces [] v)
      some { s with uibcEnabled := r.1, uibcPort := r.2 }

/-- `sink_set_format`, `src/ctl/ctl-sink.c:214-233`, in terms of the model of the resolution tables. -/
def setFormat (s : St) (c v h : Nat) : Option (Int × St) := do
  let r ← Wfd.setFormat ⟨s.hres, s.vres, 0⟩ c v h
  if r.1 < 0 then some (r.1, s)
  else some (r.1, { s.out (.resolution r.2.hres r.2.vres) with hres := r.2.hres, vres := r.2.vres })

/-- The first text a read stored. -/
def text : List Val → List Byte
  | .text t :: _ => t
  | _ => []

/-- The text of a parameter: `rtsp_message_read(m, "{<s>}", name, &v)`; `none` inside if it fails. -/
def param (m : Msg) (name : List Byte) (how : Rd) : Option (Option (List Byte) × Msg) := do
  let r ← Rtsp.read m [.bodyStart, .headerStart name, how, .headerEnd, .bodyEnd]
  some (if r.1 < 0 then none else some (text r.2.2), r.2.1)

/-- The trigger, `src/ctl/ctl-sink.c:332-357`; undefined if the text does not fit the 128 bytes (it does). -/
def trigger (mv : Moves) (s : St) (t : List Byte) : Option St :=
  if t ≠ bytes "SETUP" then some s
  else match s.url with
    | none => some s
    | some u =>
      let v := bytes "RTP/AVP/UDP;unicast;client_port=" ++ decInt s.cfg.port
      if Rtsp.newRequest (bytes "SETUP") u = none then some s
      else if 128 < v.length + 1 then none
      else do
        let r ← request mv s (bytes "SETUP") u (bytes "Transport") v true
        some r.2

/-- The formats of M4, `src/ctl/ctl-sink.c:318-325`: whether to go on, the sink and the message. -/
def takeFormats (s : St) (m : Msg) : Option (Bool × St × Msg) := do
  let f ← Rtsp.read m [.bodyStart, .headerStart (bytes "wfd_video_formats"), .skip, .skip, .skip, .skip, .hex, .hex, .hex, .headerEnd, .bodyEnd]
  match f.1, f.2.2 with
  | 0, [.nat c, .nat v, .nat h] => do
    let r ← setFormat s c v h
    some (decide (r.1 = 0), r.2, f.2.1)
  | _, _ => some (true, s, f.2.1)

/-- The parameters of a SET_PARAMETER request after the reply, `src/ctl/ctl-sink.c:261-357`. -/
def takeParams (mv : Moves) (s : St) (m : Msg) : Option St := do
  let u ← param m (bytes "wfd_presentation_URL") .str
  let s := match u.1 with
    | some v => { s with url := some v }
    | none => s
  let c ← param u.2 (bytes "wfd_uibc_capability") .raw
  let s ← (match c.1 with
    | some v => setUibc s v
    | none => some s)
  let e ← param c.2 (bytes "wfd_uibc_setting") .str
  let s := match e.1 with
    | some v => { s with uibcSetting := some v }
    | none => s
  let f ← takeFormats s e.2
  if f.1 = false then some f.2.1
  else do
    let t ← param f.2.2 (bytes "wfd_trigger_method") .str
    match t.1 with
    | none => some f.2.1
    | some v => trigger mv f.2.1 v

/-- `sink_handle_set_parameter`, `src/ctl/ctl-sink.c:235-358`. -/
def handleSet (mv : Moves) (s : St) (m : Msg) : Option St :=
  match Rtsp.newReplyFor m OK [] with
  | none => some s
  | some rep => do
    let r ← send mv s rep false
    if r.1 < 0 then some r.2 else takeParams mv r.2 m

/-- `sink_handle`, `src/ctl/ctl-sink.c:360-378`; only requests have a method. -/
def handle (mv : Moves) (s : St) (m : Msg) : Option St :=
  if m.type ≠ .request then some s
  else if m.method = bytes "OPTIONS" then handleOptions mv s m
  else if m.method = bytes "GET_PARAMETER" then handleGet mv s m
  else if m.method = bytes "SET_PARAMETER" then handleSet mv s m
  else some s

/-- `sink_close`, `src/ctl/ctl-sink.c:520-535`. The last reference to the bus closes the descriptor of the bus (`src/shared/rtsp.c:3017`), which is the same; if the bus is in use by
its own callbacks that happens a little later. -/
def close (s : St) : St :=
  match s.fd with
  | none => s
  | some f =>
    let s := if s.bus then s.out (.closed f) else s
    { s.out (.closed f) with fd := none, bus := false, connected := false, hup := false, cookies := 0, setups := [] }

/-- The end of `sink_rtsp_fn` and `sink_io`, `src/ctl/ctl-sink.c:391-394`, `460-463`. -/
def finish (s : St) : St := if s.hup then (close s).out .disconnected else s

/-- `sink_rtsp_fn`, `src/ctl/ctl-sink.c:380-397`; without a message the bus is gone. -/
def rtspFn (mv : Moves) (s : St) : Option Msg → Option St
  | none => some (finish { s with hup := true })
  | some m => (handle mv s m).map finish

/-- Up to the first `;`. -/
def untilSemicolon (t : List Byte) : List Byte := t.takeWhile (· ≠ ch ';')

/-- `sink_setup_fn`, `src/ctl/ctl-sink.c:168-212`: the reply to SETUP, or none after a time-out. -/
def setupFn (mv : Moves) (s : St) : Option Msg → Option (Int × St)
  | none => some (-EINVAL, s)
  | some m => do
    let r ← Rtsp.read m [.headerStart (bytes "Session"), .str, .headerEnd]
    if r.1 < 0 then some (r.1, s)
    else
      let ns := untilSemicolon (text r.2.2)
      request mv { s with session := some ns } (bytes "PLAY") (s.url.getD []) (bytes "Session") ns false

/-- `sink_connected`, `src/ctl/ctl-sink.c:403-448`: `soErr` is a failed or failing `getsockopt`, `made` whether bus, event source and match could be set up. If one of the later
two fails, the bus is there nevertheless (`bus` says so). -/
def sinkConnected (s : St) (soErr bus made : Bool) : St :=
  if s.connected ∨ s.hup then s
  else if soErr then { s with hup := true }
  else if bus = false then { s with hup := true }
  else
    let s := { s with bus := true, cookies := 0, setups := [] }
    if made then { s with connected := true }.out .connected else { s with hup := true }

/-- `sink_io`, `src/ctl/ctl-sink.c:450-464`. -/
def io (s : St) (pollOut pollErr soErr bus made : Bool) : St :=
  let s := if pollOut then sinkConnected s soErr bus made else s
  finish (if pollErr then { s with hup := true } else s)

/-- `ctl_sink_connect` and `sink_connect`, `src/ctl/ctl-sink.c:475-518`, `578-604`: `valid` is whether the target is an address, `sock` whether there is a socket, `going` whether connecting and
watching it works. The result code is only success or failure here. -/
def connect (s : St) (valid sock going : Bool) : Bool × St :=
  if s.fd.isSome then (false, s)
  else if valid = false then (false, s)
  else if sock = false then (false, s)
  else if going then (true, { s with fd := some s.opened, opened := s.opened + 1 })
  else (false, { s.out (.closed s.opened) with opened := s.opened + 1 })

/-- What can happen to a sink. -/
inductive Ev
  /-- `ctl_sink_connect` -/
  | connect (valid sock going : Bool)
  /-- `ctl_sink_close` -/
  | close
  /-- the event loop reports the socket -/
  | io (pollOut pollErr soErr bus made : Bool)
  /-- the bus delivers a message that is no reply -/
  | msg (m : Msg)
  /-- the bus is gone -/
  | gone
  /-- the reply to a SETUP that waits, or its time-out -/
  | reply (cookie : Nat) (m : Option Msg)
  /-- the bus uses up a cookie, for a message received without CSeq -/
  | cookie

/-- One event. Events that cannot happen are ignored: the socket is watched only until the connection stands (`src/ctl/ctl-sink.c:411`), the bus calls back only while there is one. A callback
that fails on a message received makes the bus hang up (`src/shared/rtsp.c:2879-2896`). -/
def step (mv : Moves) (s : St) : Ev → Option St
  | .connect v k g => some (connect s v k g).2
  | .close => some (close s)
  | .io o e k b d => if s.fd.isSome ∧ s.connected = false then some (io s o e k b d) else some s
  | .msg m => if s.connected then rtspFn mv s (some m) else some s
  | .gone => if s.connected then rtspFn mv s none else some s
  | .reply c m =>
    if s.connected ∧ c ∈ s.setups then do
      let r ← setupFn mv { s with setups := s.setups.erase c } m
      if r.1 < 0 ∧ m.isSome then rtspFn mv r.2 none else some r.2
    else some s
  | .cookie => some { s with cookies := Rtsp.nextCookie s.cookies }

/-- A run. -/
def run (mv : Moves) (s : St) : List Ev → Option St
  | [] => some s
  | e :: es => (step mv s e).bind fun s => run mv s es

end Verif.Sink
