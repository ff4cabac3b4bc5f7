import Verif.C.Basic
import Verif.C.Libc
import Verif.Model.Atoi
import Verif.Spec.Qstr
import Verif.Spec.Sanitize
import Verif.Proof.Qstr
/-!
# Model of the message layer of `src/shared/rtsp.c`

Simplifications, for the whole file: allocations succeed; C strings are lists of bytes without NUL;
`shl_qstr_tokenize` is replaced by the function it was proved to compute (`Qstr.Spec.tokens`, theorem
`qstr_tokenize_exact`), `shl_qstr_join` by `Qstr.lineF []` (`Qstr.join_ex`), `sanitize_line` by
`Sanitize.Spec.text` (`sanitize_exact`). `none` is undefined behaviour.
-/
namespace Verif.Rtsp
open Verif.C

/-- `RTSP_FLAG_REMOTE_COOKIE`, `src/shared/rtsp.c:47`. -/
def REMOTE : Nat := 9223372036854775808
/-- `EAGAIN`. -/
def EAGAIN : Int := 11

/-- `cookie & ~RTSP_FLAG_REMOTE_COOKIE`. -/
def local_ (c : Nat) : Nat := c % REMOTE
/-- `cookie | RTSP_FLAG_REMOTE_COOKIE`. -/
def remote (c : Nat) : Nat := c % REMOTE + REMOTE
/-- `cookie & RTSP_FLAG_REMOTE_COOKIE` is not zero (cookies are 64 bit). -/
def isRemote (c : Nat) : Bool := c / REMOTE % 2 = 1

/-- `struct rtsp_header`, `src/shared/rtsp.c:105-113`; the two counters follow from `tokens`, `line_len` from
`line`. -/
structure Header where
  key : List Byte
  value : Option (List Byte)
  tokens : List (List Byte)
  line : Option (List Byte)
  deriving DecidableEq, Repr

/-- A pointer into the header array: the block it was taken from and the index. -/
structure Ptr where
  gen : Nat
  idx : Nat
  deriving DecidableEq, Repr

/-- `RTSP_MESSAGE_*`, `src/shared/rtsp.h:37-43`. -/
inductive MType
  | unknown
  | request
  | reply
  | data
  deriving DecidableEq, Repr

/-- `struct rtsp_message`, `src/shared/rtsp.c:115-170`. `iterHeader` is the pointer `iter_header` as (in body?, index);
no header is appended while it is set. `gen` numbers the blocks `headers` lived in, `hcap` is
`header_cnt`. Reference count, bus, queue and transmission fields are not part of this model. -/
structure Msg where
  type : MType
  cookie : Nat
  major : Nat
  minor : Nat
  head : List Byte
  method : List Byte
  uri : List Byte
  code : Nat
  phrase : List Byte
  channel : Nat
  payload : List Byte
  iterBody : Bool
  iterHeader : Option (Bool × Nat)
  iterToken : Nat
  headers : List Header
  hcap : Nat
  gen : Nat
  clen : Option Ptr
  ctype : Option Ptr
  cseq : Option Ptr
  body : Option (List Byte)
  bodyHeaders : List Header
  raw : Option (List Byte)
  isUsed : Bool
  isSealed : Bool
  deriving DecidableEq, Repr

/-- `rtsp_message_new`, `src/shared/rtsp.c:350-372`. -/
def newMsg : Msg :=
  ⟨.unknown, 0, 1, 0, [], [], [], 0, [], 0, [], false, none, 0, [], 0, 0, none, none, none, none, [], none, false, false⟩

/-- `code_descriptions`, `src/shared/rtsp.c:193-249`, with the numbers of `src/shared/rtsp.h:56-111`. -/
def codeDescriptions : List (Nat × String) :=
  [(100, "Continue"), (200, "OK"), (201, "Created"), (250, "Low on Storage Space"), (300, "Multiple Choices"),
   (301, "Moved Permanently"), (302, "Moved Temporarily"), (303, "See Other"), (304, "Not Modified"),
   (305, "Use Proxy"), (400, "Bad Request"), (401, "Unauthorized"), (402, "Payment Required"),
   (403, "Forbidden"), (404, "Not Found"), (405, "Method not Allowed"), (406, "Not Acceptable"),
   (407, "Proxy Authentication Required"), (408, "Request Time-out"), (410, "Gone"),
   (411, "Length Required"), (412, "Precondition Failed"), (413, "Request Entity Too Large"),
   (414, "Request-URI too Large"), (415, "Unsupported Media Type"), (451, "Parameter not Understood"),
   (452, "Conference not Found"), (453, "Not Enough Bandwidth"), (454, "Session not Found"),
   (455, "Method not Valid in this State"), (456, "Header Field not Valid for Resource"),
   (457, "Invalid Range"), (458, "Parameter is Read-only"), (459, "Aggregate Operation not Allowed"),
   (460, "Only Aggregate Operation Allowed"), (461, "Unsupported Transport"),
   (462, "Destination Unreachable"), (500, "Internal Server Error"), (501, "Not Implemented"),
   (502, "Bad Gateway"), (503, "Service Unavailable"), (504, "Gateway Time-out"),
   (505, "RTSP Version not Supported"), (551, "Option not Supported")]

/-- `get_code_description`, `src/shared/rtsp.c:251-259`. -/
def codeDescription (code : Nat) : List Byte :=
  match codeDescriptions.lookup code with
  | some s => bytes s
  | none => bytes "Internal Error"

/-- `rtsp_message_new_unknown`, `src/shared/rtsp.c:374-396`. -/
def newUnknown (head : List Byte) : Msg := { newMsg with type := .unknown, head := head }

/-- `rtsp_message_new_request_n`, `src/shared/rtsp.c:398-430`: `none` of the inner option is -EINVAL. -/
def newRequest (method uri : List Byte) : Option Msg :=
  if method = [] ∨ uri = [] then none
  else some { newMsg with type := .request, method := method, uri := uri }

/-- `rtsp_message_new_raw_reply`, `src/shared/rtsp.c:448-478`; `RTSP_ANY_CODE` is refused. -/
def newRawReply (code : Nat) (phrase : List Byte) : Option Msg :=
  if code = W32 - 1 then none
  else some { newMsg with type := .reply, code := code, phrase := if phrase = [] then codeDescription code else phrase }

/-- `rtsp_message_new_reply`, `src/shared/rtsp.c:480-501`. -/
def newReply (cookie code : Nat) (phrase : List Byte) : Option Msg :=
  if cookie = 0 then none
  else (newRawReply code phrase).map fun m => { m with cookie := remote cookie }

/-- `rtsp_message_new_reply_for`, `src/shared/rtsp.c:503-524`. -/
def newReplyFor (orig : Msg) (code : Nat) (phrase : List Byte) : Option Msg :=
  if orig.isUsed = false ∨ isRemote orig.cookie = false then none
  else newReply orig.cookie code phrase

/-- `rtsp_message_new_data`, `src/shared/rtsp.c:526-561`; `RTSP_ANY_CHANNEL` is refused. -/
def newData (channel : Nat) (payload : List Byte) : Option Msg :=
  if channel = W32 - 1 then none
  else some { newMsg with type := .data, channel := channel, payload := payload }

/-- `rtsp_header_set_value`, `src/shared/rtsp.c:717-758`; `value` is the string up to its NUL. -/
def setValue (h : Header) (value : List Byte) (vlen : Nat) (force : Bool) : Int × Header :=
  if vlen = 0 ∨ value = [] then (-EINVAL, h)
  else if force = false ∧ (h.value ≠ none ∨ h.tokens ≠ [] ∨ h.line ≠ none) then (-EINVAL, h)
  else (0, { h with value := some (value.take vlen), tokens := Qstr.Spec.tokens value, line := none })

/-- Which calls of `realloc` on a header array move it, by the old number of entries. -/
abbrev Moves := Nat → Bool

/-- `SHL_GREEDY_REALLOC0_T(m->headers, m->header_cnt, m->header_used + 1)`, `src/shared/rtsp.c:785-787`; the sizes are powers of
two from 64 up (see `Str.greedyT`). -/
def grow (mv : Moves) (m : Msg) : Msg :=
  if m.headers.length + 1 ≤ m.hcap then m
  else { m with hcap := if m.hcap = 0 then 64 else 2 * m.hcap, gen := if mv m.hcap then m.gen + 1 else m.gen }

/-- The header `rtsp_message_append_header` makes, `src/shared/rtsp.c:791-801`; `value` up to its NUL, used only if `vlen > 0`. -/
def mkHeader (key value : List Byte) (vlen : Nat) : Int × Header :=
  if vlen ≠ 0 then setValue ⟨key, none, [], none⟩ value vlen true else (0, ⟨key, none, [], none⟩)

/-- The new last header gets counted and, outside of the body, cached if special, `src/shared/rtsp.c:803-814`. -/
def pushHeader (mv : Moves) (m : Msg) (h : Header) : Msg :=
  if m.iterBody then { m with bodyHeaders := m.bodyHeaders ++ [h] }
  else
    let m := grow mv m
    let p : Ptr := ⟨m.gen, m.headers.length⟩
    { m with
      headers := m.headers ++ [h]
      clen := if caseEq h.key (bytes "Content-Length") then some p else m.clen
      ctype := if caseEq h.key (bytes "Content-Type") then some p else m.ctype
      cseq := if caseEq h.key (bytes "Content-Type") then m.cseq
              else if caseEq h.key (bytes "CSeq") then some p else m.cseq }

/-- `rtsp_message_append_header`, `src/shared/rtsp.c:760-818`, with the caller's `h->line = t` (869) as argument
`line`. The new header is the last of its list. -/
def appendHeader (mv : Moves) (m : Msg) (key value : List Byte) (vlen : Nat) (line : Option (List Byte)) : Int × Msg :=
  if m.type = .data then (-EINVAL, m)
  else if (mkHeader key value vlen).1 < 0 then (-ENOMEM, if m.iterBody then m else grow mv m)
  else (0, pushHeader mv m { (mkHeader key value vlen).2 with line := line })

/-- Length without trailing blanks. -/
def rtrimLen (s : List Byte) : Nat := (s.reverse.dropWhile (· = ch ' ')).length

/-- `rtsp_message_append_header_line`, `src/shared/rtsp.c:820-880`. -/
def appendHeaderLine (mv : Moves) (m : Msg) (line : List Byte) : Int × Msg :=
  let key := line.takeWhile (· ≠ ch ':')
  let value := (line.dropWhile (· ≠ ch ':')).drop 1
  let key := key.take (rtrimLen key)
  let vlen := rtrimLen value
  let lead := (value.takeWhile (· = ch ' ')).length
  let lead := if vlen = 0 then 0 else lead
  appendHeader mv m key (value.drop lead) (vlen - lead) (some (line ++ [13, 10]))

/-- `rtsp_header_append_token`, `src/shared/rtsp.c:882-898`. -/
def appendToken (h : Header) (token : List Byte) : Int × Header :=
  if h.line ≠ none ∨ h.value ≠ none then (-EINVAL, h)
  else (0, { h with tokens := h.tokens ++ [token] })

/-- `rtsp_header_serialize`, `src/shared/rtsp.c:900-932`. -/
def serializeHeader (h : Header) : Header :=
  if h.line ≠ none then h
  else
    let v := match h.value with
      | some v => v
      | none => Qstr.lineF [] h.tokens
    { h with value := some v, line := some (h.key ++ bytes ": " ++ v ++ [13, 10]) }

/-- `rtsp_message_append_line`, `src/shared/rtsp.c:934-950`. -/
def appendLine (mv : Moves) (m : Msg) (line : List Byte) : Int × Msg :=
  if m.type = .data then (-EINVAL, m)
  else if m.isSealed then (-EBUSY, m)
  else if m.iterHeader ≠ none then (-EINVAL, m)
  else appendHeaderLine mv m line

/-- `rtsp_message_open_header`, `src/shared/rtsp.c:952-971`. -/
def openHeader (mv : Moves) (m : Msg) (name : List Byte) : Int × Msg :=
  if name = [] ∨ m.type = .data then (-EINVAL, m)
  else if m.isSealed then (-EBUSY, m)
  else if m.iterHeader ≠ none then (-EINVAL, m)
  else
    let r := appendHeader mv m name [] 0 none
    if r.1 < 0 then r
    else (0, { r.2 with iterHeader := some (m.iterBody, if m.iterBody then m.bodyHeaders.length else m.headers.length) })

/-- The header `iter_header` points to. -/
def getIter (m : Msg) : Option Header :=
  match m.iterHeader with
  | none => none
  | some (b, i) => if b then m.bodyHeaders[i]? else m.headers[i]?

/-- Store through `iter_header`. -/
def setIter (m : Msg) (h : Header) : Msg :=
  match m.iterHeader with
  | none => m
  | some (b, i) => if b then { m with bodyHeaders := m.bodyHeaders.set i h } else { m with headers := m.headers.set i h }

/-- `rtsp_message_close_header`, `src/shared/rtsp.c:973-991`. -/
def closeHeader (m : Msg) : Option (Int × Msg) :=
  if m.type = .data then some (-EINVAL, m)
  else if m.isSealed then some (-EBUSY, m)
  else if m.iterHeader = none then some (-EINVAL, m)
  else do
    let h ← getIter m
    some (0, { setIter m (serializeHeader h) with iterHeader := none })

/-- `rtsp_message_open_body`, `src/shared/rtsp.c:993-1005`. -/
def openBody (m : Msg) : Int × Msg :=
  if m.type = .data then (-EINVAL, m)
  else if m.isSealed then (-EBUSY, m)
  else if m.iterHeader ≠ none ∨ m.iterBody then (-EINVAL, m)
  else (0, { m with iterBody := true })

/-- `rtsp_message_close_body`, `src/shared/rtsp.c:1007-1021`. -/
def closeBody (m : Msg) : Int × Msg :=
  if m.type = .data then (-EINVAL, m)
  else if m.isSealed then (-EBUSY, m)
  else if m.iterBody = false then (-EINVAL, m)
  else if m.iterHeader ≠ none then (-EINVAL, m)
  else (0, { m with iterBody := false })

/-- One character of the format of `rtsp_message_append` with its argument, `src/shared/rtsp.h:45-54`. NULL strings are
empty strings here (`src/shared/rtsp.c:1054`, `1083`). -/
inductive Arg
  | raw (s : List Byte)
  | str (s : List Byte)
  | i32 (i : Int)
  | u32 (n : Nat)
  | headerStart (name : List Byte)
  | headerEnd
  | bodyStart
  | bodyEnd
  | other
  deriving DecidableEq, Repr

/-- The part of `rtsp_message_appendv_basic` that adds a token, `src/shared/rtsp.c:1076-1100`. -/
def appendTok (m : Msg) (s : List Byte) : Option (Int × Msg) :=
  if m.iterHeader = none then some (-EINVAL, m)
  else do
    let h ← getIter m
    let r := appendToken h s
    some (r.1, setIter m r.2)

/-- `rtsp_message_appendv_basic`, `src/shared/rtsp.c:1037-1101`. -/
def appendBasic (mv : Moves) (m : Msg) (a : Arg) : Option (Int × Msg) :=
  if m.type = .data then some (-EINVAL, m)
  else if m.isSealed then some (-EBUSY, m)
  else match a with
    | .raw s =>
      if m.iterHeader ≠ none then do
        let h ← getIter m
        let r := setValue h s s.length false
        some (r.1, setIter m r.2)
      else some (appendLine mv m s)
    | .headerStart name => some (openHeader mv m name)
    | .headerEnd => closeHeader m
    | .bodyStart => some (openBody m)
    | .bodyEnd => some (closeBody m)
    | .str s => appendTok m s
    | .i32 i => appendTok m (decInt i)
    | .u32 n => appendTok m (dec n)
    | .other => some (-EINVAL, m)

/-- `rtsp_message_appendv`, `src/shared/rtsp.c:1117-1137`. -/
def append (mv : Moves) (m : Msg) : List Arg → Option (Int × Msg)
  | [] => if m.type = .data then some (-EINVAL, m) else if m.isSealed then some (-EBUSY, m) else some (0, m)
  | a :: t => do
    let r ← appendBasic mv m a
    if r.1 < 0 then some r
    else if t = [] then some (0, r.2) else append mv r.2 t

/-- Replace the value of a special header through the cached pointer, `src/shared/rtsp.c:1208-1218`, `1232-1242`, `1256-1266`: undefined if
the pointer is stale. -/
def rewrite (m : Msg) (p : Ptr) (v : List Byte) : Option Msg :=
  if p.gen = m.gen then do
    let h ← m.headers[p.idx]?
    let r := setValue h v v.length true
    some { m with headers := m.headers.set p.idx (serializeHeader r.2) }
  else none

/-- Concatenation of the lines of headers; undefined if one has none (`stpcpy` from NULL). -/
def lines : List Header → Option (List Byte)
  | [] => some []
  | h :: t => do
    let l ← h.line
    let r ← lines t
    some (l ++ r)

/-- The first line of a message, `src/shared/rtsp.c:1147-1176`. -/
def headLine (m : Msg) : Option (List Byte) :=
  match m.type with
  | .unknown => some (m.head ++ [13, 10])
  | .request => some (m.method ++ [ch ' '] ++ m.uri ++ bytes " RTSP/" ++ dec m.major ++ [ch '.'] ++ dec m.minor ++ [13, 10])
  | .reply => some (bytes "RTSP/" ++ dec m.major ++ [ch '.'] ++ dec m.minor ++ [ch ' '] ++ dec m.code ++ [ch ' '] ++ m.phrase ++ [13, 10])
  | .data => none

/-- Add `name: value` if the message has no such header yet (`p = none`), else overwrite it. -/
def special (mv : Moves) (m : Msg) (p : Option Ptr) (name : List Byte) (v : Arg) (text : List Byte) : Option (Int × Msg) :=
  match p with
  | some p => (rewrite m p text).map fun m => (0, m)
  | none => do
    let c ← closeHeader m
    append mv (closeBody c.2).2 [.headerStart name, v, .headerEnd]

/-- The body as bytes, `src/shared/rtsp.c:1180-1202`. -/
def bodyText (m : Msg) : Option (List Byte) :=
  match m.body with
  | some b => some b
  | none => lines m.bodyHeaders

/-- `rtsp_message_serialize_common`, `src/shared/rtsp.c:1139-1320`. -/
def serializeCommon (mv : Moves) (m : Msg) : Option (Int × Msg) := do
  let head ← headLine m
  let cbody ← bodyText m
  let r ← (if m.clen ≠ none ∨ cbody ≠ [] then
      special mv m m.clen (bytes "Content-Length") (.u32 (cbody.length % W32)) (dec cbody.length)
    else some (0, m))
  if r.1 < 0 then some r
  else do
    let m := r.2
    let r ← (if m.bodyHeaders ≠ [] then
        special mv m m.ctype (bytes "Content-Type") (.str (bytes "text/parameters")) (bytes "text/parameters")
      else some (0, m))
    if r.1 < 0 then some r
    else do
      let m := r.2
      let cs := dec (local_ m.cookie)
      let r ← special mv m m.cseq (bytes "CSeq") (.str cs) cs
      if r.1 < 0 then some r
      else do
        let m := r.2
        let hs ← lines m.headers
        some (0, { m with raw := some (head ++ hs ++ [13, 10] ++ cbody), body := some cbody })

/-- `rtsp_message_serialize_data`, `src/shared/rtsp.c:1322-1346`. -/
def serializeData (m : Msg) : Msg :=
  { m with raw := some ([ch '$', m.channel.toUInt8, (m.payload.length / 256).toUInt8, m.payload.length.toUInt8] ++ m.payload) }

/-- `rtsp_message_set_cookie`, `src/shared/rtsp.c:1348-1360`. -/
def setCookie (m : Msg) (cookie : Nat) : Int × Msg :=
  if m.isSealed then (-EBUSY, m)
  else (0, { m with cookie := if m.type = .reply then remote cookie else local_ cookie })

/-- The next cookie, `++cookies ? : ++cookies`, `src/shared/rtsp.c:1374`. -/
def nextCookie (c : Nat) : Nat := if (c + 1) % W64 = 0 then 1 else (c + 1) % W64

/-- `rtsp_message_seal`, `src/shared/rtsp.c:1362-1398`; `cookies` is the counter of the bus. -/
def sealMsg (mv : Moves) (cookies : Nat) (m : Msg) : Option (Int × Nat × Msg) :=
  if m.isSealed then some (0, cookies, m)
  else if m.iterBody ∨ m.iterHeader ≠ none then some (-EINVAL, cookies, m)
  else do
    let cookies' := if m.cookie = 0 then nextCookie cookies else cookies
    let ck := if m.cookie = 0 then cookies' else m.cookie
    let m := { m with cookie := if m.type = .reply then remote ck else ck }
    if m.type = .data then some (0, cookies', { serializeData m with isSealed := true })
    else do
      let r ← serializeCommon mv m
      if r.1 < 0 then some (r.1, cookies', r.2)
      else some (0, cookies', { r.2 with isSealed := true })

/-! ### Reading a sealed message -/

/-- `rtsp_message_enter_header`, `src/shared/rtsp.c:1400-1430`. -/
def enterHeader (m : Msg) (name : List Byte) : Int × Msg :=
  if name = [] ∨ m.type = .data then (-EINVAL, m)
  else if m.isSealed = false then (-EBUSY, m)
  else if m.iterHeader ≠ none then (-EINVAL, m)
  else
    match (if m.iterBody then m.bodyHeaders else m.headers).findIdx? (fun h => caseEq h.key name) with
    | some i => (0, { m with iterHeader := some (m.iterBody, i), iterToken := 0 })
    | none => (-ENOENT, m)

/-- `rtsp_message_exit_header`, `src/shared/rtsp.c:1432-1440`. -/
def exitHeader (m : Msg) : Msg :=
  if m.isSealed = false ∨ m.type = .data then m else { m with iterHeader := none }

/-- `rtsp_message_enter_body`, `src/shared/rtsp.c:1442-1456`. -/
def enterBody (m : Msg) : Int × Msg :=
  if m.type = .data then (-EINVAL, m)
  else if m.isSealed = false then (-EBUSY, m)
  else if m.iterHeader ≠ none then (-EINVAL, m)
  else if m.iterBody then (-EINVAL, m)
  else (0, { m with iterBody := true })

/-- `rtsp_message_exit_body`, `src/shared/rtsp.c:1458-1467`. -/
def exitBody (m : Msg) : Msg :=
  if m.isSealed = false ∨ m.type = .data ∨ m.iterBody = false then m
  else { m with iterBody := false, iterHeader := none }

/-! ### Message assembly from text -/

/-- `strchr(s, ' ')`: the text before and behind the first blank. -/
def cut (c : Byte) (s : List Byte) : Option (List Byte × List Byte) :=
  match s.dropWhile (· ≠ c) with
  | [] => none
  | _ :: t => some (s.takeWhile (· ≠ c), t)

/-- `RTSP/<major>.<minor>` at the start of `s`; the numbers and the rest. `src/shared/rtsp.c:1741-1758`, `1803-1818`. The return code
of `shl_atoi_u` is not looked at, so a number that does not fit becomes the maximum. -/
def version (s : List Byte) : Option (Nat × Nat × List Byte) :=
  if caseEq (s.take 5) (bytes "RTSP/") = false then none
  else
    let s := s.drop 5
    let a := Atoi.atoiUn s 10
    if a.next = 0 ∨ (s.drop a.next).head? ≠ some (ch '.') then none
    else
      let s := s.drop (a.next + 1)
      let b := Atoi.atoiUn s 10
      if b.next = 0 then none else some (a.out, b.out, s.drop b.next)

/-- `rtsp_message_from_request`, `src/shared/rtsp.c:1702-1781`. -/
def fromRequest (line : List Byte) : Option Msg :=
  let parsed : Option (List Byte × List Byte × Nat × Nat) := do
    let c ← cut (ch ' ') line
    if c.1 = [] then none
    let u ← cut (ch ' ') c.2
    if u.1 = [] then none
    let v ← version u.2
    if v.2.2 ≠ [] then none
    some (c.1, u.1, v.1, v.2.1)
  match parsed with
  | some (c, u, a, b) => (newRequest c u).map fun m => { m with major := a, minor := b }
  | none => some (newUnknown line)

/-- `rtsp_message_from_reply`, `src/shared/rtsp.c:1783-1859`. -/
def fromReply (line : List Byte) : Option Msg :=
  let parsed : Option (Nat × Nat × Nat × List Byte) := do
    let v ← version line
    if v.2.2.head? ≠ some (ch ' ') then none
    let s := v.2.2.drop 1
    let c := Atoi.atoiUn s 10
    if c.next = 0 then none
    let s := s.drop c.next
    if s ≠ [] ∧ s.head? ≠ some (ch ' ') then none
    some (v.1, v.2.1, c.out, s.drop 1)
  match parsed with
  | some (a, b, c, p) => (newRawReply c p).map fun m => { m with major := a, minor := b }
  | none => some (newUnknown line)

/-- `rtsp_message_from_head`, `src/shared/rtsp.c:1861-1872`; `none` is -EINVAL. -/
def fromHead (line : List Byte) : Option Msg :=
  if caseEq (line.take 5) (bytes "RTSP/") then fromReply line else fromRequest line

/-- The non-empty lines of a body, `src/shared/rtsp.c:1926-1944`; CR and LF each end a line (the code means to skip the LF of a
CR LF pair but looks at the wrong byte; the empty line between them is ignored anyway). The byte it looks at may be
the one behind the text: fine for a received body, which has a NUL there. `cur` is the line being collected. -/
def bodyLines : List Byte → List Byte → List (List Byte)
  | cur, [] => if cur = [] then [] else [cur]
  | cur, c :: t =>
    if c = 13 ∨ c = 10 then (if cur = [] then [] else [cur]) ++ bodyLines [] t
    else bodyLines (cur ++ [c]) t

/-- The loop appending the lines of a body, `src/shared/rtsp.c:1946-1963`. -/
def appendBodyLines (mv : Moves) (m : Msg) : List (List Byte) → Int × Msg
  | [] => (0, m)
  | l :: t =>
    let r := appendHeaderLine mv m (Sanitize.Spec.text l)
    if r.1 < 0 then r else appendBodyLines mv r.2 t

/-- The value of the cached content type, `src/shared/rtsp.c:1913-1915`; the outer `none` is a stale pointer. -/
def contentType (m : Msg) : Option (Option (List Byte)) :=
  match m.ctype with
  | none => some none
  | some p => if p.gen = m.gen then (m.headers[p.idx]?).map (fun h => h.value) else none

/-- `rtsp_message_append_body`, `src/shared/rtsp.c:1888-1973`; undefined if the cached pointer to the content type is stale. -/
def appendBody (mv : Moves) (m : Msg) (b : List Byte) : Option (Int × Msg) :=
  if b = [] then some (0, m)
  else do
    let ct ← contentType m
    if ct ≠ some (bytes "text/parameters") then some (0, { m with body := some b })
    else
      let r := openBody m
      if r.1 < 0 then some r
      else
        let r := appendBodyLines mv r.2 (bodyLines [] b)
        if r.1 < 0 then some r else some (closeBody r.2)

end Verif.Rtsp
