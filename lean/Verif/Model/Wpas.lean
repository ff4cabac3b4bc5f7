import Verif.C.Libc
import Verif.Model.Qstr
import Verif.Model.Str
/-!
# wpa_supplicant control messages

Model of the message part of `src/shared/wpas.c`.  Messages are values; a C string is its bytes without the
terminating NUL.  Allocations succeed and hand out memory with the unspecified contents `jk` (failing
allocations are the subject of C65).  Undefined behaviour is `none`.
-/
namespace Verif.Wpas
open Verif.C

/-- Message types, `src/shared/wpas.h:39-45`. -/
inductive MType
  | unknown
  | event
  | request
  | reply
  deriving DecidableEq, Repr

/-- `struct wpas_message`, `src/shared/wpas.c:52-80`.  `raw` is the memory block `m->raw` points to; `argv`
has `m->argc` entries, the first of which is the name if there is one (`m->name == m->argv[0]`).  The
fields that matter for queueing only are in `Model/WpasBus`; of the peer only its presence is kept. -/
structure Msg where
  type : MType := .unknown
  name : Option (List Byte) := none
  level : Nat := 0
  ifname : Option (List Byte) := none
  argv : List (List Byte) := []
  iter : Nat := 0
  raw : List Byte := []
  rawlen : Nat := 0
  isSealed : Bool := false
  hasPeer : Bool := false
  deriving DecidableEq, Repr

/-- `wpas_message_new`, `src/shared/wpas.c:118-150`. -/
def newMsg (name : Option (List Byte)) : Msg :=
  match name with
  | none => {}
  | some n => { name := some n, argv := [n], iter := 1 }

/-- `wpas_message_new_event`, `src/shared/wpas.c:152-173`; `none` = -EINVAL. -/
def newEvent (name : List Byte) (level : Nat) : Option Msg :=
  if name = [] then none else some { newMsg (some name) with type := .event, level := level }

/-- `wpas_message_new_request`, `src/shared/wpas.c:175-194`; `none` = -EINVAL. -/
def newRequest (name : List Byte) : Option Msg :=
  if name = [] then none else some { newMsg (some name) with type := .request }

/-- `wpas_message_new_reply`, `src/shared/wpas.c:196-213`. -/
def newReply : Msg := { newMsg none with type := .reply }

/-- `wpas_message_new_reply_for`, `src/shared/wpas.c:215-235`; `none` = -EINVAL. -/
def newReplyFor (request : Msg) : Option Msg :=
  if request.hasPeer then some { newReply with hasPeer := true } else none

/-- One character of a format of `wpas_message_append` with its arguments; `none` is a NULL pointer. -/
inductive Arg
  | str (s : Option (List Byte))
  | i32 (i : Int)
  | u32 (n : Nat)
  | dict (k v : Option (List Byte))
  | other
  deriving DecidableEq, Repr

/-- The string stored for an argument by `wpas_message_appendv_basic`, `src/shared/wpas.c:404-435`; `none` =
-EINVAL.  `shl_strjoin` is the subject of C64. -/
def argText : Arg → Option (List Byte)
  | .str s => s
  | .i32 i => some (decInt i)
  | .u32 n => some (dec n)
  | .dict (some k) (some v) => some (k ++ [ch '='] ++ v)
  | .dict _ _ => none
  | .other => none

/-- `wpas_message_appendv_basic`, `src/shared/wpas.c:386-444`. -/
def appendBasic (m : Msg) (a : Arg) : Int × Msg :=
  if m.isSealed then (-EBUSY, m)
  else match argText a with
    | none => (-EINVAL, m)
    | some t => (0, { m with argv := m.argv ++ [t] })

/-- Loop of `wpas_message_appendv`, `src/shared/wpas.c:474-478`. -/
def appendLoop (m : Msg) : List Arg → Int × Msg
  | [] => (0, m)
  | a :: t =>
    let r := appendBasic m a
    if r.1 < 0 then r else appendLoop r.2 t

/-- `wpas_message_appendv`, `src/shared/wpas.c:458-481`. -/
def append (m : Msg) (args : List Arg) : Int × Msg :=
  if m.isSealed then (-EBUSY, m) else appendLoop m args

/-- `wpas_message_seal`, `src/shared/wpas.c:488-519`.  `m->rawlen` is the result of the join, also when
the level has been put in front of the text. -/
def sealMsg (jk : Nat → Byte) (m : Msg) : Option (Int × Msg) :=
  if m.isSealed then some (0, m)
  else do
    let j ← Qstr.join m.argv (some jk) (fun _ => some jk)
    match j with
    | none => some (-ENOMEM, m)
    | some (str, r) =>
      if m.type = .event then do
        let buf := [ch '<'] ++ dec m.level ++ [ch '>']
        let s ← Qstr.cstr str
        let t ← Str.strcat (some buf) (some s) (some jk)
        match t with
        | none => some (-ENOMEM, m)
        | some t => some (0, { m with rawlen := r, raw := t, isSealed := true })
      else some (0, { m with rawlen := r, raw := str, isSealed := true })

/-- The bytes `wpas__send`, `src/shared/wpas.c:1307-1330`, hands to `sendto` (nothing is sent for an empty
message). -/
def wire (m : Msg) : Option (List Byte) := rd m.raw 0 m.rawlen

/-- What a format character asks `wpas_message_read_basic` for. -/
inductive Ty
  | s
  | i
  | u
  | e
  | other
  deriving DecidableEq, Repr

/-- What is stored through the `out` pointer. -/
inductive Val
  | str (s : List Byte)
  | int (i : Int)
  | uint (n : Nat)
  deriving DecidableEq, Repr

/-- The conversion of `wpas_message_read_basic`, `src/shared/wpas.c:529-550`; `some none` = -EINVAL. -/
def convert (entry : List Byte) : Ty → Option (Option Val)
  | .s => some (some (.str entry))
  | .i => (sscanfD entry).map (Option.map .int)
  | .u => (sscanfU entry).map (Option.map .uint)
  | .e =>
    if ch '=' ∈ entry then some (some (.str ((entry.dropWhile (· ≠ ch '=')).drop 1)))
    else some none
  | .other => some none

/-- `wpas_message_read_basic`, `src/shared/wpas.c:521-554`: return code, message, value stored. -/
def readBasic (m : Msg) (ty : Ty) : Option (Int × Msg × Option Val) :=
  match m.argv[m.iter]? with
  | none => some (-EINVAL, m, none)
  | some entry => do
    let v ← convert entry ty
    match v with
    | none => some (-EINVAL, m, none)
    | some v => some (0, { m with iter := m.iter + 1 }, some v)

/-- `wpas_message_read`, `src/shared/wpas.c:556-578`: the values stored. -/
def readAll (m : Msg) : List Ty → Option (Int × Msg × List Val)
  | [] => some (0, m, [])
  | ty :: t => do
    let r ← readBasic m ty
    match r.2.2 with
    | none => some (r.1, r.2.1, [])
    | some v => do
      let r' ← readAll r.2.1 t
      some (r'.1, r'.2.1, v :: r'.2.2)

/-- `wpas_message_skip_basic`, `src/shared/wpas.c:580-612`: as reading, without storing. -/
def skipBasic (m : Msg) (ty : Ty) : Option (Int × Msg) :=
  match m.argv[m.iter]? with
  | none => some (-EINVAL, m)
  | some entry => do
    let v ← convert entry ty
    match v with
    | none => some (-EINVAL, m)
    | some _ => some (0, { m with iter := m.iter + 1 })

/-- `wpas_message_rewind`, `src/shared/wpas.c:630-636`. -/
def rewind (m : Msg) : Msg := { m with iter := if m.name.isSome then 1 else 0 }

/-- `wpas_message_argv_read`, `src/shared/wpas.c:638-673`; `pos` is an `unsigned int`. -/
def argvRead (m : Msg) (pos : Nat) (ty : Ty) : Option (Int × Option Val) :=
  let p := if m.name.isSome then (pos + 1) % W32 else pos
  if m.name.isSome ∧ p = 0 then some (-EINVAL, none)
  else match m.argv[p]? with
    | none => some (-EINVAL, none)
    | some entry =>
      if ty = .e then some (-EINVAL, none)
      else do
        let v ← convert entry ty
        match v with
        | none => some (-EINVAL, none)
        | some v => some (0, some v)

/-- Loop of `wpas_message_dict_read`, `src/shared/wpas.c:686-714`, over the entries from `i` on.
`strncmp(entry, name, l)` is zero iff the first `l` bytes agree; `l` does not reach past the terminator of
`name` then. -/
def dictLoop (name : List Byte) (ty : Ty) : List (List Byte) → Option (Int × Option Val)
  | [] => some (-ENOENT, none)
  | e :: t =>
    if ch '=' ∉ e then dictLoop name ty t
    else
      let l := (e.takeWhile (· ≠ ch '=')).length
      if e.take l ≠ name.take l ∨ name.length ≠ l then dictLoop name ty t
      else if ty = .e then some (-EINVAL, none)
      else do
        let v ← convert (e.drop (l + 1)) ty
        match v with
        | none => some (-EINVAL, none)
        | some v => some (0, some v)

/-- `wpas_message_dict_read`, `src/shared/wpas.c:675-717`. -/
def dictRead (m : Msg) (name : List Byte) (ty : Ty) : Option (Int × Option Val) :=
  dictLoop name ty (m.argv.drop (if m.name.isSome then 1 else 0))

/-- `wpas__parse_args`, `src/shared/wpas.c:719-732`; the arguments are C strings, hence end at a NUL. -/
def parseArgs (m : Msg) (args : List (List Byte)) : Int × Msg :=
  appendLoop m (args.map (fun t => .str (some (t.takeWhile (· ≠ 0)))))

/-- The interface prefix, `wpas__parse_message`, `src/shared/wpas.c:752-760`: the interface and the rest. -/
def ifSplit (d : List Byte) : Option (List Byte) × List Byte :=
  if bytes "IFNAME=" <+: d then
    let p := d.drop 7
    let n := p.takeWhile (fun c => decide (c ≠ ch ' ') && decide (c ≠ 0))
    let q := p.drop n.length
    (some n, if q.head? = some (ch ' ') then q.drop 1 else q)
  else (none, d)

/-- The event branch of `wpas__parse_message`, `src/shared/wpas.c:776-791`; `some none` = no message made.
`args[0]` is NULL if there are no arguments. -/
def parseEvent : List (List Byte) → Option (Option Msg)
  | [] => none
  | t :: args =>
    let lv := t.takeWhile (· ≠ ch '>')
    let name := t.drop (lv.length + 1)
    if ch '>' ∉ t ∨ name = [] then some none
    else do
      let v ← atoi (lv.drop 1)
      let m ← newEvent name (v % W32).toNat
      some (some (parseArgs m args).2)

/-- The request branch of `wpas__parse_message`, `src/shared/wpas.c:800-808`. -/
def parseRequest : List (List Byte) → Option (Option Msg)
  | [] => some none
  | t :: args =>
    if t = [] then some none
    else do
      let m ← newRequest t
      some (some (parseArgs m args).2)

/-- The end of `wpas__parse_message`, `src/shared/wpas.c:810-829`: a message is made if there is none. -/
def finish (orig : List Byte) (len : Nat) (ifname : Option (List Byte)) (m : Option Msg) : Msg :=
  { m.getD (newMsg (some [])) with
    isSealed := true, rawlen := len, raw := orig.takeWhile (· ≠ 0) ++ [0], ifname := ifname,
    hasPeer := true }

/-- `wpas__parse_message`, `src/shared/wpas.c:734-830`, on a datagram of the given bytes (a NUL follows in
the receive buffer).  `some none` is an error. -/
def parse (jk : Nat → Byte) (server : Bool) (d : List Byte) : Option (Option Msg) := do
  let s := ifSplit d
  let isEvent := s.2.head? = some (ch '<')
  let toks ←
    if server = false ∧ ¬ isEvent then Str.strsplitN s.2 [10] (fun _ => ⟨true, true⟩) true
    else Qstr.tokenize s.2 (fun _ => ⟨true, some jk⟩) true
  match toks with
  | none => some none
  | some args => do
    let m ←
      if server = false ∧ isEvent then parseEvent args
      else if server = false then some (some (parseArgs newReply args).2)
      else parseRequest args
    some (some (finish d s.2.length s.1 m))

/-- `wpas__read_message`, `src/shared/wpas.c:1352-1379`: at most `WPAS_MAX_LEN - 1` bytes of a datagram are
read.  `none` inside = nothing is delivered (an empty datagram is ignored). -/
def recv (jk : Nat → Byte) (server : Bool) (d : List Byte) : Option (Option Msg) :=
  if d = [] then some none else parse jk server (d.take 16383)

end Verif.Wpas
