import Verif.Model.Sink
import Verif.Spec.Wfd
/-!
# What a sink should say to a source
-/
namespace Verif.Sink.Spec
open Verif.C
open Verif.Rtsp (Msg)
open Verif.Rtsp.Spec (named AtRest)

/-- A request as the bus delivers it. -/
def Request (m : Msg) : Prop := AtRest m ∧ m.isUsed = true ∧ m.type = .request

/-- It had a usable CSeq. -/
def numbered (m : Msg) : Prop := Rtsp.isRemote m.cookie = true ∧ m.cookie < W64

/-- Its number. -/
def cseq (m : Msg) : Nat := m.cookie % 9223372036854775808

/-- The first word of a parameter. -/
def word (m : Msg) (name : String) : Option (List Byte) := (named m.bodyHeaders (bytes name)).bind fun h => h.tokens.head?

/-- The whole value of a parameter. -/
def value (m : Msg) (name : String) : Option (List Byte) := (named m.bodyHeaders (bytes name)).map fun h => h.value.getD []

/-- A parameter is mentioned. -/
def mentions (m : Msg) (name : List Byte) : Bool := name ≠ [] ∧ (named m.bodyHeaders name).isSome

/-- End of a line. -/
def nl : List Byte := [13, 10]

/-- Lines. -/
def lines (ls : List (List Byte)) : List Byte := (ls.map (· ++ nl)).flatten

/-- The length and type of a body, if there is one. -/
def about (body : List (List Byte)) : List (List Byte) :=
  if body = [] then [] else [bytes "Content-Length: " ++ dec (lines body).length, bytes "Content-Type: text/parameters"]

/-- A message on the wire: first line, header lines, number, body lines. -/
def message (first : List Byte) (heads : List (List Byte)) (n : Nat) (body : List (List Byte)) : List Byte :=
  first ++ nl ++ lines (heads ++ about body ++ [bytes "CSeq: " ++ dec n]) ++ nl ++ lines body

/-- The reply to the request numbered `n`. -/
def ok (n : Nat) (heads body : List (List Byte)) : List Byte := message (bytes "RTSP/1.0 200 OK") heads n body

/-- A request of the sink. -/
def call (method uri : List Byte) (head : List Byte) (n : Nat) : List Byte :=
  message (method ++ bytes " " ++ uri ++ bytes " RTSP/1.0") [head] n []

/-- A word as it is written: with escapes, and in quotes if it has blanks. -/
def quoted (w : List Byte) : List Byte :=
  let e := w.flatMap fun c => if c = ch '\\' ∨ c = ch '"' then [ch '\\', c] else [c]
  if ∃ c ∈ w, c = 32 ∨ c = 9 ∨ c = 10 ∨ c = 11 then ch '"' :: e ++ [ch '"'] else e

/-- The parameters a sink knows without configuration. -/
def builtin (c : Cfg) (name : List Byte) : Option (List Byte) :=
  if name = bytes "wfd_content_protection" then some (bytes "none")
  else if name = bytes "wfd_video_formats" then
    some (bytes "00 00 03 10 " ++ Rtsp.Spec.hex8 c.cea ++ [32] ++ Rtsp.Spec.hex8 c.vesa ++ [32] ++ Rtsp.Spec.hex8 c.hh ++ bytes " 00 0000 0000 10 none none")
  else if name = bytes "wfd_audio_codecs" then some (bytes "AAC 00000007 00")
  else if name = bytes "wfd_client_rtp_ports" then some (bytes "RTP/AVP/UDP;unicast " ++ decInt c.port ++ bytes " 0 mode=play")
  else if name = bytes "wfd_uibc_capability" then some (bytes "input_category_list=GENERIC;generic_cap_list=Mouse,SingleTouch;hidc_cap_list=none;port=none")
  else none

/-- The value of a parameter: the configured one, or else the built-in one; remote input only if it is wanted. -/
def supported (c : Cfg) (name : List Byte) : Option (List Byte) :=
  if name = bytes "wfd_uibc_capability" ∧ c.uibc = false then none
  else match c.ext.lookup name with
    | some v => some v
    | none => builtin c name

/-- A configuration that does not set what the sink decides itself. -/
def Plain (c : Cfg) : Prop :=
  (c.ext.map (·.1)).Nodup ∧ bytes "wfd_content_protection" ∉ c.ext.map (·.1) ∧ bytes "wfd_client_rtp_ports" ∉ c.ext.map (·.1)

/-- The video formats a message selects: nothing usable, or the three masks; the outer `none` is a number out of range. -/
def formats (m : Msg) : Option (Option (Nat × Nat × Nat)) :=
  (Rtsp.Spec.line m.bodyHeaders (bytes "wfd_video_formats") [.skip, .skip, .skip, .skip, .hex, .hex, .hex]).map fun r =>
    match r with
    | (0, [.nat c, .nat v, .nat h]) => some (c, v, h)
    | _ => none

/-- What a sink does about the masks: go on with or without a resolution, or refuse. -/
inductive Choice (f : Option (Nat × Nat × Nat)) : Option (Nat × Nat) → Bool → Prop
  | nothing : f = none → Choice f none true
  | chosen (c v h x y : Nat) : f = some (c, v, h) → Wfd.Spec.Chosen c v h x y → Choice f (some (x, y)) true
  | refused (c v h : Nat) : f = some (c, v, h) → Wfd.Spec.Nothing Wfd.Spec.cea c → Wfd.Spec.Nothing Wfd.Spec.vesa v → Wfd.Spec.Nothing Wfd.Spec.hh h → Choice f none false

/-- The session a reply names: the first word of its header, without what follows a semicolon. -/
def session (m : Msg) : Option (List Byte) :=
  ((named m.headers (bytes "Session")).bind fun h => h.tokens.head?).map fun w => w.takeWhile (· ≠ ch ';')

/-- A request that triggers SETUP. -/
def triggers (m : Msg) : Bool := m.type = .request ∧ m.method = bytes "SET_PARAMETER" ∧ word m "wfd_trigger_method" = some (bytes "SETUP")

/-- An event that triggers SETUP. -/
def asksSetup : Ev → Bool
  | .msg m => triggers m
  | _ => false

/-- The messages of an event are as the bus delivers them. -/
def Delivered : Ev → Prop
  | .msg m => AtRest m ∧ m.isUsed = true
  | .reply _ (some m) => AtRest m
  | _ => True

/-- The states a sink with this configuration can be in. -/
def Reached (mv : Rtsp.Moves) (c : Cfg) (s : St) : Prop := ∃ es, (∀ e ∈ es, Delivered e) ∧ run mv (new c) es = some s

/-- Parts joined with semicolons. -/
def joined (ps : List (List Byte)) : List Byte := List.intercalate [ch ';'] ps

/-- The texts sent. -/
def sent (l : List Out) : List (List Byte) := l.filterMap fun o => match o with
  | .sent r => some r
  | _ => none

/-- The port is an `int`. -/
def PortOk (c : Cfg) : Prop := -2147483648 ≤ c.port ∧ c.port < 2147483648

/-- The log entry of a resolution. -/
def shown : Option (Nat × Nat) → List Out
  | none => []
  | some (x, y) => [.resolution x y]

/-- One of the requests a sink answers. -/
def Known (m : Msg) : Prop := m.method = bytes "OPTIONS" ∨ m.method = bytes "GET_PARAMETER" ∨ m.method = bytes "SET_PARAMETER"

/-- A text is a request with this method. -/
def isCall (method : String) (t : List Byte) : Bool := t.take (bytes method ++ [32]).length = bytes method ++ [32]

/-- A text is a reply. -/
def isReply (t : List Byte) : Bool := t.take 5 = bytes "RTSP/"

/-- How many replies were sent. -/
def replies (l : List Out) : Nat := (sent l).countP isReply

/-- How many requests with this method were sent. -/
def calls (method : String) (l : List Out) : Nat := ((sent l).filter (isCall method)).length

/-- How often a descriptor was closed. -/
def closes (fd : Nat) (l : List Out) : Nat := l.countP (· = .closed fd)

end Verif.Sink.Spec
