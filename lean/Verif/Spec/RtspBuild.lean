import Verif.Model.RtspParse
/-!
# What building an RTSP message should do

A document is what the user has written so far. Each call either extends the document or is refused.
-/
namespace Verif.Rtsp.Spec
open Verif.C

/-- A finished header: name, tokens and the line that will be written. -/
structure Field where
  name : List Byte
  tokens : List (List Byte)
  text : List Byte
  deriving DecidableEq, Repr

/-- A header that is open: it has either tokens or one raw value (with the tokens in it), or nothing yet. -/
structure Draft where
  name : List Byte
  tokens : List (List Byte)
  raw : Option (List Byte)
  deriving DecidableEq, Repr

/-- What has been written: finished headers of the head and of the body, whether the body is open, the open header. -/
structure Doc where
  heads : List Field
  body : List Field
  inBody : Bool
  draft : Option Draft
  deriving DecidableEq, Repr

/-- Nothing written. -/
def Doc.empty : Doc := ⟨[], [], false, none⟩

/-- One more finished header, in the open part. -/
def Doc.add (d : Doc) (f : Field) : Doc := if d.inBody then { d with body := d.body ++ [f] } else { d with heads := d.heads ++ [f] }

/-- A whole header line: the name is the text before the colon without blanks at its end. -/
def lineField (s : List Byte) : Field :=
  ⟨((s.takeWhile (· ≠ ch ':')).reverse.dropWhile (· = ch ' ')).reverse, Qstr.Spec.tokens ((s.dropWhile (· ≠ ch ':')).drop 1), s ++ [13, 10]⟩

/-- The header a draft becomes; tokens are written in the quoting of `shl_qstr_join` (C07, C08). -/
def Draft.finish (f : Draft) : Field :=
  ⟨f.name, f.tokens, f.name ++ bytes ": " ++ f.raw.getD (Qstr.lineF [] f.tokens) ++ [13, 10]⟩

/-- A token can be added to an open header without raw value. -/
def addToken (d : Doc) (t : List Byte) : Option Doc :=
  match d.draft with
  | some f => if f.raw = none then some { d with draft := some { f with tokens := f.tokens ++ [t] } } else none
  | none => none

/-- A raw value can be given to an open header that has nothing yet; without open header it is a whole line. -/
def addRaw (d : Doc) (s : List Byte) : Option Doc :=
  match d.draft with
  | some f =>
    if s ≠ [] ∧ f.raw = none ∧ f.tokens = [] then some { d with draft := some { f with raw := some s, tokens := Qstr.Spec.tokens s } } else none
  | none => some (d.add (lineField s))

/-- A header can be opened if none is. -/
def start (d : Doc) (name : List Byte) : Option Doc :=
  if name ≠ [] ∧ d.draft = none then some { d with draft := some ⟨name, [], none⟩ } else none

/-- An open header can be closed. -/
def finishHeader (d : Doc) : Option Doc := d.draft.map fun f => Doc.add { d with draft := none } f.finish

/-- The body can be opened outside of headers and the body. -/
def startBody (d : Doc) : Option Doc := if d.draft = none ∧ d.inBody = false then some { d with inBody := true } else none

/-- The body can be closed if it is open and no header is. -/
def finishBody (d : Doc) : Option Doc := if d.draft = none ∧ d.inBody then some { d with inBody := false } else none

/-- One argument of `rtsp_message_append`; `none`: refused. -/
def write (d : Doc) : Arg → Option Doc
  | .raw s => addRaw d s
  | .str s => addToken d s
  | .i32 i => addToken d (if i < 0 then ch '-' :: dec i.natAbs else dec i.natAbs)
  | .u32 n => addToken d (dec n)
  | .headerStart name => start d name
  | .headerEnd => finishHeader d
  | .bodyStart => startBody d
  | .bodyEnd => finishBody d
  | .other => none

/-- Several arguments: up to the first that is refused. The flag tells whether all were accepted. -/
def writeAll (d : Doc) : List Arg → Bool × Doc
  | [] => (true, d)
  | a :: t =>
    match write d a with
    | some d' => writeAll d' t
    | none => (false, d)

/-- The calls that build a message. -/
inductive Build
  | append (as : List Arg)
  | line (s : List Byte)
  | openHeader (name : List Byte)
  | closeHeader
  | openBody
  | closeBody
  | cookie (c : Nat)
  | finish
  deriving DecidableEq, Repr

/-- The same as calls of the model; the state is the message and the cookie counter of its bus. -/
def call (mv : Moves) (s : Nat × Msg) : Build → Option (Int × Nat × Msg)
  | .append as => (Rtsp.append mv s.2 as).map fun r => (r.1, s.1, r.2)
  | .line l => some ((appendLine mv s.2 l).1, s.1, (appendLine mv s.2 l).2)
  | .openHeader n => some ((Rtsp.openHeader mv s.2 n).1, s.1, (Rtsp.openHeader mv s.2 n).2)
  | .closeHeader => (Rtsp.closeHeader s.2).map fun r => (r.1, s.1, r.2)
  | .openBody => some ((Rtsp.openBody s.2).1, s.1, (Rtsp.openBody s.2).2)
  | .closeBody => some ((Rtsp.closeBody s.2).1, s.1, (Rtsp.closeBody s.2).2)
  | .cookie c => some ((setCookie s.2 c).1, s.1, (setCookie s.2 c).2)
  | .finish => sealMsg mv s.1 s.2

/-- A sequence of calls: the return values and the final state. -/
def calls (mv : Moves) : Nat × Msg → List Build → Option (List Int × Nat × Msg)
  | s, [] => some ([], s)
  | s, b :: t => do
    let r ← call mv s b
    let q ← calls mv r.2 t
    some (r.1 :: q.1, q.2)

/-- Result of a single step that may be refused. -/
def settle (d : Doc) : Option Doc → Int × Doc
  | some d' => (0, d')
  | none => (-EINVAL, d)

/-- What a call should return and write, on a message that is no data frame and not sealed. -/
def expect (d : Doc) : Build → Int × Doc
  | .append as => (if (writeAll d as).1 then 0 else -EINVAL, (writeAll d as).2)
  | .line l => if d.draft = none then (0, d.add (lineField l)) else (-EINVAL, d)
  | .openHeader n => settle d (start d n)
  | .closeHeader => settle d (finishHeader d)
  | .openBody => settle d (startBody d)
  | .closeBody => settle d (finishBody d)
  | .cookie _ => (0, d)
  | .finish => (if d.draft = none ∧ d.inBody = false then 0 else -EINVAL, d)

/-- The answer of a sealed message that is no data frame: it is busy for good, and sealing it again is no error. -/
def expectSealed : Build → Int
  | .openHeader [] => -EINVAL
  | .finish => 0
  | _ => -EBUSY

/-- The answer of a data frame: it has no headers; `busy`: it is sealed. -/
def expectData (busy : Bool) : Build → Int
  | .cookie _ => if busy then -EBUSY else 0
  | .finish => 0
  | _ => -EINVAL

/-- The return values of a sequence of calls, on a message (no data frame) with this document. -/
def expectAll : Bool → Doc → List Build → List Int
  | _, _, [] => []
  | true, d, b :: t => expectSealed b :: expectAll true d t
  | false, d, b :: t => (expect d b).1 :: expectAll (b = .finish ∧ (expect d b).1 = 0) (expect d b).2 t

/-- What has been written by a sequence of calls. -/
def document : Doc → List Build → Doc
  | d, [] => d
  | d, b :: t => document (expect d b).2 t

/-- Whether a sequence of calls has sealed the message. -/
def finished : Doc → List Build → Bool
  | _, [] => false
  | d, b :: t => (b = .finish ∧ (expect d b).1 = 0) || finished (expect d b).2 t

/-- The same on a data frame. -/
def expectFrame : Bool → List Build → List Int
  | _, [] => []
  | busy, b :: t => expectData busy b :: expectFrame (busy || b = .finish) t

/-- The messages the constructors of the library return, no data frames. -/
inductive Made : Msg → Prop
  | unknown (head : List Byte) : Made (newUnknown head)
  | request (method uri : List Byte) (m : Msg) : newRequest method uri = some m → Made m
  | rawReply (code : Nat) (phrase : List Byte) (m : Msg) : newRawReply code phrase = some m → Made m
  | reply (cookie code : Nat) (phrase : List Byte) (m : Msg) : newReply cookie code phrase = some m → Made m
  | replyFor (orig : Msg) (code : Nat) (phrase : List Byte) (m : Msg) : newReplyFor orig code phrase = some m → Made m

/-- What a header shows. -/
def shows (h : Header) : Field := ⟨h.key, h.tokens, h.line.getD []⟩

/-- The open header as the message has it. -/
def Draft.shown (f : Draft) : Header := ⟨f.name, f.raw, f.tokens, none⟩

/-- The message holds this document: finished headers in order, the open header last, nothing else. -/
def Holds (d : Doc) (m : Msg) : Prop :=
  m.isSealed = false ∧ m.raw = none ∧ m.body = none ∧ m.iterBody = d.inBody ∧
  ∃ hs bs : List Header, hs.map shows = d.heads ∧ bs.map shows = d.body ∧ (∀ h ∈ hs ++ bs, h.line ≠ none) ∧
    match d.draft with
    | none => m.iterHeader = none ∧ m.headers = hs ∧ m.bodyHeaders = bs
    | some f =>
      if d.inBody then m.iterHeader = some (true, bs.length) ∧ m.headers = hs ∧ m.bodyHeaders = bs ++ [f.shown]
      else m.iterHeader = some (false, hs.length) ∧ m.headers = hs ++ [f.shown] ∧ m.bodyHeaders = bs

/-- The calls that read a message. -/
inductive Look
  | enterHeader (name : List Byte)
  | exitHeader
  | enterBody
  | exitBody

/-- The same as calls of the model. -/
def look (m : Msg) : Look → Msg
  | .enterHeader n => (Rtsp.enterHeader m n).2
  | .exitHeader => Rtsp.exitHeader m
  | .enterBody => (Rtsp.enterBody m).2
  | .exitBody => Rtsp.exitBody m

/-- Any calls, building or reading; the final state. -/
def mixed (mv : Moves) : Nat × Msg → List (Build ⊕ Look) → Option (Nat × Msg)
  | s, [] => some s
  | s, .inl b :: t => (call mv s b).bind fun r => mixed mv r.2 t
  | s, .inr l :: t => mixed mv (s.1, look s.2 l) t

end Verif.Rtsp.Spec
