import Verif.Model.RtspParse
/-!
# What a user sends over an RTSP connection and what should arrive

Items as the user gives them, the API calls that make a sealed message of them, the items that can be
sent, and what the other side should see.
-/
namespace Verif.Rtsp.Spec
open Verif.C

/-- A header: its name and its tokens. -/
abbrev Hdr := List Byte × List (List Byte)

/-- Something to send. The first list of headers is for the head, the second for the body. -/
inductive Item
  | request (method uri : List Byte) (hs bs : List Hdr)
  | reply (cookie code : Nat) (phrase : List Byte) (hs bs : List Hdr)
  | data (channel : Nat) (payload : List Byte)

/-- The arguments of `rtsp_message_append` for a header: `"<sss>"`. -/
def hdrArgs (h : Hdr) : List Arg := [.headerStart h.1] ++ h.2.map .str ++ [.headerEnd]

/-- The arguments of `rtsp_message_append` for all headers: `"<ss><s>{<s><s>}"`. -/
def hdrsArgs (hs bs : List Hdr) : List Arg :=
  hs.flatMap hdrArgs ++ (if bs = [] then [] else [.bodyStart] ++ bs.flatMap hdrArgs ++ [.bodyEnd])

/-- The message, sealed on a bus whose cookie counter is `ck`. -/
def sealed (mv : Moves) (ck : Nat) (m : Msg) : Option (Nat × Msg) :=
  match sealMsg mv ck m with
  | some (0, ck, m) => some (ck, m)
  | _ => none

/-- The message with these headers, sealed. -/
def finish (mv : Moves) (ck : Nat) (hs bs : List Hdr) (m : Msg) : Option (Nat × Msg) :=
  match append mv m (hdrsArgs hs bs) with
  | some (0, m) => sealed mv ck m
  | _ => none

/-- The sealed message for an item; `none` if a call fails. -/
def make (mv : Moves) (ck : Nat) : Item → Option (Nat × Msg)
  | .request method uri hs bs => (newRequest method uri).bind (finish mv ck hs bs)
  | .reply cookie code phrase hs bs => (newReply cookie code phrase).bind (finish mv ck hs bs)
  | .data channel payload => (newData channel payload).bind (sealed mv ck)

/-- The sealed messages for some items, one after the other on one bus. -/
def makeAll (mv : Moves) : Nat → List Item → Option (List Msg)
  | _, [] => some []
  | ck, i :: t => (make mv ck i).bind fun r => (makeAll mv r.1 t).map (r.2 :: ·)

/-- The bytes of sealed messages. -/
def stream (ms : List Msg) : List Byte := (ms.map (fun m => m.raw.getD [])).flatten

/-- No NUL, no white space, no double quote. -/
def Word (w : List Byte) : Prop :=
  w ≠ [] ∧ ∀ c ∈ w, c ≠ 0 ∧ c ≠ ch ' ' ∧ c ≠ 9 ∧ c ≠ 10 ∧ c ≠ 13 ∧ c ≠ ch '"'

/-- A token that survives. If it has no blank, tab, LF or VT it is written without quotes and must not have CR or
quotes. -/
def TokenOk (t : List Byte) : Prop :=
  t ≠ [] ∧ (0 : Byte) ∉ t ∧
  ((∀ c ∈ t, c ≠ ch ' ' ∧ c ≠ 9 ∧ c ≠ 10 ∧ c ≠ 11) → ∀ c ∈ t, c ≠ 13 ∧ c ≠ ch '"' ∧ c ≠ ch '\'')

/-- A header that survives: the name is a word without colon, there is a token. -/
def HdrOk (h : Hdr) : Prop := Word h.1 ∧ ch ':' ∉ h.1 ∧ h.2 ≠ [] ∧ ∀ t ∈ h.2, TokenOk t

/-- The names the serialiser fills in itself. -/
def reserved : List (List Byte) := [bytes "Content-Length", bytes "Content-Type", bytes "CSeq"]

/-- Headers and body headers that survive. Lines of the body end at CR or LF, quoted or not. -/
def HdrsOk (hs bs : List Hdr) : Prop :=
  (∀ h ∈ hs, HdrOk h ∧ ∀ r ∈ reserved, caseEq h.1 r = false) ∧
  (∀ h ∈ bs, HdrOk h ∧ ∀ t ∈ h.2, (13 : Byte) ∉ t ∧ (10 : Byte) ∉ t) ∧
  (bs.map (fun h => h.1.length + 4 + (h.2.map (fun t => 2 * t.length + 3)).sum)).sum < W32

/-- A reason phrase that survives: words separated by single blanks, quotes closed. -/
def PhraseOk (p : List Byte) : Prop := Sanitize.Spec.text p = p ∧ Sanitize.Spec.endMode .plain p = .plain

/-- An item that can be sent. -/
def Sendable : Item → Prop
  | .request method uri hs bs =>
    Word method ∧ Word uri ∧ method.head? ≠ some (ch '$') ∧ caseEq (method.take 5) (bytes "RTSP/") = false ∧ HdrsOk hs bs
  | .reply cookie code phrase hs bs => cookie ≠ 0 ∧ code < W32 - 1 ∧ PhraseOk phrase ∧ HdrsOk hs bs
  | .data channel payload => channel < 256 ∧ payload ≠ [] ∧ payload.length < 65536

instance : DecidablePred Word := fun w => by unfold Word; infer_instance
instance : DecidablePred TokenOk := fun w => by unfold TokenOk; infer_instance
instance : DecidablePred HdrOk := fun w => by unfold HdrOk; infer_instance
instance (hs bs : List Hdr) : Decidable (HdrsOk hs bs) := by unfold HdrsOk; infer_instance
instance : DecidablePred PhraseOk := fun w => by unfold PhraseOk; infer_instance
instance : DecidablePred Sendable := fun w => by unfold Sendable; cases w <;> infer_instance

/-- The number of headers an item has. -/
def headerCount : Item → Nat
  | .request _ _ hs _ => hs.length
  | .reply _ _ _ hs _ => hs.length
  | .data _ _ => 0

/-- The headers the serialiser adds to a message with body `b` and CSeq `n`. -/
def extra (bs : List Hdr) (b : List Byte) (n : Nat) : List Hdr :=
  (if bs = [] then [] else [(bytes "Content-Length", [dec b.length]), (bytes "Content-Type", [bytes "text/parameters"])]) ++
  [(bytes "CSeq", [dec n])]

/-- The name and the tokens of a header. -/
def view (h : Header) : Hdr := (h.key, h.tokens)

/-- `x` carries these headers and the body of `s`. -/
def SameHeaders (hs bs : List Hdr) (s x : Msg) : Prop :=
  ∃ b n, s.body = some b ∧ x.body = some b ∧
    n = local_ s.cookie ∧ x.cookie = remote n ∧
    x.headers.map view = hs ++ extra bs b n ∧
    x.bodyHeaders.map view = bs ∧
    x.headers.map Header.line = s.headers.map Header.line ∧
    x.bodyHeaders.map Header.line = s.bodyHeaders.map Header.line

/-- Nothing of it is entered: it is read from its start. -/
def Unread (x : Msg) : Prop := x.iterBody = false ∧ x.iterHeader = none

/-- What should arrive when `s` was made for an item. -/
def Arrives (i : Item) (s x : Msg) : Prop :=
  x.raw = s.raw ∧ s.raw ≠ none ∧ x.isSealed = true ∧ x.isUsed = true ∧
  match i with
  | .request method uri hs bs =>
    x.type = .request ∧ x.method = method ∧ x.uri = uri ∧ x.major = 1 ∧ x.minor = 0 ∧ SameHeaders hs bs s x ∧ Unread x
  | .reply cookie code phrase hs bs =>
    x.type = .reply ∧ x.code = code ∧ x.phrase = (if phrase = [] then codeDescription code else phrase) ∧
    x.major = 1 ∧ x.minor = 0 ∧ x.cookie = remote cookie ∧ SameHeaders hs bs s x ∧ Unread x
  | .data channel payload => x.type = .data ∧ x.channel = channel ∧ x.payload = payload

end Verif.Rtsp.Spec
