import Verif.Spec.RtspWire
/-!
# What `rtsp_message_new_from_raw` should give for the text of a message
-/
namespace Verif.Rtsp.Spec
open Verif.C

/-- The item as the bus itself would send it with the number `n`: replies say which request they are for. -/
def numbered (n : Nat) : Item → Item
  | .reply _ code phrase hs bs => .reply n code phrase hs bs
  | i => i

/-- No line of the head is broken: the tokens of the headers and the phrase have no CR or LF. -/
def OneLine : Item → Prop
  | .request _ _ hs _ => ∀ h ∈ hs, ∀ t ∈ h.2, (13 : Byte) ∉ t ∧ (10 : Byte) ∉ t
  | .reply _ _ phrase hs _ => ((13 : Byte) ∉ phrase ∧ (10 : Byte) ∉ phrase) ∧ ∀ h ∈ hs, ∀ t ∈ h.2, (13 : Byte) ∉ t ∧ (10 : Byte) ∉ t
  | .data _ _ => False

instance : DecidablePred OneLine := fun w => by unfold OneLine; cases w <;> infer_instance

/-- The body headers of an item. -/
def bodyOf : Item → List Hdr
  | .request _ _ _ bs => bs
  | .reply _ _ _ _ bs => bs
  | .data _ _ => []

/-- `x` says the same as the item, with the number `n`. -/
def Says (i : Item) (n : Nat) (x : Msg) : Prop :=
  x.isSealed = true ∧ x.isUsed = false ∧ x.major = 1 ∧ x.minor = 0 ∧ Unread x ∧
  match i with
  | .request method uri hs bs =>
    x.type = .request ∧ x.method = method ∧ x.uri = uri ∧ x.cookie = n ∧
    ∃ b, x.body = some b ∧ x.headers.map view = hs ++ extra bs b (local_ n) ∧ x.bodyHeaders.map view = bs
  | .reply _ code phrase hs bs =>
    x.type = .reply ∧ x.code = code ∧ x.phrase = (if phrase = [] then codeDescription code else phrase) ∧ x.cookie = remote n ∧
    ∃ b, x.body = some b ∧ x.headers.map view = hs ++ extra bs b (local_ n) ∧ x.bodyHeaders.map view = bs
  | .data _ _ => False

end Verif.Rtsp.Spec
