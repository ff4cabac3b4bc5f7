import Verif.Model.RtspBus
/-!
# What a user of the RTSP bus relies on

Everything is said about the list of events of a trace: calls accepted, bytes written, replies arrived, callbacks run.
-/
namespace Verif.RtspBus.Spec
open Verif.C

/-- The completion callback of `id` ran. -/
def isDone (id : Nat) : Event → Bool
  | .done j _ => j = id
  | _ => false

/-- How often the completion callback of `id` ran. -/
def completions (id : Nat) (evs : List Event) : Nat := evs.countP (isDone id)

/-- A call: its address, cookie and bytes. -/
structure Call where
  id : Nat
  cookie : Nat
  raw : List Byte
  deriving DecidableEq

/-- The accepted call, if the event is one. -/
def asCall : Event → Option Call
  | .queued id c raw _ => some ⟨id, c, raw⟩
  | _ => none

/-- The accepted calls in order. -/
def queue (evs : List Event) : List Call := evs.filterMap asCall

/-- The bytes an event puts on the wire. -/
def asBytes : Event → List Byte
  | .wrote _ bs => bs
  | _ => []

/-- The bytes on the wire. -/
def wire (evs : List Event) : List Byte := evs.flatMap asBytes

/-- The transmission of `id` was begun. -/
def Begun (id : Nat) (evs : List Event) : Prop := ∃ bs, .wrote id bs ∈ evs

/-- A call was ended: cancelled, timed out, or a reply with its cookie arrived. -/
def Ended (q : Call) (evs : List Event) : Prop :=
  .cancel q.cookie ∈ evs ∨ .done q.id none ∈ evs ∨ .arrived q.cookie ∈ evs

/-- No call is made with the cookie of a call that is still in the table. -/
def Clean (mv : Rtsp.Moves) (s : St) : List Op → Prop
  | [] => True
  | o :: t => ∀ r, step mv s o = some r →
    (∀ q ∈ queue r.2, ∀ j ∈ s.waiting, s.hasCookie j q.cookie = false) ∧ Clean mv r.1 t

/-- What one step may add to the cookie counter. -/
def cost : Op → Nat
  | .sealIt _ => 1
  | .callAsync _ _ _ => 1
  | .used n => n
  | _ => 0

/-- Messages as the constructors of the API make them, and no cookie set by hand. -/
def Ordinary : Op → Prop
  | .create m => m.isSealed = false ∧ m.isUsed = false ∧
    if m.type = .reply then m.cookie = 0 ∨ Rtsp.isRemote m.cookie = true else m.cookie = 0
  | .setCookie _ _ => False
  | _ => True

end Verif.RtspBus.Spec
