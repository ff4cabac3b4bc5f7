import Verif.Model.Whole
import Verif.Spec.PhoneDown
import Verif.Spec.Show
/-! # Specification: visits of a device -/
namespace Verif.Whole.Spec
open Verif.C
open Phone.Spec (Turn)

/-- What can happen while a device is connected: the timer of the controller runs out, or something on the connection to the source. -/
inductive During
  | timer
  | source (e : Sink.Ev)

/-- The event. -/
def During.ev : During → Ev
  | .timer => .phone .timer
  | .source e => .sink e

/-- Messages are as the parser delivers them; nothing else is asked of the source. -/
def During.Ok : During → Prop
  | .timer => True
  | .source e => Sink.Spec.Delivered e

/-- A visit: the device is connected to, anything happens, the connection ends. -/
structure Visit where
  turn : Turn
  during : List During

/-- What happens; the group is the one numbered `g`. -/
def Visit.evs (v : Visit) (g : Nat) : List Ev := (v.turn.begins g).map .phone ++ v.during.map During.ev ++ [.phone (v.turn.ends g)]

/-- Many. -/
def visits : List Visit → Nat → List Ev
  | [], _ => []
  | v :: t, g => v.evs g ++ visits t (g + 1)

/-- The addresses connected to: in each visit that of the source, once or more, and no other. -/
inductive Dials : List Turn → List (List Byte) → Prop
  | nil : Dials [] []
  | cons (t : Turn) (n : Nat) {ts ds} : Dials ts ds → Dials (t :: ts) (List.replicate (n + 1) t.source ++ ds)

/-- In the course of these events the source makes the sink overrun its memory. -/
def Overrun (st : Settings.SSet) (mv : Rtsp.Moves) (jk : Nat → Byte) (env : Event.Env) (E : Sinkctl.Env) (V : World) (evs : List Ev) : Prop :=
  ∃ pre e post U, evs = pre ++ .sink e :: post ∧ run st mv jk env E V pre = some U ∧ Sink.step mv U.side.sink e = none

end Verif.Whole.Spec
