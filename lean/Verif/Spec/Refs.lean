import Verif.Model.Refs
/-!
# Who holds references, and what may be done with them

The references held from outside: by the program, and by functions of the library while they run (the
handlers for input and timeouts and the frames around callbacks take references like anyone else).
-/
namespace Verif.Refs.Spec
open Verif.Refs

/-- How many references to the bus and to each message are held. -/
structure Held where
  bus : Nat
  msg : Nat → Nat

def Held.put (h : Held) (m n : Nat) : Held := { h with msg := fun j => if j = m then n else h.msg j }

/-- What can happen. -/
inductive Op
  | ref
  | unref
  | new (m : Nat)
  | refMsg (m : Nat)
  | unrefMsg (m : Nat)
  | call (ok : Bool) (m : Nat)
  | drop (sending : Bool) (m : Nat)
  | written (cb : Bool) (m : Nat)
  | parse (m : Nat)
  | submit
  deriving DecidableEq, Repr

/-- What the caller must see to: references are dropped by those who hold them, things are used by those
who hold them.  The event loop reaches a bus and what it has queued as long as the bus is alive.  New
messages get addresses that are free. -/
def Legal (s : St) (h : Held) : Op → Prop
  | .ref => 0 < h.bus ∨ (∃ m, 0 < h.msg m) ∨ s.alive = true
  | .unref => 0 < h.bus
  | .new m => (0 < h.bus ∨ ∃ j, 0 < h.msg j) ∧ s.heap m = none
  | .refMsg m => 0 < h.msg m ∨ (s.alive = true ∧ (m ∈ s.outgoing ∨ m ∈ s.waiting))
  | .unrefMsg m => 0 < h.msg m
  | .call _ m => 0 < h.msg m
  | .drop _ m => 0 < h.msg m ∨ (0 < h.bus ∧ m ∈ s.waiting)
  | .written _ m => 0 < h.bus ∧ m ∈ s.outgoing
  | .parse m => 0 < h.bus ∧ s.heap m = none
  | .submit => 0 < h.bus

/-- The bus of an RTSP connection has calls that wait and a parser, that of wpa_supplicant has not. -/
def Allowed (wpas : Bool) : Op → Prop
  | .parse _ => wpas = false
  | .submit => wpas = false
  | _ => True

/-- What an operation does; `f` bounds the depth of the calls of `unref`. -/
def step (f : Nat) (wpas : Bool) (s : St) (h : Held) : Op → Option (St × Held)
  | .ref => (busRef s).map fun s => (s, { h with bus := h.bus + 1 })
  | .unref => (unref f s).map fun s => (s, { h with bus := h.bus - 1 })
  | .new m => (newMsg s m).map fun s => (s, h.put m 1)
  | .refMsg m => (msgRef s m).map fun s => (s, h.put m (h.msg m + 1))
  | .unrefMsg m => (msgUnref (unref f) s m).map fun s => (s, h.put m (h.msg m - 1))
  | .call ok m => (call wpas ok s m).map fun s => (s, h)
  | .drop sending m => (drop (unref f) sending s m).map fun s => (s, h)
  | .written cb m => (written (unref f) cb s m).map fun s => (s, h)
  | .parse m => (parse s m).map fun s => (s, h)
  | .submit => (submit s).map fun r => (r.1, match r.2 with | none => h | some m => h.put m 1)

/-- The histories of a bus. -/
inductive Reach (f : Nat) (wpas : Bool) : St → Held → Prop
  | opened : Reach f wpas opened ⟨1, fun _ => 0⟩
  | step {s h s' h'} (op : Op) (r : Reach f wpas s h) (a : Allowed wpas op) (l : Legal s h op)
      (e : Spec.step f wpas s h op = some (s', h')) : Reach f wpas s' h'

/-- A message is in both queues. -/
def Twice (s : St) (m : Nat) : Prop := m ∈ s.outgoing ∧ m ∈ s.waiting

/-- A message is in some queue. -/
def Queued (s : St) (m : Nat) : Prop := m ∈ s.outgoing ∨ m ∈ s.waiting

/-- Everything has been freed. -/
def Gone (s : St) : Prop := s.alive = false ∧ ∀ m, s.heap m = none

end Verif.Refs.Spec
