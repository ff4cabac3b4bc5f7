import Verif.Model.WpasBus
/-! # Specification of the wpa_supplicant control bus

A reader of the trace keeps the accepted messages that have not been written (`unsent`), the calls that were
written and have no reply yet (`flying`), and predicts which callback the next reply belongs to. -/
namespace Verif.WpasBus.Spec
open Verif.C

/-- What the reader of a trace knows. -/
structure St where
  /-- calls so far: message, cookie, whether there is a callback -/
  calls : List (Nat × Nat × Bool) := []
  /-- accepted and not yet written; the flag tells calls from messages without a reply -/
  unsent : List (Nat × Bool) := []
  /-- calls that were written and not answered -/
  flying : List Nat := []
  /-- cancelled calls -/
  dropped : List Nat := []
  /-- the callbacks that should have run -/
  answers : List (Nat × Nat) := []
  /-- every message was written in its turn, with no call in flight -/
  orderly : Bool := true

/-- The messages of the calls with a cookie. -/
def owners (s : St) (cookie : Nat) : List Nat :=
  (s.calls.filter (fun k => k.2.1 = cookie)).map (·.1)

/-- The callback of a call is wanted. -/
def wanted (s : St) (id : Nat) : Bool := !(s.dropped.contains id) && s.calls.any (fun k => k.1 = id ∧ k.2.2 = true)

/-- Take in one observation. -/
def St.next (s : St) : Ev → St
  | .called id cookie hasCb =>
    { s with calls := s.calls ++ [(id, cookie, hasCb)], unsent := s.unsent ++ [(id, true)] }
  | .submitted id => { s with unsent := s.unsent ++ [(id, false)] }
  | .cancelled cookie =>
    { s with dropped := s.dropped ++ owners s cookie,
             unsent := s.unsent.filter (fun u => !(u.2 && (owners s cookie).contains u.1)) }
  | .wrote id =>
    match s.unsent with
    | (i, call) :: rest =>
      { s with orderly := s.orderly && i == id && s.flying.isEmpty, unsent := rest,
               flying := if call then s.flying ++ [id] else s.flying }
    | [] => { s with orderly := false }
  | .got p =>
    match s.flying with
    | [] => s
    | id :: rest => { s with flying := rest, answers := if wanted s id then s.answers ++ [(id, p)] else s.answers }
  | .answered _ _ => s
  | .event _ => s
  | .hup => s

/-- What the reader knows after a trace. -/
def knows (tr : List Ev) : St := tr.foldl St.next {}

/-- The callbacks that ran. -/
def answered (tr : List Ev) : List (Nat × Nat) :=
  tr.filterMap (fun e => match e with
    | .answered id p => some (id, p)
    | _ => none)

/-- The number of calls among operations. -/
def callCount (ops : List Op) : Nat :=
  ops.countP (fun o => match o with
    | .call _ _ _ => true
    | _ => false)

end Verif.WpasBus.Spec
