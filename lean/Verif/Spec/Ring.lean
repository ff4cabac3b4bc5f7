import Verif.Model.Ring
/-!
# Specification of the ring buffer: an ideal byte queue

A queue is the list of its bytes, oldest first.  `Spec.after` says what an ideal queue
holds after a list of calls, given the return code of each call (a push that reports
an error has no effect).
-/
namespace Verif.Ring
open Verif.C

namespace Spec

/-- The ideal queue after one call that returned `code`. -/
def after1 (q : List Byte) (o : Op) (code : Int) : List Byte :=
  match o with
  | .push d _ => if code = 0 then q ++ d else q
  | .pull n => q.drop n
  | .flush => []
  | .clear => []

/-- The ideal queue after a list of calls with their return codes. -/
def after (q : List Byte) : List (Op × Int) → List Byte
  | [] => q
  | (o, c) :: t => after (after1 q o c) t

/-- Is the return code one the API documents: 0, or `-ENOMEM` from a push whose
`malloc` failed? -/
def codeOk : Op → Int → Prop
  | .push _ m, c => c = 0 ∨ (c = -ENOMEM ∧ m = none)
  | _, c => c = 0

/-- Number of bytes a call would add. -/
def adds : Op → Nat
  | .push d _ => d.length
  | _ => 0

end Spec

/-- What an observer reads through the iovecs filled by `shl_ring_peek`. -/
def observe (r : Ring) : Option (List Byte) :=
  (peek r).foldr (fun (o, n) acc => do let a ← rd r.buf o n; let b ← acc; return a ++ b) (some [])

/-- All pushes together stay below the address-space half (`PTRDIFF_MAX`-like bound:
no C object is larger). -/
def Fits (ops : List Op) : Prop := (ops.map Spec.adds).sum ≤ 9223372036854775808

end Verif.Ring
