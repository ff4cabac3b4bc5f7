import Verif.Model.Sockets
/-! # What a user expects of the sockets of the connections to wpa_supplicant -/
namespace Verif.Sockets.Spec
open Verif.C

/-- Somebody listens at an address. -/
def Listens (w : World) (a : Addr) (i : Nat) : Prop :=
  w.live i = true ∧ match a with
  | .path p => w.node p = some (.sock i)
  | .abs n => w.abs n = some i

/-- The meaning of a control path: `@abstract:` and a name, or a path. -/
def Means (path : List Byte) (a : Addr) : Prop :=
  (∃ n, path = bytes "@abstract:" ++ n ∧ n.length ≤ 86 ∧ a = .abs n) ∨
  ((∀ n, path ≠ bytes "@abstract:" ++ n) ∧ path ≠ [] ∧ path.length ≤ 107 ∧ a = .path path)

/-- The two worlds differ at most in what `p` names (and in sockets closed before anyone could know them). -/
def OnlyAt (p : List Byte) (w w' : World) : Prop :=
  (∀ q, q ≠ p → w'.node q = w.node q) ∧ w'.abs = w.abs ∧ (∀ i, i < w.next → w'.live i = w.live i) ∧ w'.locked = w.locked

/-- Paths of a name of the process: those of its clients. -/
def Own (pid : Nat) (p : List Byte) : Prop := ∃ c, p = bytes "/tmp/.miracle-wpas-" ++ dec pid ++ bytes "-" ++ dec c

/-- The paths at which servers are made in a run. -/
def served : List Op → List (List Byte)
  | [] => []
  | .create p _ :: t => p :: served t
  | _ :: t => served t

/-- The clients opened in a run. -/
def opens : List Op → Nat
  | [] => 0
  | .open _ _ :: t => opens t + 1
  | _ :: t => opens t

/-- A run without others. -/
def Alone (ops : List Op) : Prop := ∀ o ∈ ops, ∀ x, o ≠ .outside x

/-- A process that has just started. All sockets there are have been made. -/
structure Fresh (s : Proc) : Prop where
  busses : s.busses = []
  counter : s.counter = 0
  pid : s.pid < 2147483648
  nodes : ∀ p i, s.w.node p = some (.sock i) → i < s.w.next
  abs : ∀ n i, s.w.abs n = some i → i < s.w.next
  live : ∀ i, s.w.live i = true → i < s.w.next

/-- The process makes its sockets itself: those with these numbers (it makes one at a step of its own that gets one). -/
def made : Proc → List Op → List Nat
  | _, [] => []
  | s, o :: t => (match o with
    | .open _ false => [s.w.next]
    | .create _ false => [s.w.next]
    | _ => []) ++ made (step s o).2 t

end Verif.Sockets.Spec
