import Verif.Model.Ipv4ll
import Verif.Spec.Wire
/-!
# Specification for the link-local client: ARP packets (RFC 826) and histories
-/
namespace Verif.Ipv4ll.Spec
open Verif.C

/-- The number in `n` bytes of a packet; bytes missing at the end count as zero. -/
def part (f : List Byte) (off n : Nat) : Nat := Wire.Spec.beVal (((f ++ List.replicate 28 0).drop off).take n)

/-- An ARP request or reply. -/
def IsArp (f : List Byte) : Prop := part f 6 2 = 1 ∨ part f 6 2 = 2

/-- An ARP packet whose sender says that it has the address. -/
def Claims (a : Nat) (f : List Byte) : Prop := IsArp f ∧ part f 14 4 = a

/-- An ARP packet whose target is the address: somebody looks for it. -/
def Asks (a : Nat) (f : List Byte) : Prop := IsArp f ∧ part f 24 4 = a

/-- An ARP request of the hardware address `mac` with the sender `s` and the target `t`: with the sender 0 a probe for `t`,
with sender and target the same an announcement (RFC 3927, 1.2). -/
structure Request (mac : List Byte) (s t : Nat) (f : List Byte) : Prop where
  len : f.length = 28
  kind : (f.take 8) = [0, 1, 8, 0, 6, 4, 0, 1]
  hw : (f.drop 8).take 6 = mac
  sender : part f 14 4 = s
  target : part f 24 4 = t

/-! ### Histories of one client -/

/-- The events of a client with their times and what the client did. -/
abbrev Log := List (Nat × Op × List Out)

/-- What happened to a client, with an assumption on the environment. -/
inductive Reach (A : Op → Env → Prop) (h : Wire.Host) (mac : List Byte) : Ll → Nat → Log → Prop
  | init : Reach A h mac (new h mac) 0 []
  | step {c c' : Ll} {t now : Nat} {l : Log} {op : Op} {e : Env} {o : List Out} (r : Reach A h mac c t l) (later : t ≤ now)
      (assumed : A op e) (s : c.step now e op = some (c', o)) : Reach A h mac c' now (l ++ [(now, op, o)])

/-- Addresses drawn are 32-bit numbers other than 0 (C42). -/
def Drawn (e : Env) : Prop := 0 < e.ip ∧ e.ip < 2 ^ 32

/-- Addresses are drawn from the range; nothing else is assumed. -/
def Any : Op → Env → Prop := fun _ e => Drawn e

/-- Moreover the socket can be opened and has no errors. -/
def Sockets : Op → Env → Prop := fun op e => Drawn e ∧ e.opens = true ∧ op ≠ .hup

/-- The frames in some outputs. -/
def outFrames : List Out → List (List Byte)
  | [] => []
  | .arp f :: t => f :: outFrames t
  | _ :: t => outFrames t

/-- The frames sent in a history with their times, in order. -/
def sent : Log → List (Nat × List Byte)
  | [] => []
  | (t, _, o) :: r => (outFrames o).map (t, ·) ++ sent r

/-- Nobody claimed the address or asked for it, and the user did nothing. -/
def Quiet (a : Nat) (l : Log) : Prop :=
  ∀ x ∈ l, x.2.1 ≠ .start ∧ x.2.1 ≠ .stop ∧ ∀ f, x.2.1 = .recv f → ¬ Claims a f ∧ ¬ Asks a f

/-- The address the client has reported and not taken back; the user gives it back by starting or stopping. -/
def heldOuts : Option Nat → List Out → Option Nat
  | a, [] => a
  | _, .available b :: t => heldOuts b t
  | _, .lost :: t => heldOuts none t
  | a, _ :: t => heldOuts a t

/-- One event. -/
def heldStep (a : Option Nat) (x : Nat × Op × List Out) : Option Nat :=
  match x.2.1 with
  | .start => none
  | .stop => none
  | _ => heldOuts a x.2.2

/-- The address held after a history. -/
def held (l : Log) : Option Nat := l.foldl heldStep none

/-- The address held, and the time at which the client answered the last claim of it, if it has not gone back to normal
since (its timer does that). -/
def defStep (s : Option Nat × Option Nat) (x : Nat × Op × List Out) : Option Nat × Option Nat :=
  (heldStep s.1 x,
    match x.2.1 with
    | .recv _ => match s.1, s.2 with
      | some _, none => if outFrames x.2.2 = [] then none else some x.1
      | some _, some t => if x.2.2 = [] then some t else none
      | none, _ => none
    | .hup => s.2
    | _ => none)

/-- See `defStep`. -/
def defending (l : Log) : Option Nat := (l.foldl defStep (none, none)).2

/-- The address of the last frame sent, and the number of packets that named it. -/
def hitStep (s : Option Nat × Nat) (x : Nat × Op × List Out) : Option Nat × Nat :=
  (match (outFrames x.2.2).getLast? with
    | some g => some (part g 24 4)
    | none => s.1,
   match x.2.1, s.1 with
    | .recv f, some a => if (part f 6 2 = 1 ∨ part f 6 2 = 2) ∧ (part f 14 4 = a ∨ part f 24 4 = a) then s.2 + 1 else s.2
    | _, _ => s.2)

/-- The number of packets heard that named the address the client was after or held. -/
def hits (l : Log) : Nat := (l.foldl hitStep (none, 0)).2

/-- The address reported last, unless it was lost since. -/
def reported (l : Log) : Option Nat := l.foldl (fun a x => heldOuts a x.2.2) none

/-! ### Several hosts -/

/-- The environment of a link: the sockets of all hosts work, addresses are drawn from the range. -/
def EvOk : Ev → Prop
  | .start _ e => Drawn e ∧ e.opens = true
  | .stop _ e => Drawn e ∧ e.opens = true
  | .fire _ e => Drawn e ∧ e.opens = true
  | .deliver _ _ e => Drawn e ∧ e.opens = true
  | _ => True

end Verif.Ipv4ll.Spec
