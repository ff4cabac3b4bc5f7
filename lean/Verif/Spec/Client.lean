import Verif.Model.Client
import Verif.Spec.Wire
import Verif.Spec.Options
import Verif.Spec.OptValue
/-!
# Specification of the DHCP client's behaviour

Everything is said about the log of a run: the events and what the client did on each of them.
-/
namespace Verif.Client.Spec
open Verif.C

/-- The events so far, oldest first, each with the messages sent and the callbacks called. -/
abbrev Log := List (Op × List Out)

/-- Started and not stopped since. -/
def running (l : Log) : Bool :=
  l.foldl (fun r ev => match ev.1 with
    | .start _ => true
    | .stop => false
    | _ => r) false

/-- The transaction id of the request that waits for an answer: the last message sent is a request
and no lease was reported since. -/
def pendOut (p : Option (List Byte)) : Out → Option (List Byte)
  | .discover _ _ => none
  | .request x _ _ _ _ => some x
  | .release _ _ => none
  | .lease _ => none
  | _ => p

/-- The request waiting for an answer after the events of the log. -/
def pending (l : Log) : Option (List Byte) :=
  l.foldl (fun p ev => if ev.1 = .stop then none else ev.2.foldl pendOut p) none

/-- The user has been told of a lease and not of its end. -/
def holdOut (p : Bool) : Out → Bool
  | .lease _ => true
  | .noLease => false
  | .lost => false
  | _ => p

/-- Whether the user believes to have a lease after the events of the log. -/
def holding (l : Log) : Bool :=
  l.foldl (fun p ev => if ev.1 = .stop then false else ev.2.foldl holdOut p) false

/-- The last thing the client did. -/
def lastOut (l : Log) : Option Out := (l.flatMap (·.2)).getLast?

/-- Reachable states with their log, for a user who starts the client only when it is stopped, and
under the assumption `A` on the events. -/
inductive Reach (A : Op → Env → Prop) (mac : List Byte) (codes : List Nat) : Cl → Log → Prop
  | init : Reach A mac codes (new mac codes) []
  | step {c c' : Cl} {l : Log} {op : Op} {e : Env} {o : List Out} (r : Reach A mac codes c l)
      (polite : ∀ a, op = .start a → running l = false) (assumed : A op e)
      (s : c.step op e = some (c', o)) : Reach A mac codes c' (l ++ [(op, o)])

/-- No assumption. -/
def Any : Op → Env → Prop := fun _ _ => True

/-- Sockets can always be opened. -/
def Sockets : Op → Env → Prop := fun _ e => e.open1 = true ∧ e.open2 = true

/-! ### Packets (RFC 2131, figure 1) -/

/-- The packet is addressed to the hardware address (`hlen`, `chaddr`) and belongs to the transaction. -/
structure Mine (mac xid pkt : List Byte) : Prop where
  xid : (pkt.drop 4).take 4 = xid
  hlen : pkt[2]? = some 6
  chaddr : (pkt.drop 28).take 6 = mac

/-- The length of a packet from the return value of the receiving function. -/
def len (re : Int) : Nat := (re % 65536).toNat

/-- The address in `yiaddr`. -/
def yiaddr (pkt : List Byte) : Nat := Wire.Spec.beVal ((pkt.drop 16).take 4)

/-- If the packet is legal, it carries the message type `t` (option 53; an empty one tells nothing). -/
def HasType (pkt : List Byte) (re : Int) (t : Byte) : Prop :=
  ∀ os fs ss, Options.Spec.Layout pkt (len re) os fs ss →
    ∃ d, Options.Spec.value 53 (Options.Spec.all os fs ss) = some d ∧ (d ≠ [] → d.head? = some t)

/-- If the packet is legal, it carries the server identifier `s` (option 54). -/
def HasServer (pkt : List Byte) (re : Int) (s : Nat) : Prop :=
  ∀ os fs ss, Options.Spec.Layout pkt (len re) os fs ss →
    ∃ d, Options.Spec.value 54 (Options.Spec.all os fs ss) = some d ∧ (4 ≤ d.length → s = Wire.Spec.beVal (d.take 4))

/-- Among the packets received is an OFFER of the address `a` by the server `s` in transaction `x`. -/
def Offered (mac : List Byte) (l : Log) (x : List Byte) (a s : Nat) : Prop :=
  ∃ pkt re o, (Op.recv pkt re, o) ∈ l ∧ 0 ≤ re ∧ Mine mac x pkt ∧ HasType pkt re 2 ∧ a = yiaddr pkt ∧ HasServer pkt re s

/-- Legal packets only, and none of them a NAK. -/
def NoNak : Op → Env → Prop
  | .recv pkt re, _ => ∃ os fs ss, Options.Spec.Layout pkt (len re) os fs ss ∧
      ∀ d, Options.Spec.value 53 (Options.Spec.all os fs ss) = some d → d ≠ [] ∧ d.head? ≠ some 6
  | _, _ => True

/-- The number of messages sent. -/
def sent (o : List Out) : Nat :=
  o.countP (fun x => match x with
    | .discover _ _ => true
    | .request _ _ _ _ _ => true
    | _ => false)

/-- The user of the run starts the client only when it is stopped; `r`: it is running at first. -/
def polite : Bool → List (Op × Env) → Bool
  | _, [] => true
  | r, (.start _, _) :: t => !r && polite true t
  | _, (.stop, _) :: t => polite false t
  | r, _ :: t => polite r t

/-- Only timers fire, and sockets can be opened. -/
def TimersOnly (evs : List (Op × Env)) : Prop :=
  ∀ ev ∈ evs, (∃ id, ev.1 = .fire id) ∧ Sockets ev.1 ev.2

/-- The lease seconds announced by a legal packet: option 51, limited to 28 bits and at least ten; an
hour if there is none. -/
def LeaseTime (os : List Options.Spec.Item) (s : Nat) : Prop :=
  (Options.Spec.value 51 os = none ∧ s = 3600) ∨
    ∃ d, Options.Spec.value 51 os = some d ∧ d.length = 4 ∧ s = max 10 (Wire.Spec.beVal d % 2 ^ 28)

/-- A complete answer for a client that asks for the options `codes`: legal, with a message type, a server
identifier, a lease time of four bytes if any, and proper lists of addresses. -/
structure Proper (codes : List Nat) (pkt : List Byte) (re : Int) (os fs ss : List Options.Spec.Item) : Prop where
  layout : Options.Spec.Layout pkt (len re) os fs ss
  type : ∀ d, Options.Spec.value 53 (Options.Spec.all os fs ss) = some d → d ≠ []
  server : ∃ d, Options.Spec.value 54 (Options.Spec.all os fs ss) = some d ∧ 4 ≤ d.length
  time : ∀ d, Options.Spec.value 51 (Options.Spec.all os fs ss) = some d → d.length = 4
  asked : ∀ k ∈ codes, k ∈ OptValue.Spec.addrCodes
  lists : ∀ k ∈ codes, ∀ d, Options.Spec.value k (Options.Spec.all os fs ss) = some d → d ≠ [] ∧ d.length % 4 = 0

/-- What the user asked for is reported: addresses as dotted texts, in order; nothing for options that are
absent. -/
def Reported (codes : List Nat) (os : List Options.Spec.Item) (v : Nat → Option (List (List Byte))) : Prop :=
  ∀ k ∈ codes, (Options.Spec.value k os = none → v k = none) ∧
    ∀ l, Options.Spec.value k os = some (OptValue.Spec.addrBytes l) → v k = some (l.map OptValue.Spec.dotted)

end Verif.Client.Spec
