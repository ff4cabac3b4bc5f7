import Verif.Model.Helper
import Verif.Spec.OptValue
/-! # The DHCP helper: specification -/
namespace Verif.Helper
open Verif.C OptValue.Spec

/-- An IPv4 address. -/
abbrev Quad := Byte × Byte × Byte × Byte

/-- Its number. -/
def ipOf (q : Quad) : Nat := ((q.1.toNat * 256 + q.2.1.toNat) * 256 + q.2.2.1.toNat) * 256 + q.2.2.2.toNat

/-- The addresses the interface has after some acts, if that is known: flushing removes all, adding adds one; after a failure it is not known. -/
def iface : List (Act × Bool) → Option (List (List Byte)) → Option (List (List Byte))
  | [], i => i
  | (.flush, true) :: l, _ => iface l (some [])
  | (.add a, true) :: l, i => iface l (i.map (· ++ [a]))
  | (.flush, false) :: l, _ => iface l none
  | (.add _, false) :: l, _ => iface l none
  | _ :: l, i => iface l i

/-- … after a run of the program, which knows nothing at first. -/
def onIface (l : List (Act × Bool)) : Option (List (List Byte)) := iface l none

/-- Does an act change the interface? -/
def touches : Act → Prop
  | .flush => True
  | .add _ => True
  | _ => False

/-- The text after `k` in a packet that was sent. -/
def sentAs (k : List Byte) : Act × Bool → Option (List Byte)
  | (.send l, true) => if l.take k.length = k then some (l.drop k.length) else none
  | _ => none

/-- What was last sent with `k`. -/
def lastSent (k : List Byte) (l : List (Act × Bool)) : Option (List Byte) := l.reverse.findSome? (sentAs k)

/-- The address and the mask of the last lease with an address, as texts; 24 stands for a missing mask. -/
def lastLease : List Ev → Option (List Byte × List Byte) → Option (List Byte × List Byte)
  | [], x => x
  | .lease (some a) subnet _ _ :: es, _ => lastLease es (some (a, subnet.headD (bytes "24")))
  | _ :: es, x => lastLease es x

/-- The address of a lease has no slash. -/
def Ev.plain : Ev → Prop
  | .lease (some a) _ _ _ => ch '/' ∉ a
  | _ => True

/-! ### The command line -/

/-- The options that end the program, with its exit status. -/
def Arg.ends : Arg → Option Nat
  | .help => some 0
  | .version => some 0
  | .bad => some 1
  | _ => none

def Arg.netdev? : Arg → Option (List Byte) | .netdev v => some v | _ => none
def Arg.ip? : Arg → Option (List Byte) | .ipBinary v => some v | _ => none
def Arg.comm? : Arg → Option (List Byte) | .commFd v => some v | _ => none
def Arg.server? : Arg → Option Unit | .server => some () | _ => none
def Arg.pre? : Arg → Option (List Byte) | .pre v => some v | _ => none
def Arg.loc? : Arg → Option (List Byte) | .loc v => some v | _ => none
def Arg.gateway? : Arg → Option (List Byte) | .gateway v => some v | _ => none
def Arg.dns? : Arg → Option (List Byte) | .dns v => some v | _ => none
def Arg.subnet? : Arg → Option (List Byte) | .subnet v => some v | _ => none
def Arg.first? : Arg → Option (List Byte) | .first v => some v | _ => none
def Arg.last? : Arg → Option (List Byte) | .last v => some v | _ => none

/-- The value of the last option of a kind. -/
def final {α : Type} (f : Arg → Option α) (args : List Arg) : Option α := args.reverse.findSome? f

/-- Is `t` the address made of the prefix and a last number, both with defaults? -/
def IsAddr (args : List Arg) (f : Arg → Option (List Byte)) (default : String) (t : List Byte) : Prop :=
  t = (final Arg.pre? args).getD (bytes "192.168.77") ++ ch '.' :: (final f args).getD (bytes default) ∧ ∃ q, t = dotted q

/-- The addresses of a server, as the options ask for them. -/
structure Asked (args : List Arg) (a : Addrs) : Prop where
  loc : IsAddr args Arg.loc? "1" a.loc
  gateway : IsAddr args Arg.gateway? "1" a.gateway
  dns : IsAddr args Arg.dns? "1" a.dns
  subnet : a.subnet = (final Arg.subnet? args).getD (bytes "255.255.255.0") ∧ ∃ q, a.subnet = dotted q
  first : IsAddr args Arg.first? "100" a.first
  last : IsAddr args Arg.last? "199" a.last

/-- The options that are for a server only. -/
def Arg.forServer : Arg → Prop
  | .pre _ | .loc _ | .gateway _ | .dns _ | .subnet _ | .first _ | .last _ => True
  | _ => False

/-- The command line with which the Wi-Fi daemon runs the helper for a group it owns, `src/wifi/wifid-supplicant.c:398-413`, for subnet `n`: the options as `getopt_long` returns
them. -/
def serverArgs (n : Nat) (level dev fd : List Byte) (ip : Option (List Byte)) : List Arg :=
  [.server, .pre (bytes "192.168." ++ dec n), .logLevel level, .netdev dev, .commFd fd] ++ ip.toList.map .ipBinary

/-- … and for a group owned by another device, `src/wifi/wifid-supplicant.c:471-482`. -/
def clientArgs (level dev fd : List Byte) (ip : Option (List Byte)) : List Arg :=
  [.logLevel level, .netdev dev, .commFd fd] ++ ip.toList.map .ipBinary

/-- The 192.168.n.k. -/
def host (n k : Nat) : Quad := (192, 168, n.toUInt8, k.toUInt8)

end Verif.Helper
