import Verif.C.Basic
/-!
# Model of `if_name_to_index` (`src/dhcp/dhcp.c:249-272`)

The DHCP helper asks the kernel for the number of the interface it is started for. Names are C strings (no zero byte).
-/
namespace Verif.IfName
open Verif.C

/-- The interfaces of the machine: names and numbers. -/
abbrev Table := List (List Byte × Nat)

/-- What is done to the kernel: a socket is made, the request with the field `ifr_name`, the socket is closed. -/
inductive Act
  | socket
  | ask (field : List Byte)
  | close
  deriving DecidableEq, Repr

/-- `strncpy(ifr.ifr_name, name, 16)`, `src/dhcp/dhcp.c:262`: at most 16 bytes, the rest of the field is zero. -/
def field (name : List Byte) : List Byte := (name ++ List.replicate 16 0).take 16

/-- The name the kernel reads from the field (`dev_ioctl` of Linux, a contract): its last byte is taken as zero, and what follows a colon is not part of the name. -/
def heard (f : List Byte) : List Byte := ((f.take 15).takeWhile (· ≠ 0)).takeWhile (· ≠ ch ':')

/-- The request `SIOCGIFINDEX` (a contract): the number, or `ENODEV`. -/
def kernel (t : Table) (f : List Byte) : Int :=
  match t.find? (fun e => e.1 = heard f) with
  | some e => e.2
  | none => -19

/-- `if_name_to_index`, `src/dhcp/dhcp.c:249-272`; `sock` is the error of `socket`, if any. -/
def ifNameToIndex (t : Table) (sock : Option Nat) (name : List Byte) : Int × List Act :=
  if name.length > 16 then (-EINVAL, [])
  else match sock with
    | some e => (-(e : Int), [.socket])
    | none => (kernel t (field name), [.socket, .ask (field name), .close])

/-- What `manager_new` makes of it, `src/dhcp/dhcp.c:476-482`: the number, or no start. -/
def ifindex (t : Table) (sock : Option Nat) (name : List Byte) : Option Nat :=
  let r := (ifNameToIndex t sock name).1
  if r < 0 then none else some r.toNat

end Verif.IfName
