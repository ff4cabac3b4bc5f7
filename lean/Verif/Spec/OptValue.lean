import Verif.C.Libc
import Verif.Spec.Options
/-!
# Specification of the text reported for an option
-/
namespace Verif.OptValue.Spec
open Verif.C

/-- The dotted decimal text of an IPv4 address. -/
def dotted (a : Byte × Byte × Byte × Byte) : List Byte :=
  dec a.1.toNat ++ bytes "." ++ dec a.2.1.toNat ++ bytes "." ++ dec a.2.2.1.toNat ++ bytes "." ++ dec a.2.2.2.toNat

/-- The bytes of a list of addresses as options carry it. -/
def addrBytes (l : List (Byte × Byte × Byte × Byte)) : List Byte :=
  l.flatMap (fun a => [a.1, a.2.1, a.2.2.1, a.2.2.2])

/-- Options holding addresses (RFC 2132: subnet mask, router, DNS, NTP, requested address). -/
def addrCodes : List Nat := [1, 3, 6, 42, 50]

/-- Options holding text the client keeps (RFC 2132: host name, domain name, vendor class, client
identifier; proxy autodiscovery). -/
def textCodes : List Nat := [12, 15, 60, 61, 252]

end Verif.OptValue.Spec
