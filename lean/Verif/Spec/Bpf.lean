import Verif.C.Basic
/-!
# Specification of the DHCP client's packet filter (C122)

Written without reference to the filter program.
-/
namespace Verif.Bpf
open Verif.C

/-- The specification: an UDP packet whose header is followed by the ports 67 and 68. -/
def Spec.Answer (p : List Byte) : Prop :=
  ∃ b0, p[0]? = some b0 ∧ p[9]? = some 17 ∧ (p.drop (4 * (b0.toNat % 16))).take 4 = [0, 67, 0, 68]

/-- What else the filter lets pass. -/
def Spec.ArpLike (p : List Byte) : Prop := (∃ b, p[9]? = some b ∧ b ≠ 17) ∧ (p.drop 2).take 4 = [8, 0, 6, 4]

end Verif.Bpf
