import Verif.Model.Wire
/-!
# Model of the packet filter of the DHCP client (`dhcp_l2_socket`, `src/dhcp/client.c:1199-1272`)

The interpreter is the contract of the kernel (classic BPF): a load outside of the packet ends the program with 0; the
result is the number of bytes of the packet that are kept, 0 drops it.  On a `SOCK_DGRAM` packet socket the program sees
the packet from the network header on.
-/
namespace Verif.Bpf
open Verif.C

/-- The instructions used. -/
inductive Ins
  /-- `BPF_LD|BPF_B|BPF_ABS` -/
  | ldb (k : Nat)
  /-- `BPF_LD|BPF_W|BPF_ABS` -/
  | ldw (k : Nat)
  /-- `BPF_LDX|BPF_B|BPF_MSH` -/
  | ldxMsh (k : Nat)
  /-- `BPF_LD|BPF_W|BPF_IND` -/
  | ldwInd (k : Nat)
  /-- `BPF_JMP|BPF_JEQ|BPF_K`; offsets from the next instruction -/
  | jeq (k jt jf : Nat)
  /-- `BPF_RET|BPF_K` -/
  | ret (k : Nat)

/-- A 32-bit load in network byte order (kernel contract). -/
def word (p : List Byte) (k : Nat) : Option Nat := (rd p k 4).map (Wire.native .be)

/-- The rest of the program with the registers A and X; jumps go forward only, so that its length is enough fuel. -/
def exec (p : List Byte) : Nat → List Ins → Nat → Nat → Nat
  | 0, _, _, _ => 0
  | _, [], _, _ => 0
  | n + 1, .ldb k :: t, _, x => match p[k]? with
    | some b => exec p n t b.toNat x
    | none => 0
  | n + 1, .ldw k :: t, _, x => match word p k with
    | some a => exec p n t a x
    | none => 0
  | n + 1, .ldxMsh k :: t, a, _ => match p[k]? with
    | some b => exec p n t a (4 * (b.toNat % 16))
    | none => 0
  | n + 1, .ldwInd k :: t, _, x => match word p (x + k) with
    | some a => exec p n t a x
    | none => 0
  | n + 1, .jeq k jt jf :: t, a, x => exec p n (t.drop (if a = k then jt else jf)) a x
  | _ + 1, .ret k :: _, _, _ => k

/-- `filter_instr`, `src/dhcp/client.c:1224-1243`; `SERVER_AND_CLIENT_PORTS`, `:1197`. -/
def program : List Ins :=
  [.ldb 9, .jeq 17 2 0, .ldw 2, .jeq 0x08000604 3 4, .ldxMsh 0, .ldwInd 0, .jeq (67 * 65536 + 68) 0 1, .ret 0x0fffffff, .ret 0]

/-- The number of bytes the filter keeps. -/
def verdict (p : List Byte) : Nat := exec p program.length program 0 0

/-- What the client's socket gives to the client of a packet on the link, `none` if it is dropped. -/
def pass (p : List Byte) : Option (List Byte) := if verdict p = 0 then none else some (p.take (verdict p))

end Verif.Bpf
