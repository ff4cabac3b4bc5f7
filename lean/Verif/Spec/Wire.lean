import Verif.C.Basic
/-!
# Specification of byte order, Internet checksum (RFC 1071) and raw DHCP frames
-/
namespace Verif.Wire.Spec
open Verif.C

/-- The `w` bytes of `buf` at `off` are the base-256 digits of `v`, most significant first. -/
def BeAt (buf : List Byte) (off w v : Nat) : Prop :=
  v < 256 ^ w ∧ ∀ i < w, buf[off + i]? = some (v / 256 ^ (w - 1 - i) % 256).toUInt8

/-- The same, least significant digit first. -/
def LeAt (buf : List Byte) (off w v : Nat) : Prop :=
  v < 256 ^ w ∧ ∀ i < w, buf[off + i]? = some (v / 256 ^ i % 256).toUInt8

/-- The 16-bit words of a buffer in network order; an odd last byte is padded with zero. -/
def words : List Byte → List Nat
  | a :: b :: t => (256 * a.toNat + b.toNat) :: words t
  | [a] => [256 * a.toNat]
  | [] => []

/-- One's-complement addition of 16-bit words (end-around carry). -/
def ocAdd (a b : Nat) : Nat := if a + b < 65536 then a + b else a + b - 65535

/-- One's-complement sum of a buffer. -/
def ocSum (buf : List Byte) : Nat := (words buf).foldl ocAdd 0

/-- The Internet checksum, RFC 1071. -/
def inetChecksum (buf : List Byte) : Nat := 65535 - ocSum buf

/-- The big-endian number in a list of bytes. -/
def beVal (bs : List Byte) : Nat := bs.foldl (fun a b => 256 * a + b.toNat) 0

/-- The UDP pseudo header of an IPv4 frame (RFC 768): source, destination, zero, protocol,
UDP length. -/
def pseudo (frame : List Byte) : List Byte :=
  (frame.drop 12).take 8 ++ [0] ++ (frame.drop 9).take 1 ++ (frame.drop 24).take 2

/-- The IPv4 header with its checksum field blanked. -/
def ipBlank (frame : List Byte) : List Byte :=
  frame.take 10 ++ [0, 0] ++ (frame.drop 12).take 8

/-- UDP header and payload (of a frame of total length `tot`) with the checksum field blanked. -/
def udpBlank (frame : List Byte) (tot : Nat) : List Byte :=
  (frame.drop 20).take 6 ++ [0, 0] ++ (frame.drop 28).take (tot - 28)

/-- A frame that carries a DHCP message for the client port: an option-less IPv4 header with
correct checksum, an UDP header for port 68 whose length agrees with the IP length, and either
no UDP checksum or a correct one.  `tot` is the total length in the IP header. -/
structure Accepts (frame : List Byte) (tot : Nat) : Prop where
  total : beVal ((frame.drop 2).take 2) = tot
  inside : tot ≤ frame.length
  header : frame.take 1 = [0x45]
  udp : (frame.drop 9).take 1 = [17]
  port : beVal ((frame.drop 22).take 2) = 68
  ulen : beVal ((frame.drop 24).take 2) = tot - 20
  ipsum : beVal ((frame.drop 10).take 2) = inetChecksum (ipBlank frame)
  udpsum : (frame.drop 26).take 2 = [0, 0] ∨
    beVal ((frame.drop 26).take 2) = inetChecksum (pseudo frame ++ udpBlank frame tot)

end Verif.Wire.Spec
