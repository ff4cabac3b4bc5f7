import Verif.C.Basic
/-!
# Specification of DHCP option areas (RFC 2131/2132)
-/
namespace Verif.Options.Spec
open Verif.C

/-- An element of an option area: a pad byte, or an option with its data. -/
inductive Item
  | pad
  | opt (c : Byte) (d : List Byte)
  deriving DecidableEq

/-- The encoding of an element: code, length, data. -/
def Item.bytes : Item → List Byte
  | .pad => [0]
  | .opt c d => c :: d.length.toUInt8 :: d

/-- A legal element: the code is neither PAD nor END, the length fits into a byte, and an
overload option (52) has exactly one byte. -/
def Item.Ok : Item → Prop
  | .pad => True
  | .opt c d => c ≠ 0 ∧ c ≠ 255 ∧ d.length < 256 ∧ (c = 52 → d.length = 1)

/-- The element is not an overload option. -/
def Item.Plain : Item → Prop
  | .pad => True
  | .opt c _ => c ≠ 52

/-- The encoding of a list of elements. -/
def enc : List Item → List Byte
  | [] => []
  | it :: t => it.bytes ++ enc t

/-- The data of the first option with the given code. -/
def value (code : Nat) : List Item → Option (List Byte)
  | [] => none
  | .pad :: t => value code t
  | .opt c d :: t => if c.toNat = code then some d else value code t

/-- The overload flags announced by an area (bit 0: file, bit 1: sname). -/
def overload : List Item → Byte
  | [] => 0
  | .opt c (v :: _) :: t => if c = 52 then v ||| overload t else overload t
  | _ :: t => overload t

/-- A received packet of `plen` bytes whose option area is a legal list of elements closed by END,
with the file and sname fields doing likewise if they are announced to hold options. -/
structure Layout (pkt : List Byte) (plen : Nat) (os fs ss : List Item) : Prop where
  size : pkt.length = 628
  plen_le : plen ≤ 628
  area : ∃ rest, pkt.drop 240 = enc os ++ 255 :: rest
  inside : 240 + (enc os).length + 1 ≤ plen
  file : overload os &&& 1 ≠ 0 → ∃ rest, (pkt.drop 108).take 128 = enc fs ++ 255 :: rest
  sname : overload os &&& 2 ≠ 0 → ∃ rest, (pkt.drop 44).take 64 = enc ss ++ 255 :: rest
  ok : (∀ i ∈ os, i.Ok) ∧ (∀ i ∈ fs, i.Ok ∧ i.Plain) ∧ (∀ i ∈ ss, i.Ok ∧ i.Plain)

/-- All options of a packet in the order in which RFC 2131 §4.1 says they are interpreted. -/
def all (os fs ss : List Item) : List Item :=
  os ++ (if overload os &&& 1 ≠ 0 then fs else []) ++ (if overload os &&& 2 ≠ 0 then ss else [])

/-! ### Building -/

/-- Options that may be added through the typed calls, with the size of their value
(RFC 2132; strings are registered with size one). -/
def typed : List (Nat × Nat) :=
  [(1, 4), (3, 4), (6, 4), (12, 1), (15, 1), (42, 4), (51, 4), (50, 4), (53, 1), (54, 4), (57, 2),
   (60, 1), (61, 1), (252, 1)]

/-- A request to add an option: as a block, or as an unsigned value of `w` bytes. -/
inductive Add
  | block (c : Byte) (d : List Byte)
  | uint (w code v : Nat)

/-- The `w` base-256 digits of `v`, most significant first. -/
def digits : Nat → Nat → List Byte
  | 0, _ => []
  | w + 1, v => digits w (v / 256) ++ [(v % 256).toUInt8]

/-- A legal request. -/
def Add.Ok : Add → Prop
  | .block c d => c ≠ 0 ∧ c ≠ 255 ∧ c ≠ 52 ∧ d.length < 256
  | .uint w code v => (w = 1 ∨ w = 2 ∨ w = 4) ∧ code < 256 ∧ v < 256 ^ w

/-- The options of a packet after one request: appended if the area (308 bytes including END and
one spare byte) has room, and dropped otherwise; typed requests also need a matching type. -/
def add (is : List Item) : Add → List Item
  | .block c d => if (enc is).length + (d.length + 2) + 1 < 308 then is ++ [.opt c d] else is
  | .uint w code v =>
    if (code, w) ∈ typed ∧ (enc is).length + (w + 2) + 1 < 308 then
      is ++ [.opt code.toUInt8 (digits w v)] else is

end Verif.Options.Spec
