import Verif.C.Libc
/-! # Specification of wpa_supplicant control messages -/
namespace Verif.Wpas.Spec
open Verif.C

/-- How a datagram splits into an interface name and a body. -/
inductive Split : List Byte → Option (List Byte) → List Byte → Prop
  /-- no interface -/
  | plain (d : List Byte) (h : ¬ bytes "IFNAME=" <+: d) : Split d none d
  /-- `IFNAME=name body` -/
  | iface (n body : List Byte) (h : ch ' ' ∉ n) (h0 : 0 ∉ n) :
      Split (bytes "IFNAME=" ++ n ++ ch ' ' :: body) (some n) body
  /-- `IFNAME=name`, at the end of the datagram or before a NUL -/
  | bare (n tail : List Byte) (h : ch ' ' ∉ n) (h0 : 0 ∉ n) (ht : tail = [] ∨ tail.head? = some 0) :
      Split (bytes "IFNAME=" ++ n ++ tail) (some n) tail

/-- A word that needs no quoting. -/
def Plain (w : List Byte) : Prop :=
  w ≠ [] ∧ ∀ c ∈ w, c ≠ 0 ∧ c ≠ ch ' ' ∧ c ≠ ch '"' ∧ c ≠ ch '\'' ∧ c ≠ ch '\\'

/-- Nothing, or a blank and arguments. -/
def tail : Option (List Byte) → List Byte
  | none => []
  | some a => ch ' ' :: a

/-- The text of an event. -/
def eventText (level : Nat) (name : List Byte) (args : Option (List Byte)) : List Byte :=
  [ch '<'] ++ dec level ++ [ch '>'] ++ name ++ tail args

/-- What a caller puts into a request. -/
inductive Item
  | text (s : List Byte)
  | int (i : Int)
  | nat (n : Nat)
  | pair (key value : List Byte)

/-- The text that stands for it. -/
def Item.word : Item → List Byte
  | .text s => s
  | .int i => decInt i
  | .nat n => dec n
  | .pair k v => k ++ [ch '='] ++ v

/-- Strings that survive quoting (see C06). -/
def Quotable (s : List Byte) : Prop :=
  s ≠ [] ∧ (0 : Byte) ∉ s ∧ (ch '\'' ∈ s → ∃ c ∈ s, c = ch ' ' ∨ c = 9 ∨ c = 10 ∨ c = 11)

/-- The values a caller may use. -/
def Item.Ok : Item → Prop
  | .text s => Quotable s
  | .int i => -2147483648 ≤ i ∧ i ≤ 2147483647
  | .nat n => n < 4294967296
  | .pair k v => ch '=' ∉ k ∧ Quotable (k ++ [ch '='] ++ v)

/-- The entry of a dictionary that a key selects. -/
inductive Lookup (key : List Byte) : List (List Byte) → Option (List Byte) → Prop
  | nil : Lookup key [] none
  | hit (v : List Byte) (rest : List (List Byte)) (h : ch '=' ∉ key) :
      Lookup key ((key ++ [ch '='] ++ v) :: rest) (some v)
  | miss (e : List Byte) (rest : List (List Byte)) (r : Option (List Byte))
      (h : ∀ v, ch '=' ∉ key → e ≠ key ++ [ch '='] ++ v) (t : Lookup key rest r) : Lookup key (e :: rest) r

end Verif.Wpas.Spec
