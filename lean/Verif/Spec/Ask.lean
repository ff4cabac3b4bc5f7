import Verif.C.Libc
/-!
# How wpa_supplicant reads a request

The contract of the control interface: a datagram is one command line.  The command is the text before the
first blank.  `SET` and `P2P_SET` take a name up to the next blank and a value, which is all the rest, byte
for byte; `WFD_SUBELEM_SET` takes a number up to the next blank and the rest as hexadecimal digits; other
commands take words separated by blanks.  There is no quoting.
-/
namespace Verif.Ask.Spec
open Verif.C

/-- The text before the first blank, and the text behind it if there is a blank. -/
def divide : List Byte → List Byte × Option (List Byte)
  | [] => ([], none)
  | c :: t => if c = ch ' ' then ([], some t) else (c :: (divide t).1, (divide t).2)

/-- A byte put in front of the first word. -/
def push (c : Byte) : List (List Byte) → List (List Byte)
  | [] => [[c]]
  | w :: ws => (c :: w) :: ws

/-- The words of a line. -/
def words : List Byte → List (List Byte)
  | [] => [[]]
  | c :: t => if c = ch ' ' then [] :: words t else push c (words t)

/-- What wpa_supplicant is told to do. -/
inductive Heard
  | setting (cmd name value : List Byte)
  | elements (slot : List Byte) (hex : Option (List Byte))
  | order (cmd : List Byte) (args : List (List Byte))
  deriving DecidableEq, Repr

/-- A setting, if there is a value. -/
def hearSetting (c r : List Byte) : Heard :=
  match (divide r).2 with
  | some v => .setting c (divide r).1 v
  | none => .order c [r]

/-- A command with what follows it. -/
def hearWith (c r : List Byte) : Heard :=
  if c = bytes "SET" ∨ c = bytes "P2P_SET" then hearSetting c r
  else if c = bytes "WFD_SUBELEM_SET" then .elements (divide r).1 (divide r).2
  else .order c (words r)

/-- How a datagram is read. -/
def hear (l : List Byte) : Heard :=
  match (divide l).2 with
  | none => .order l []
  | some r => hearWith (divide l).1 r

/-- A text without white space, quotation marks and backslashes. -/
def Unquoted (s : List Byte) : Prop :=
  ∀ c ∈ s, c ≠ ch ' ' ∧ c ≠ 9 ∧ c ≠ 10 ∧ c ≠ 11 ∧ c ≠ ch '"' ∧ c ≠ ch '\\'

/-- What of a datagram a request is: it was sent without an error and is heard as `h`. -/
def Told (r : Option (Int × Option (List Byte))) (h : Heard) : Prop :=
  ∃ d, r = some (0, some d) ∧ hear d = h

/-- It is refused and nothing is sent. -/
def Refused (r : Option (Int × Option (List Byte))) : Prop := r = some (-EINVAL, none)

/-- The method that is used: the one asked for, else the one the peer proposed, else the push button. -/
def method (prov prov0 : Option (List Byte)) : List Byte :=
  match prov, prov0 with
  | some p, _ => p
  | none, some p => p
  | none, none => bytes "pbc"

/-- The PIN that is used. -/
def secret (pin pin0 : Option (List Byte)) : Option (List Byte) :=
  match pin with
  | some p => some p
  | none => pin0

end Verif.Ask.Spec
