import Verif.Model.Event
/-! # Specification: what the lines of wpa_supplicant say

An argument is a word, `key=word`, `key="text"` where the text is encoded as wpa_supplicant encodes an SSID, or
`key='text'` as it prints the name of a device.  What an event means is said in terms of these arguments, not of the
bytes on the line. -/
namespace Verif.Event.Spec
open Verif.C

/-- Hexadecimal digit. -/
def hexDigit (n : Nat) : Byte := (bytes "0123456789abcdef").getD n 0

/-- How wpa_supplicant writes one byte of an SSID: quote, backslash and the usual control characters with a backslash,
other bytes that are not printable ASCII in hexadecimal. -/
def encByte (c : Byte) : List Byte :=
  if c = ch '"' ∨ c = ch '\\' then [ch '\\', c]
  else if c = 27 then bytes "\\e"
  else if c = 10 then bytes "\\n"
  else if c = 13 then bytes "\\r"
  else if c = 9 then bytes "\\t"
  else if 32 ≤ c ∧ c ≤ 126 then [c]
  else bytes "\\x" ++ [hexDigit (c.toNat / 16), hexDigit (c.toNat % 16)]

/-- What the receiver sees of that byte: the byte itself, but ESC and hexadecimal bytes stay as they are written. -/
def seen (c : Byte) : List Byte :=
  if c = 27 then bytes "\\e"
  else if c = 10 ∨ c = 13 ∨ c = 9 ∨ (32 ≤ c ∧ c ≤ 126) then [c]
  else bytes "\\x" ++ [hexDigit (c.toNat / 16), hexDigit (c.toNat % 16)]

/-- An argument of an event. -/
inductive Piece
  | word (w : List Byte)
  | pair (k v : List Byte)
  | quoted (k t : List Byte)
  | named (k t : List Byte)
  deriving DecidableEq, Repr

/-- Its text on the line. -/
def Piece.text : Piece → List Byte
  | .word w => w
  | .pair k v => k ++ [ch '='] ++ v
  | .quoted k t => k ++ [ch '='] ++ [ch '"'] ++ t.flatMap encByte ++ [ch '"']
  | .named k t => k ++ [ch '='] ++ [ch '\''] ++ t ++ [ch '\'']

/-- Its key. -/
def Piece.key : Piece → Option (List Byte)
  | .word _ => none
  | .pair k _ | .quoted k _ | .named k _ => some k

/-- Its value under the key. -/
def Piece.val : Piece → List Byte
  | .word w => w
  | .pair _ v => v
  | .quoted _ t => t.flatMap seen
  | .named _ t => t

/-- The whole argument as it is seen by position. -/
def Piece.whole : Piece → List Byte
  | .word w => w
  | p@(.pair k _) | p@(.quoted k _) | p@(.named k _) => k ++ [ch '='] ++ p.val

/-- No blank, quote, backslash or NUL. -/
def Simple (w : List Byte) : Prop :=
  ∀ c ∈ w, c ≠ 0 ∧ c ≠ ch ' ' ∧ c ≠ ch '"' ∧ c ≠ ch '\'' ∧ c ≠ ch '\\'

/-- Well-formed: keys and words are simple and without `=`; an SSID is any bytes at all; the name of a device has no
single quote, backslash or NUL (wpa_supplicant does not escape these, see `name_forges`). -/
def Piece.Ok : Piece → Prop
  | .word w => w ≠ [] ∧ Simple w ∧ ch '=' ∉ w
  | .pair k v => Simple k ∧ ch '=' ∉ k ∧ Simple v
  | .quoted k _ => Simple k ∧ ch '=' ∉ k
  | .named k t => Simple k ∧ ch '=' ∉ k ∧ ∀ c ∈ t, c ≠ 0 ∧ c ≠ ch '\'' ∧ c ≠ ch '\\'

/-- A line of a reply: no newline and no NUL; the key ends at the first `=`. -/
def Piece.Line : Piece → Prop
  | .word w => w ≠ [] ∧ (∀ c ∈ w, c ≠ 0 ∧ c ≠ 10) ∧ ch '=' ∉ w
  | .pair k v => (∀ c ∈ k ++ v, c ≠ 0 ∧ c ≠ 10) ∧ ch '=' ∉ k
  | _ => False

/-- The text of a reply: each line is followed by a newline. -/
def reply (ps : List Piece) : List Byte := ps.flatMap fun p => p.text ++ [10]

/-- The arguments on the line. -/
def args : List Piece → Option (List Byte)
  | [] => none
  | p :: t => some (p.text ++ t.flatMap fun q => ch ' ' :: q.text)

/-- The value of the first argument with the key. -/
def get (k : List Byte) (ps : List Piece) : Option (List Byte) :=
  (ps.find? fun p => p.key == some k).map Piece.val

/-- The argument at a position. -/
def arg (n : Nat) (ps : List Piece) : Option (List Byte) := ps[n]?.map Piece.whole

/-- What the arguments of `P2P-DEVICE-FOUND` say about a peer. -/
def info (mac : List Byte) (ps : List Piece) : Info :=
  { mac := mac, name := (get (bytes "device_name") ps).or (get (bytes "name") ps),
    wfd := (get (bytes "wfd_subelems") ps).or (get (bytes "wfd_dev_info") ps) }

/-- What an event means: a relation between its name, its arguments, the interface it came with, and the effect. -/
inductive Says (env : Env) (ifname : Option (List Byte)) : List Byte → List Piece → Act → Prop
  | stopped (ps) : Says env ifname (bytes "P2P-FIND-STOPPED") ps .scanStopped
  | found (ps) (a dev) (h : get (bytes "p2p_dev_addr") ps = some dev) (h0 : arg 0 ps = some a) :
      Says env ifname (bytes "P2P-DEVICE-FOUND") ps (.found (info a ps) dev)
  | lost (ps) (dev) (h : get (bytes "p2p_dev_addr") ps = some dev) :
      Says env ifname (bytes "P2P-DEVICE-LOST") ps (.op (.lost dev))
  | pbc (ps) (dev) (h : get (bytes "p2p_dev_addr") ps = some dev) :
      Says env ifname (bytes "P2P-PROV-DISC-PBC-REQ") ps (.op (.provision dev (bytes "pbc") none env.mem))
  | display (ps) (dev pin) (h : get (bytes "p2p_dev_addr") ps = some dev) (h1 : arg 1 ps = some pin) :
      Says env ifname (bytes "P2P-PROV-DISC-SHOW-PIN") ps (.op (.provision dev (bytes "display") (some pin) env.mem))
  | enter (ps) (dev) (h : get (bytes "p2p_dev_addr") ps = some dev) :
      Says env ifname (bytes "P2P-PROV-DISC-ENTER-PIN") ps (.op (.provision dev (bytes "pin") none env.mem))
  | success (ps) (dev sta) (h : get (bytes "peer_dev") ps = some dev) (h1 : get (bytes "peer_iface") ps = some sta) :
      Says env ifname (bytes "P2P-GO-NEG-SUCCESS") ps (.op (.negotiated dev sta env.mem))
  | request (ps) (a) (h : arg 0 ps = some a) : Says env ifname (bytes "P2P-GO-NEG-REQUEST") ps (.op (.negotiation a))
  | started (ps) (dev i go) (h : get (bytes "go_dev_addr") ps = some dev) (h0 : arg 0 ps = some i) (h1 : arg 1 ps = some go) :
      Says env ifname (bytes "P2P-GROUP-STARTED") ps
        (.op (.groupStarted dev i (decide (go = bytes "GO")) env.spawn env.watch))
  | removed (ps) (i) (h : arg 0 ps = some i) : Says env ifname (bytes "P2P-GROUP-REMOVED") ps (.op (.groupRemoved i))
  | failure (ps) : Says env ifname (bytes "P2P-GO-NEG-FAILURE") ps (.op .formationFailed)
  | formation (ps) : Says env ifname (bytes "P2P-GROUP-FORMATION-FAILURE") ps (.op .formationFailed)
  | joined (ps) (dev sta) (h : get (bytes "p2p_dev_addr") ps = some dev) (h0 : arg 0 ps = some sta) :
      Says env ifname (bytes "AP-STA-CONNECTED") ps (.op (.staConnected dev sta ifname env.mem))
  | left (ps) (dev) (h : get (bytes "p2p_dev_addr") ps = some dev) :
      Says env ifname (bytes "AP-STA-DISCONNECTED") ps (.op (.staDisconnected dev))

/-- The same effect, where a device that was found may have other details but not other addresses. -/
def SameAddress (a b : Act) : Prop :=
  match a with
  | .found i dev => ∃ i', b = .found i' dev ∧ i'.mac = i.mac
  | a => b = a

end Verif.Event.Spec
