import Verif.Model.Options
import Verif.C.Libc
/-!
# Model of the conversion of received DHCP options to text (`src/dhcp/client.c`)

`malloc_option_value_string`, `get_option_value_list` and `get_request`.
-/
namespace Verif.OptValue
open Verif.C Verif.Options

/-- `len_of_option_as_string`, `src/dhcp/client.c:1792-1799` (`sizeof` of the literals includes the
terminating NUL). -/
def textLen : OType → Nat
  | .unknown => 0
  | .ip => 17
  | .string => 1
  | .u8 => 5
  | .u16 => 7
  | .u32 => 12

/-- The text `sprint_nip` prints with `pre = ""`, `src/dhcp/client.c:1801-1804`. -/
def nip (b : List Byte) : Option (List Byte) :=
  match b with
  | [a, b, c, d] =>
    some (dec a.toNat ++ ch '.' :: dec b.toNat ++ ch '.' :: dec c.toNat ++ ch '.' :: dec d.toNat)
  | _ => none

/-- What one round of the loop prints for the numeric types, `src/dhcp/client.c:1825-1838`;
`OPTION_U8` has no case and prints nothing. -/
def printItem (h : Wire.Host) (ty : OType) (pkt : List Byte) (opt : Nat) : Option (Option (List Byte)) :=
  match ty with
  | .ip => do
    let b ← rd pkt opt 4
    let s ← nip b
    some (some s)
  | .u16 => do
    let v ← Wire.getBe h 2 pkt opt
    some (some (dec v))
  | .u32 => do
    let v ← Wire.getBe h 4 pkt opt
    some (some (dec v))
  | _ => some none

/-- The loop of `malloc_option_value_string`, `src/dhcp/client.c:1824-1852`: the block, the
offsets `dest` and `option`, and `len`; `fuel` bounds the rounds (`len` decreases by `optlen ≥ 1`). -/
def valueLoop (h : Wire.Host) (ty : OType) (pkt : List Byte) :
    (fuel : Nat) → (blk : List Byte) → (dest opt len : Nat) → Option (List Byte)
  | 0, blk, _, _, _ => some blk
  | fuel + 1, blk, dest, opt, len =>
    if len < typeLen ty then some blk
    else if ty = .string then do
      let d ← rd pkt opt len
      let b ← wr blk dest d
      wr b (dest + len) [0]
    else do
      let s ← printItem h ty pkt opt
      let b ← match s with
        | some t => wr blk dest (t ++ [0])
        | none => some blk
      let dest := dest + (s.getD []).length
      let len := len - typeLen ty
      if len = 0 then some b
      else do
        let b ← wr b dest [ch ' ']
        let b ← wr b (dest + 1) [0]
        valueLoop h ty pkt fuel b (dest + 1) (opt + typeLen ty) len

/-- `malloc_option_value_string`, `src/dhcp/client.c:1806-1855`: `opt` is the offset of the data of
the option, `junk` the content of fresh memory. The result is the block (`some none`: NULL), `none`
undefined behaviour.  `g_malloc` aborts the process instead of returning NULL. -/
def valueString (h : Wire.Host) (junk : Nat → Byte) (pkt : List Byte) (opt : Nat) (ty : OType) :
    Option (Option (List Byte)) :=
  if opt = 0 then none else
  match pkt[opt - 1]? with
  | none => none
  | some l =>
    let len := l.toNat
    if typeLen ty = 0 then some none
    else do
      let blk := fresh junk (textLen ty * (len / typeLen ty) + 1)
      let b ← valueLoop h ty pkt (len + 1) blk 0 opt len
      some (some b)

/-- The C string a block holds; undefined if there is no NUL in it. -/
def cstr (b : List Byte) : Option (List Byte) :=
  if (0 : Byte) ∈ b then some (b.takeWhile (· ≠ 0)) else none

/-- The loop over `strchr(pos, ' ')` of `get_option_value_list`, `src/dhcp/client.c:1868-1876`:
`cur` is the text since `value`. -/
def cut (cur : List Byte) : List Byte → List (List Byte)
  | [] => [cur]
  | c :: t => if c = ch ' ' then cur :: cut [] t else cut (cur ++ [c]) t

/-- `get_option_value_list`, `src/dhcp/client.c:1857-1879`. -/
def valueList (blk : Option (List Byte)) (ty : OType) : Option (Option (List (List Byte))) :=
  match blk with
  | none => some none
  | some b => do
    let s ← cstr b
    some (some (if ty = .string then [s] else cut [] s))

/-- The body of the loop of `get_request`, `src/dhcp/client.c:2198-2226`, for the code `code`: the
entry of `code_value_hash` afterwards.  Simplified: a lookup that has not
ended after 2000 rounds of its loop counts as undefined (C30 is about the packets that cause such). -/
def optValues (h : Wire.Host) (junk : Nat → Byte) (pkt : List Byte) (plen code : Nat) :
    Option (Option (List (List Byte))) :=
  match getOption pkt plen code 2000 with
  | .null => some none
  | .ptr i => do
    let b ← valueString h junk pkt i (codeType code)
    valueList b (codeType code)
  | _ => none

/-- `get_request`, `src/dhcp/client.c:2188-2227`, on the hash as a function of the code.
`junk k` is the memory `g_malloc` returns for the `k`-th code. -/
def getRequest (h : Wire.Host) (junk : Nat → Nat → Byte) (pkt : List Byte) (plen : Nat) :
    List Nat → (Nat → Option (List (List Byte))) → Option (Nat → Option (List (List Byte)))
  | [], v => some v
  | c :: cs, v => do
    let x ← optValues h (junk c) pkt plen c
    getRequest h junk pkt plen cs (fun d => if d = c then x else v d)

end Verif.OptValue
