import Verif.Model.Mult
/-!
# Model of the integer parsers in `src/shared/shl_util.c:43-218`

A `(str, len)` pair is the list of its `len` bytes.  `next` is modelled as the number
of bytes between `str` and `*next`; `next` and `out` are taken to be non-NULL.
-/
namespace Verif.Atoi
open Verif.C Verif.Mult

/-- `shl_ctoi`, `shl_util.c:43-65`.  Bytes ≥ 128 are negative `char`s and hit the default. -/
def ctoi (c : Byte) (base : Nat) : Int :=
  let v : Option Nat :=
    if ch '0' ≤ c ∧ c ≤ ch '9' then some (c.toNat - (ch '0').toNat)
    else if ch 'a' ≤ c ∧ c ≤ ch 'z' then some (c.toNat - (ch 'a').toNat + 10)
    else if ch 'A' ≤ c ∧ c ≤ ch 'Z' then some (c.toNat - (ch 'A').toNat + 10)
    else none
  match v with
  | none => -EINVAL
  | some v => if v ≥ base then -EINVAL else v

/-- `shl__skip_base`, `shl_util.c:68-91`: (bytes skipped, base). -/
def skipBase (s : List Byte) : Nat × Nat :=
  match s with
  | a :: b :: rest =>
    if a = ch '0' ∧ ctoi b 8 ≥ 0 then (1, 8)
    else match rest with
      | c :: _ => if a = ch '0' ∧ b = ch 'x' ∧ ctoi c 16 ≥ 0 then (2, 16) else (0, 10)
      | [] => (0, 10)
  | _ => (0, 10)

/-- Local variables of the loop in `shl_atoi_ulln`, `shl_util.c:99-113`. -/
structure St where
  huge : Bool
  val1 : Nat
  val2 : Nat
  r : Int
deriving DecidableEq, Repr

/-- The 32-bit phase of the loop body, `shl_util.c:134-141`. -/
def phase1 (base : Nat) (s : St) (c : Nat) : St :=
  let m := multU32 s.val1 base
  if m.1 ≥ 0 ∧ (m.2 + c) % W32 ≥ m.2 then
    { s with val2 := s.val1, r := m.1, val1 := (m.2 + c) % W32 }
  else { s with val2 := s.val1, r := m.1, val1 := m.2, huge := true }

/-- The 64-bit phase of the loop body, `shl_util.c:143-147`. -/
def phase2 (base : Nat) (s : St) (c : Nat) : St :=
  let m := multUll s.val2 base
  if m.1 ≥ 0 ∧ (m.2 + c) % W64 ≥ m.2 then { s with r := m.1, val2 := (m.2 + c) % W64 }
  else { s with r := m.1, val2 := m.2 }

/-- Loop body after the digit was decoded to `c`, `shl_util.c:130-147`. -/
def digitStep (base : Nat) (s : St) (c : Nat) : St :=
  if s.r < 0 then s
  else
    let s := if s.huge then s else phase1 base s c
    if s.huge then phase2 base s c else s

/-- The loop `shl_util.c:126-148`; returns the final locals and `pos`. -/
def loop (base : Nat) : List Byte → St → Nat → St × Nat
  | [], s, pos => (s, pos)
  | ch :: t, s, pos =>
    let c := ctoi ch base
    if c < 0 then (s, pos) else loop base t (digitStep base s c.toNat) (pos + 1)

/-- Result of the parsers: return code, offset of `*next` from `str`, `*out`. -/
structure Res where
  code : Int
  next : Nat
  out : Nat
deriving DecidableEq, Repr

/-- `shl_atoi_ulln`, `shl_util.c:93-162`. -/
def atoiUlln (str : List Byte) (base : Nat) : Res :=
  if base > 36 then ⟨-EINVAL, 0, 0⟩
  else
    let (skip, base) := if base = 0 then skipBase str else (0, base)
    let (s, pos) := loop base (str.drop skip) ⟨false, 0, 0, 0⟩ 0
    ⟨s.r, skip + pos, if s.r < 0 then W64 - 1 else if s.huge then s.val2 else s.val1⟩

/-- Common shape of the narrowing wrappers: `shl_atoi_uln` (164-181), `shl_atoi_un`
(183-200), `shl_atoi_zn` (202-219) with `max` = ULONG_MAX, UINT_MAX, SIZE_MAX. -/
def narrow (max : Nat) (r : Res) : Res :=
  ⟨if r.code ≥ 0 ∧ r.out > max then -ERANGE else r.code, r.next, Nat.min r.out max⟩

/-- `shl_atoi_uln`, `shl_util.c:164-181`. -/
def atoiUln (str : List Byte) (base : Nat) : Res := narrow (W64 - 1) (atoiUlln str base)
/-- `shl_atoi_un`, `shl_util.c:183-200`. -/
def atoiUn (str : List Byte) (base : Nat) : Res := narrow (W32 - 1) (atoiUlln str base)
/-- `shl_atoi_zn`, `shl_util.c:202-219`. -/
def atoiZn (str : List Byte) (base : Nat) : Res := narrow (W64 - 1) (atoiUlln str base)

end Verif.Atoi
