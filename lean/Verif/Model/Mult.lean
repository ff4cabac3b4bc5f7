import Verif.C.Basic
/-! # Model of the overflow-checked multiplications in `src/shared/shl_macro.h` -/
namespace Verif.Mult
open Verif.C

/-- `SHL__REAL_MULT(_max, _val, _factor)`, `shl_macro.h:187-192`: result = (return code,
new `*_val`).  The product is taken in the type of `*_val`, i.e. modulo `max + 1`. -/
def realMult (max val factor : Nat) : Int × Nat :=
  if factor = 0 ∨ val ≤ max / factor then (0, val * factor % (max + 1)) else (-ERANGE, val)

/-- `SHL__UPCAST_MULT(_type, _max, _val, _factor)`, `shl_macro.h:194-200`; `wide` is the
modulus of `_type`. -/
def upcastMult (wide max val factor : Nat) : Int × Nat :=
  let v := val * factor % wide
  if v ≤ max then (0, v % (max + 1)) else (-ERANGE, val)

/-- `shl_mult_ull`, `shl_macro.h:202-206` (also `shl_mult_ul` and `shl_mult_u64` on LP64,
lines 208-216, 230-233). -/
def multUll (val factor : Nat) : Int × Nat := realMult (W64 - 1) val factor

/-- `shl_mult_u32`, `shl_macro.h:235-238` (and `shl_mult_u`, 218-228, on LP64); the wide
type is 64 bit. -/
def multU32 (val factor : Nat) : Int × Nat := upcastMult W64 (W32 - 1) val factor

/-- `shl_mult_u16`, `shl_macro.h:240-243`; `uint_fast32_t` is at least 32 bit wide, the
model uses exactly 32. -/
def multU16 (val factor : Nat) : Int × Nat := upcastMult W32 65535 val factor

/-- `shl_mult_u8`, `shl_macro.h:245-248`; `uint_fast16_t` is at least 16 bit wide, the
model uses exactly 16. -/
def multU8 (val factor : Nat) : Int × Nat := upcastMult 65536 255 val factor

end Verif.Mult
