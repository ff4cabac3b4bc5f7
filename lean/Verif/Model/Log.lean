import Verif.C.Libc
/-!
# Model of `src/shared/shl_log.c`: level arguments, filtering and time stamps
-/
namespace Verif.Log
open Verif.C

/-- The chain of `strcasecmp` calls of `log_parse_arg`, `src/shared/shl_log.c:282-299`, with the values
of `enum log_severity`, `src/shared/shl_log.h:24-53`. -/
def named (s : List Byte) : Option Nat :=
  if caseEq s (bytes "fatal") then some 0
  else if caseEq s (bytes "alert") then some 1
  else if caseEq s (bytes "critical") then some 2
  else if caseEq s (bytes "error") then some 3
  else if caseEq s (bytes "warning") then some 4
  else if caseEq s (bytes "notice") then some 5
  else if caseEq s (bytes "info") then some 6
  else if caseEq s (bytes "debug") then some 7
  else if caseEq s (bytes "trace") then some 8
  else none

/-- Conversion of an `unsigned long` to `long` (two's complement). -/
def toLong (v : Nat) : Int := if v < 9223372036854775808 then (v : Int) else (v : Int) - 18446744073709551616

/-- Conversion of an `int`-sized number to `unsigned int`. -/
def toUnsigned (v : Int) : Nat := (v % 4294967296).toNat

/-- `log_parse_arg`, `src/shared/shl_log.c:279-320`. The complaint about unparsable text does not
change the outcome and is left out. -/
def parseArg (s : List Byte) : Nat :=
  match named s with
  | some v => v
  | none =>
    let val := toLong (strtoul 0 s).1
    if val > 2147483647 then 2147483647
    else if val < -2147483648 then toUnsigned (-2147483648)
    else toUnsigned val

/-- Whether `log__submit`, `src/shared/shl_log.c:153-154`, prints a message of severity `sev`. -/
def printed (maxSev sev : Nat) : Bool := !(decide (sev < 9) && decide (sev > maxSev))

/-- A `struct timeval`. -/
structure Tv where
  sec : Int
  usec : Int
  deriving DecidableEq, Repr

/-- `log__have_time`, `src/shared/shl_log.c:42-45`. -/
def haveTime (f : Tv) : Bool := !(f.sec = 0 && f.usec = 0)

/-- `log_init_time`, `src/shared/shl_log.c:47-51`; `now` is what `gettimeofday` reports. -/
def initTime (f now : Tv) : Tv := if haveTime f then f else now

/-- `log__time`, `src/shared/shl_log.c:53-70`: (seconds, microseconds). 64-bit arithmetic on times cannot
overflow for any clock value a machine reports, so plain integers are used. -/
def time (f t : Tv) : Int × Int :=
  let sec := t.sec - f.sec
  let usec := t.usec - f.usec
  if usec < 0 then
    let sec := sec - 1
    (if sec < 0 then 0 else sec, 1000000 + usec)
  else (sec, usec)

end Verif.Log
