import Verif.C.Basic
/-!
# Model of the Wi-Fi Display resolution tables of `src/ctl/wfd.c`
-/
namespace Verif.Wfd
open Verif.C

/-- `struct resolution_bitmap`, `src/ctl/wfd.c:25-30`. -/
structure Res where
  index : Nat
  hres : Nat
  vres : Nat
  fps : Nat
  deriving DecidableEq, Repr

/-- `resolutions_cea`, `src/ctl/wfd.c:36-55`. -/
def cea : List Res :=
  [⟨0, 640, 480, 60⟩, ⟨1, 720, 480, 60⟩, ⟨2, 720, 480, 60⟩, ⟨3, 720, 576, 50⟩, ⟨4, 720, 576, 50⟩,
   ⟨5, 1280, 720, 30⟩, ⟨6, 1280, 720, 60⟩, ⟨7, 1920, 1080, 30⟩, ⟨8, 1920, 1080, 60⟩,
   ⟨9, 1920, 1080, 60⟩, ⟨10, 1280, 720, 25⟩, ⟨11, 1280, 720, 50⟩, ⟨12, 1920, 1080, 25⟩,
   ⟨13, 1920, 1080, 50⟩, ⟨14, 1920, 1080, 50⟩, ⟨15, 1280, 720, 24⟩, ⟨16, 1920, 1080, 24⟩,
   ⟨0, 0, 0, 0⟩]

/-- `resolutions_vesa`, `src/ctl/wfd.c:57-88`. -/
def vesa : List Res :=
  [⟨0, 800, 600, 30⟩, ⟨1, 800, 600, 60⟩, ⟨2, 1024, 768, 30⟩, ⟨3, 1024, 768, 60⟩,
   ⟨4, 1152, 854, 30⟩, ⟨5, 1152, 854, 60⟩, ⟨6, 1280, 768, 30⟩, ⟨7, 1280, 768, 60⟩,
   ⟨8, 1280, 800, 30⟩, ⟨9, 1280, 800, 60⟩, ⟨10, 1360, 768, 30⟩, ⟨11, 1360, 768, 60⟩,
   ⟨12, 1366, 768, 30⟩, ⟨13, 1366, 768, 60⟩, ⟨14, 1280, 1024, 30⟩, ⟨15, 1280, 1024, 60⟩,
   ⟨16, 1440, 1050, 30⟩, ⟨17, 1440, 1050, 60⟩, ⟨18, 1440, 900, 30⟩, ⟨19, 1440, 900, 60⟩,
   ⟨20, 1600, 900, 30⟩, ⟨21, 1600, 900, 60⟩, ⟨22, 1600, 1200, 30⟩, ⟨23, 1600, 1200, 60⟩,
   ⟨24, 1680, 1024, 30⟩, ⟨25, 1680, 1024, 60⟩, ⟨26, 1680, 1050, 30⟩, ⟨27, 1680, 1050, 60⟩,
   ⟨28, 1920, 1200, 30⟩, ⟨0, 0, 0, 0⟩]

/-- `resolutions_hh`, `src/ctl/wfd.c:90-104`. -/
def hh : List Res :=
  [⟨0, 800, 480, 30⟩, ⟨1, 800, 480, 60⟩, ⟨2, 854, 480, 30⟩, ⟨3, 854, 480, 60⟩, ⟨4, 864, 480, 30⟩,
   ⟨5, 864, 480, 60⟩, ⟨6, 640, 360, 30⟩, ⟨7, 640, 360, 60⟩, ⟨8, 960, 540, 30⟩, ⟨9, 960, 540, 60⟩,
   ⟨10, 848, 480, 30⟩, ⟨11, 848, 480, 60⟩, ⟨0, 0, 0, 0⟩]

/-- The loop of `vfd_get_cea_resolution`, `src/ctl/wfd.c:178-185`: walk until an entry with
`hres == 0`. The outer `none` is undefined behaviour (table end without such an entry, or a shift
of a signed one by 31 or more bits), `some none` is `-EINVAL`. -/
def scan (mask : Nat) : List Res → Option (Option (Nat × Nat))
  | [] => none
  | r :: t =>
    if r.hres = 0 then some none
    else if 31 ≤ r.index then none
    else if (1 <<< r.index) &&& mask ≠ 0 then some (some (r.hres, r.vres))
    else scan mask t

/-- `vfd_get_cea_resolution` (and the two others, which differ in the table only),
`src/ctl/wfd.c:171-220`. -/
def getRes (table : List Res) (mask : Nat) : Option (Option (Nat × Nat)) :=
  if mask = 0 then some none else scan mask table

/-- `vfd_generate_resolution_mask`, `src/ctl/wfd.c:133-136`; `index` is an unsigned 32-bit number,
`1` an `int`. -/
def genMask (index : Nat) : Option Nat :=
  let s := (index + 1) % W32
  if 31 ≤ s then none else some ((1 <<< s) - 1)

/-- The part of `struct ctl_sink` looked at here (`src/ctl/ctl-sink.h`), and the number of
`ctl_fn_sink_resolution_set` calls. -/
structure Sink where
  hres : Nat
  vres : Nat
  notified : Nat
  deriving DecidableEq, Repr

/-- `sink_set_format`, `src/ctl/ctl-sink.c:214-233`: return value and sink afterwards. -/
def setFormat (s : Sink) (c v h : Nat) : Option (Int × Sink) := do
  let r ← getRes cea c
  let r ← (match r with
    | some r => some (some r)
    | none => do
      let r ← getRes vesa v
      match r with
      | some r => some (some r)
      | none => getRes hh h)
  match r with
  | some (x, y) => if x ≠ 0 ∧ y ≠ 0 then some (0, { hres := x, vres := y, notified := s.notified + 1 })
                   else some (-EINVAL, s)
  | none => some (-EINVAL, s)

end Verif.Wfd
