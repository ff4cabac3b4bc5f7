import Verif.Model.WpasMatch
/-!
# Match callbacks of the RTSP bus

Model of the list of matches of `src/shared/rtsp.c`. The list, `rtsp_add_match` (`src/shared/rtsp.c:3131-3148`), `rtsp_remove_match` (`3162-3181`) and `rtsp_free_match` (`3183-3190`) are
those of `src/shared/wpas.c` word for word, with `is_calling` and `is_removed` for `calling` and `removed`, so the definitions `Reg`, `add`, `remove` and `change` of `Model/WpasMatch.lean` are used. The walk is
another one: `shl_dlist_for_each` takes the next element after the callback has run. What a callback does to the list and what it returns is given by the environment, one item for each call. Callbacks
do not run inside of each other: only `rtsp_incoming_message` and `rtsp_hup` call them, from the event loop. Allocation succeeds.
-/
namespace Verif.RtspMatch
open Verif.WpasMatch (Reg MOp change)

/-- The first loop of `rtsp_call`, `src/shared/rtsp.c:2630-2638`, at element `i`: the list after it, the matches called and `r`; `last` is `r` so far. `none` if a callback does not return (the environment
has no item for it). -/
def loop (r : Reg) (i : Nat) (last : Int) : List (List MOp × Int) → Option (Reg × List Nat × Int)
  | [] => if i < r.list.length then none else some (r, [], last)
  | (ops, ret) :: t =>
    match r.list[i]? with
    | none => some (r, [], last)
    | some m =>
      let r' := ops.foldl change r
      if ret ≠ 0 then some (r', [m.key], ret)
      else (loop r' (i + 1) ret t).map (fun x => (x.1, m.key :: x.2.1, x.2.2))

/-- `rtsp_call`, `src/shared/rtsp.c:2618-2649`: the list afterwards, the matches called and the return value. -/
def call (r : Reg) (behaviour : List (List MOp × Int)) : Option (Reg × List Nat × Int) :=
  (loop { r with calling := true } 0 0 behaviour).map
    (fun x => ({ list := x.1.list.filter (fun m => !m.removed), calling := false }, x.2))

/-- What happens to a bus. -/
inductive Op
  | change (o : MOp)
  | dispatch (behaviour : List (List MOp × Int))
  deriving DecidableEq, Repr

/-- A run of changes and dispatches. -/
def run : Reg → List Op → Option Reg
  | r, [] => some r
  | r, .change o :: t => run (change r o) t
  | r, .dispatch b :: t => (call r b).bind (fun x => run x.1 t)

end Verif.RtspMatch
