import Verif.C.Basic
/-!
# Match callbacks of the wpa_supplicant control bus

Model of the list of matches of `src/shared/wpas.c`.  A match is named by a number that stands for the pair of
function and user data.  What a callback does to the list and what it returns is given by the environment, one
item for each call of a callback.  Callbacks are not called while one is running: they are only called from
`wpas_io_fn` and `wpas_timer_fn`, which the event loop calls.  Allocation succeeds.
-/
namespace Verif.WpasMatch
open Verif.C

/-- `struct wpas_match`, `src/shared/wpas.c:82-88`. -/
structure Match where
  key : Nat
  removed : Bool := false
  deriving DecidableEq, Repr

/-- `match_list` and `calling` of `struct wpas`, `src/shared/wpas.c:90-112`. -/
structure Reg where
  list : List Match := []
  calling : Bool := false
  deriving DecidableEq, Repr

/-- `wpas_add_match`, `src/shared/wpas.c:1606-1626`: link at the tail. -/
def add (r : Reg) (key : Nat) : Reg := { r with list := r.list ++ [{ key := key }] }

/-- Set `removed` of the match that the loop of `wpas_remove_match`, `src/shared/wpas.c:1638-1648`, finds: going
backwards, the first one with the key. -/
def markLast (key : Nat) : List Match → List Match
  | [] => []
  | m :: t =>
    if t.any (fun x => x.key = key) then m :: markLast key t
    else if m.key = key then { m with removed := true } :: t else m :: t

/-- Free the match that the loop of `wpas_remove_match`, `src/shared/wpas.c:1638-1648`, finds. -/
def eraseLast (key : Nat) : List Match → List Match
  | [] => []
  | m :: t =>
    if t.any (fun x => x.key = key) then m :: eraseLast key t
    else if m.key = key then t else m :: t

/-- `wpas_remove_match`, `src/shared/wpas.c:1628-1649`. -/
def remove (r : Reg) (key : Nat) : Reg :=
  { r with list := if r.calling then markLast key r.list else eraseLast key r.list }

/-- What a callback does to the list. -/
inductive MOp
  | add (key : Nat)
  | remove (key : Nat)
  deriving DecidableEq, Repr

/-- One change of the list. -/
def change (r : Reg) : MOp → Reg
  | .add k => add r k
  | .remove k => remove r k

/-- The first loop of `wpas__call`, `src/shared/wpas.c:854-859`, at element `i` of the list.  The macro takes the
next element before the callback runs; the head of the list follows the last element.  The result has the
matches called; `none` if a callback does not return. -/
def loop (r : Reg) (i : Nat) : List (List MOp × Int) → Option (Reg × List Nat)
  | [] => if i < r.list.length then none else some (r, [])
  | (ops, ret) :: t =>
    match r.list[i]? with
    | none => some (r, [])
    | some m =>
      let isLast := decide (i + 1 = r.list.length)
      let r' := ops.foldl change r
      if ret ≠ 0 then some (r', [m.key])
      else if isLast then some (r', [m.key])
      else (loop r' (i + 1) t).map (fun x => (x.1, m.key :: x.2))

/-- `wpas__call`, `src/shared/wpas.c:847-867`. -/
def call (r : Reg) (behaviour : List (List MOp × Int)) : Option (Reg × List Nat) :=
  (loop { r with calling := true } 0 behaviour).map
    (fun x => ({ list := x.1.list.filter (fun m => !m.removed), calling := false }, x.2))

/-- What happens to a bus. -/
inductive Op
  | change (o : MOp)
  | dispatch (behaviour : List (List MOp × Int))
  deriving DecidableEq, Repr

/-- A run of changes and dispatches from an empty list (`wpas_new`, `src/shared/wpas.c:1108-1141`). -/
def run : Reg → List Op → Option Reg
  | r, [] => some r
  | r, .change o :: t => run (change r o) t
  | r, .dispatch b :: t => (call r b).bind (fun x => run x.1 t)

end Verif.WpasMatch
