import Verif.Model.Super
import Verif.Spec.Ratelimit
/-! # Reading the history of a supervised wpa_supplicant -/
namespace Verif.Super.Spec
open Verif.C

/-- Setup requests that wait for a reply on the present connection, and those whose connection was closed before the reply. -/
def tally : List Out → Nat × Nat := List.foldl (fun (w, l) o =>
  match o with
  | .asked _ => (w + 1, l)
  | .answered _ => (w - 1, l)
  | .closed => (0, l + w)
  | _ => (w, l)) (0, 0)

/-- Setup requests that wait for a reply on the present connection. -/
def waiting (l : List Out) : Nat := (tally l).1
/-- Setup requests that were left unanswered on earlier connections. -/
def lost (l : List Out) : Nat := (tally l).2

/-- The setup has begun on the present connection. -/
def begun : List Out → Bool := List.foldl (fun b o =>
  match o with
  | .asked .status => true
  | .closed => false
  | _ => b) false

/-- What was announced last, if announcements of start and stop alternate. -/
def told : List Out → Option Bool := List.foldl (fun b o =>
  match o, b with
  | .started, some false => some true
  | .stopped, some true => some false
  | .started, _ => none
  | .stopped, _ => none
  | _, b => b) (some false)

/-- The history since the user last started the supplicant. -/
def recent : List Out → List Out := List.foldl (fun l o => if o = .userStart then [] else l ++ [o]) []

/-- The times of failures and the delays chosen. -/
def fails : List Out → List (Nat × Nat) := List.filterMap (fun | .failed t d => some (t, d) | _ => none)
/-- The times at which no process could be started and the delays chosen. -/
def misses : List Out → List (Nat × Nat) := List.filterMap (fun | .spawnFailed t d => some (t, d) | _ => none)
/-- The times at which processes were started. -/
def spawns : List Out → List Nat := List.filterMap (fun | .spawn t => some t | _ => none)
/-- The delays chosen after failing to connect to the present process. -/
def opens : List Out → List Nat := List.foldl (fun l o =>
  match o with
  | .spawn _ => []
  | .openFailed _ d => l ++ [d]
  | _ => l) []

/-- The earliest time at which the next process may be started; `none` after a process was started too early. -/
def due : List Out → Option Nat := List.foldl (fun d o =>
  match o, d with
  | .failed t w, some _ => some (t + w)
  | .spawnFailed t w, some _ => some (t + w)
  | .userStart, some _ => some 0
  | .spawn t, some u => if u ≤ t then some u else none
  | _, d => d) (some 0)

/-- Whether there is a process that was started and not told to terminate; `none` after there were two of them or one was
told twice. -/
def alive : List Out → Option Bool := List.foldl (fun a o =>
  match o, a with
  | .spawn _, some false => some true
  | .spawn _, _ => none
  | .kill, some true => some false
  | .kill, _ => none
  | _, a => a) (some false)

/-- How many of the times are in a period. -/
def within (ts : List Nat) (a b : Nat) : Nat := ts.countP (fun t => decide (a ≤ t) && decide (t ≤ b))

end Verif.Super.Spec
