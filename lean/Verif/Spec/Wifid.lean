import Verif.Model.Wifid
/-! # What clients of the daemon see -/
namespace Verif.Wifid.Spec
open Verif.C

/-- A client takes note of a changed property. -/
def note (v : View) : Val → View
  | .name x => { v with name := x }
  | .friendly x => { v with friendly := x }
  | .wfd x => { v with wfd := x }

/-- A client that follows the signals: what it knows of object `o` (`none`: it does not exist) after one more signal. -/
def see (o : Obj) (k : Option (Option View)) : Sig → Option (Option View)
  | .added o' v => if o' = o then some v else k
  | .removed o' => if o' = o then none else k
  | .changed o' x => if o' = o then k.map (fun v => v.map fun v => note v x) else k
  | _ => k

/-- What a client knows of an object after all signals. -/
def seen (log : List Sig) (o : Obj) : Option (Option View) := log.foldl (see o) none

/-- A signal makes sense to a client that knows `k`: objects are announced when they are not known, a link as not managed, a peer only while its link is known and with
a MAC address of the usual form (as when it goes), a link goes only when none of its peers is known, properties change only of known links, names go only to devices
that are known. -/
def fits (k : Obj → Option (Option View)) : Sig → Prop
  | .added (.link idx) v => k (.link idx) = none ∧ ∃ w, v = some w ∧ w.managed = false
  | .added (.peer mac idx) v => k (.peer mac idx) = none ∧ v = none ∧ (k (.link idx)).isSome = true ∧ ∃ bs : List Byte, bs.length = 6 ∧ mac = Mac.format bs
  | .changed (.link idx) _ => (k (.link idx)).isSome = true
  | .changed (.peer _ _) _ => False
  | .device idx _ => (k (.link idx)).isSome = true
  | .subelem idx _ => (k (.link idx)).isSome = true
  | .config idx _ => (k (.link idx)).isSome = true
  | .removed (.link idx) => ∀ mac, k (.peer mac idx) = none
  | .removed (.peer mac _) => ∃ bs : List Byte, bs.length = 6 ∧ mac = Mac.format bs

/-- All signals make sense to a client that has followed those before. -/
def sound (log : List Sig) : Prop := ∀ a g b, log = a ++ g :: b → fits (seen a) g

/-- The lines of a text; a line ends with a newline. -/
def lines : List Byte → List (List Byte)
  | [] => []
  | c :: t =>
    if c = 10 then [] :: lines t
    else match lines t with
      | [] => [[c]]
      | l :: ls => (c :: l) :: ls

/-- A setting of a configuration: the text before the first `=` and the text behind. Comments are none. -/
def setting (l : List Byte) : Option (List Byte × List Byte) :=
  if l.head? = some (ch '#') then none
  else if ch '=' ∈ l then some (l.takeWhile (· ≠ ch '='), (l.dropWhile (· ≠ ch '=')).drop 1) else none

/-- All settings of a configuration. -/
def settings (s : List Byte) : List (List Byte × List Byte) := (lines s).filterMap setting

/-- The name that is to be announced by wpa_supplicant: the one the user chose, or else the name of the host. -/
def wanted (friendly host : Option (List Byte)) : Option (List Byte) := friendly.or host

end Verif.Wifid.Spec
