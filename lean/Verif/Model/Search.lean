import Verif.Model.Mirror
import Verif.Model.Atoi
/-! # Finding links and peers by what users type

The rest of `src/ctl/ctl-wifi.c`: `ctl_wifi_search_link` and `ctl_wifi_search_peer`. -/
namespace Verif.Mirror
open Verif.C

/-- `x && !strcasecmp(x, label)`. -/
def sameName (x : Option (List Byte)) (label : List Byte) : Bool :=
  match x with
  | none => false
  | some v => caseEq v label

/-- `ctl_wifi_search_link`, `ctl-wifi.c:1219-1247`. -/
def W.searchLink {σ : Type} (w : W σ) (label : List Byte) : Option Link :=
  if label = [] then none
  else match w.findLink label with
    | some l => some l
    | none =>
      match w.links.find? (fun l => sameName l.ifname label) with
      | some l => some l
      | none => w.links.find? (fun l => sameName l.friendly label)

/-- `ctl_wifi_search_link_by_peer`, `ctl-wifi.c:1264-1277`. -/
def W.searchLinkByPeer {σ : Type} (w : W σ) (label : List Byte) : Option Link :=
  if label = [] then none else (afterAt label).bind w.searchLink

/-- `next = shl_startswith(p->label, label); next && *next == '@'`, `ctl-wifi.c:1324-1325`. -/
def startsAt (plabel label : List Byte) : Bool := (label ++ [ch '@']).isPrefixOf plabel

/-- The index typed by the user, `ctl-wifi.c:1343, 1388`; `none` if the text is not a number to its end. -/
def indexOf (label : List Byte) : Option Nat :=
  let r := Atoi.atoiUn label 10
  if r.code < 0 ∨ label.drop r.next ≠ [] then none else some r.out

/-- The four passes over some peers, `ctl-wifi.c:1322-1350` and `1356-1400`. -/
def searchIn (ps : List Peer) (label : List Byte) : Option Peer :=
  match ps.find? (fun p => startsAt p.label label) with
  | some p => some p
  | none =>
    match ps.find? (fun p => sameName p.friendly label) with
    | some p => some p
    | none =>
      match ps.find? (fun p => sameName p.iface label) with
      | some p => some p
      | none => (indexOf label).bind fun i => ps[i]?

/-- `ctl_wifi_search_peer`, `ctl-wifi.c:1295-1403`; `strdup` succeeds. -/
def W.searchPeer {σ : Type} (w : W σ) (label : List Byte) : Option Peer :=
  if label = [] then none
  else match w.findPeer label with
    | some p => some p
    | none =>
      match (w.searchLinkByPeer label).bind (fun l => searchIn l.peers (label.takeWhile (· ≠ ch '@'))) with
      | some p => some p
      | none => searchIn (w.links.flatMap (·.peers)) label

end Verif.Mirror
