import Verif.Spec.Mirror
/-! # Specification: what the program is told

The program behind the copy is told of changes by calls of its functions.  `spy H` is the program `H` with a record of the calls; a
follower of the record knows which links and peers exist and which peers are connected. -/
namespace Verif.Mirror
open Verif.C

/-- The calls about objects. -/
inductive Tell where
  | linkNew (i : Nat)
  | linkFree (i : Nat)
  | peerNew (i l : Nat) (connected : Bool)
  | peerFree (i : Nat)
  | up (i : Nat)
  | down (i : Nat)
  | formation (i : Nat)
deriving DecidableEq, Repr

/-- The function, and a record that it was called. -/
def noted {σ : Type} (t : List Tell) (f : W σ → Option (W σ)) (w : W (σ × List Tell)) : Option (W (σ × List Tell)) :=
  (f { links := w.links, next := w.next, app := w.app.1 }).map fun v => { links := v.links, next := v.next, app := (v.app, w.app.2 ++ t) }

/-- The state, without the record. -/
def bare {σ : Type} (w : W (σ × List Tell)) : W σ := { links := w.links, next := w.next, app := w.app.1 }

/-- A program, with a record of the calls. -/
def spy {σ : Type} (H : Hooks σ) : Hooks (σ × List Tell) :=
  { peerNew := fun p => noted [.peerNew p.id p.l p.connected] (H.peerNew p)
    peerFree := fun p => noted [.peerFree p.id] (H.peerFree p)
    connected := fun p => noted [.up p.id] (H.connected p)
    disconnected := fun p => noted [.down p.id] (H.disconnected p)
    linkNew := fun l => noted [.linkNew l.id] (H.linkNew l)
    linkFree := fun l => noted [.linkFree l.id] (H.linkFree l)
    prov := fun p a b => noted [.formation p.id] (H.prov p a b)
    goNeg := fun p a b => noted [.formation p.id] (H.goNeg p a b)
    failure := fun p a => noted [.formation p.id] (H.failure p a) }

/-- What a follower of the record knows: the links, and the peers with their link and whether they are connected. -/
structure Told where
  links : List Nat := []
  peers : List (Nat × Nat × Bool) := []
deriving DecidableEq, Repr

/-- A known peer changes its state; of peers that were not announced yet nothing is noted. -/
def Told.set (k : Told) (i : Nat) (c : Bool) : Option Told :=
  if k.peers.any (fun x => x.1 == i && x.2.2 == c) then none
  else some { k with peers := k.peers.map fun x => if x.1 = i then (i, x.2.1, c) else x }

/-- Links are announced once and end once, after all their peers; peers are announced once, on an announced link, and end once; a
peer that is connected is not connected again, and the other way around; the forming of a group
is told of announced peers. -/
def Told.step (k : Told) : Tell → Option Told
  | .linkNew i => if i ∈ k.links then none else some { k with links := k.links ++ [i] }
  | .linkFree i => if i ∈ k.links ∧ k.peers.all (fun x => x.2.1 != i) then some { k with links := k.links.filter (· ≠ i) } else none
  | .peerNew i l c => if l ∈ k.links ∧ k.peers.all (fun x => x.1 != i) then some { k with peers := k.peers ++ [(i, l, c)] } else none
  | .peerFree i => if k.peers.any (fun x => x.1 == i) then some { k with peers := k.peers.filter (·.1 ≠ i) } else none
  | .up i => k.set i true
  | .down i => k.set i false
  | .formation i => if k.peers.any (fun x => x.1 == i) then some k else none

/-- All calls. -/
def Told.all (k : Told) : List Tell → Option Told
  | [] => some k
  | t :: ts => (k.step t).bind (·.all ts)

/-- The peers of the copy. -/
def present {σ : Type} (w : W σ) : List (Nat × Nat × Bool) := w.links.flatMap fun l => l.peers.map fun p => (p.id, p.l, p.connected)

end Verif.Mirror
