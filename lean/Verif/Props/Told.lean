import Verif.Proof.Told
import Verif.Props.Mirror
/-! # C99: what the program is told of links and peers -/
namespace Verif.Mirror
open Verif.C

/-- **C99**, without the case that a peer is connected before it is announced.  For all programs that leave the copy alone and all
sequences of messages: a record of the calls does not change what the program does, and a follower of the record finds no call out of
place (an object announced twice, or ended without having been announced; a peer of an unknown link; a link ended before its peers; a connected peer that connects;
a group formed with an unknown peer) and knows in the end the links, the peers, their links and whether they are connected. -/
theorem told_once_partial {σ : Type} (H : Hooks σ) (hq : Quiet H) (ms : List Msg) (a : σ) (w : W σ) (hr : runMsgs H { app := a } ms = some w) :
    ∃ (calls : List Tell) (k : Told), runMsgs (spy H) { app := (a, []) } ms = some { links := w.links, next := w.next, app := (w.app, calls) } ∧
      Told.all {} calls = some k ∧ k.links = w.links.map (·.id) ∧ ∀ x, x ∈ k.peers ↔ x ∈ present w := by
  have hb := runMsgs_bare H ms { app := (a, []) }
  have e0 : bare ({ app := (a, []) } : W (σ × List Tell)) = { app := a } := rfl
  rw [e0, hr] at hb
  obtain ⟨v, hv, rfl⟩ := Option.map_eq_some_iff.mp hb
  obtain ⟨k, h1, h2, h3⟩ := (Tells.start a).run hq ms (rel_start (a, []) 1) hv
  exact ⟨v.app.2, k, hv, h1, h2, h3⟩

/-- The calls of a run, for the examples. -/
def callsOf (ms : List Msg) : Option (List Tell) := (runMsgs (spy marker) { app := ((), []) } ms).map (·.app.2)

example : ∃ w, runMsgs marker start talk = some w ∧ Quiet marker ∧ present w = [(2, 1, true)] ∧
    callsOf talk = some [.linkNew 1, .peerNew 2 1 false, .up 2] ∧
    callsOf (talk ++ [.goNeg pA [] [], .removed l3]) = some [.linkNew 1, .peerNew 2 1 false, .up 2, .formation 2, .peerFree 2, .linkFree 1] :=
  ⟨_, rfl, marker_quiet, by decide +kernel, by decide +kernel, by decide +kernel⟩

/-- **C99**, the end: when the copy is freed after any messages, every link and peer that was announced is ended. -/
theorem told_gone {σ : Type} (H : Hooks σ) (hq : Quiet H) (ms : List Msg) (a : σ) (w : W σ) (hr : runMsgs H { app := a } ms = some w)
    (w' : W σ) (hf : freeLinks H w.links.reverse w = some w') :
    ∃ calls more : List Tell, runMsgs (spy H) { app := (a, []) } ms = some { links := w.links, next := w.next, app := (w.app, calls) } ∧
      freeLinks (spy H) w.links.reverse { links := w.links, next := w.next, app := (w.app, calls) } = some { links := [], next := w'.next, app := (w'.app, more) } ∧
      Told.all {} more = some {} ∧ w'.links = [] := by
  have hb := runMsgs_bare H ms { app := (a, []) }
  have e0 : bare ({ app := (a, []) } : W (σ × List Tell)) = { app := a } := rfl
  rw [e0, hr] at hb
  obtain ⟨v, hv, rfl⟩ := Option.map_eq_some_iff.mp hb
  have hR := run_rel (spy_quiet hq) ms (rel_start (a, []) 1) hv
  have ht := (Tells.start a).run hq ms (rel_start (a, []) 1) hv
  have hfb := freeLinks_bare H (bare v).links.reverse v
  rw [hf] at hfb
  obtain ⟨u, hu, rfl⟩ := Option.map_eq_some_iff.mp hfb
  have hd : v.links.reverse.Pairwise fun x y => x.id ≠ y.id := by
    rw [List.pairwise_reverse]
    have := hR.good.ids
    rw [List.map_map, List.Nodup, List.pairwise_map] at this
    exact this.imp fun h => h.symm
  obtain ⟨⟨k, h1, h2, h3⟩, h4⟩ := ht.freeLinks hq v.links.reverse hR.good (fun l hl => ⟨l, List.mem_reverse.mp hl, rfl⟩)
    (fun x hx => ⟨x, List.mem_reverse.mpr hx, rfl⟩) hd hu
  refine ⟨v.app.2, u.app.2, hv, ?_, ?_, h4⟩
  · have : u = { links := [], next := (bare u).next, app := ((bare u).app, u.app.2) } := by rw [← h4]; rfl
    rw [← this]; exact hu
  · rw [h1]
    obtain ⟨kl, kp⟩ := k
    simp only at h2 h3
    rw [h4] at h2
    have : kp = [] := by
      rw [List.eq_nil_iff_forall_not_mem]
      intro x hx
      obtain ⟨l, hl, -⟩ := mem_present.mp ((h3 x).mp hx)
      rw [h4] at hl; cases hl
    rw [h2, this]; rfl

example : ∃ w w', runMsgs marker start talk = some w ∧ freeLinks marker w.links.reverse w = some w' ∧
    ((runMsgs (spy marker) { app := ((), []) } talk).bind fun v => freeLinks (spy marker) v.links.reverse v).map (·.app.2) =
      some [.linkNew 1, .peerNew 2 1 false, .up 2, .peerFree 2, .linkFree 1] :=
  ⟨_, _, rfl, rfl, by decide +kernel⟩

/-- **C99 fails** for the order of the calls: a peer that is connected when it is announced is reported connected before it is reported new; and if another
interface of it then has a value of the wrong type, it is reported connected and never reported new, nor gone. -/
theorem connected_before_new :
    (∃ ms, callsOf ms = some [.linkNew 1, .up 2, .peerNew 2 1 true]) ∧
    ∃ ms, callsOf ms = some [.linkNew 1, .up 2, .linkFree 1] :=
  ⟨⟨[.added l3 [], .added pA [(peerIf, [(bytes "Connected", .b true)])]], by decide +kernel⟩,
   [.added l3 [], .added pA [(peerIf, [(bytes "Connected", .b true)]), (peerIf, [(bytes "FriendlyName", .b true)])], .removed l3], by decide +kernel⟩

/-- Calls that a follower refuses. -/
example : Told.all {} [.linkNew 1, .linkNew 1] = none ∧ Told.all {} [.linkNew 1, .peerNew 2 1 false, .linkFree 1] = none ∧ Told.all {} [.linkNew 1, .peerNew 2 1 true, .up 2] = none ∧
    Told.all {} [.peerNew 2 1 true] = none ∧ Told.all {} [.linkNew 1, .peerFree 2] = none := by decide +kernel

end Verif.Mirror
