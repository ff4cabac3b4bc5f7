import Verif.Proof.MirrorRun
/-! # C56, C93: the controllers' copy of the links and peers -/
namespace Verif.Mirror
open Verif.C

/-- A program that does nothing, for the examples. -/
def idle : Hooks Unit :=
  { peerNew := fun _ => some, peerFree := fun _ => some, connected := fun _ => some, disconnected := fun _ => some, linkNew := fun _ => some, linkFree := fun _ => some,
    prov := fun _ _ _ => some, goNeg := fun _ _ _ => some, failure := fun _ _ => some }

/-- A program that marks every link when a peer connects. -/
def marker : Hooks Unit := { idle with connected := fun _ w => some { w with links := w.links.map fun l => { l with haveScan := true } } }

theorem idle_quiet : Quiet idle := by
  have e : ∀ w w' : W Unit, some w = some w' → w'.next = w.next ∧ ∃ g : Link → Bool, w'.links = w.links.map fun l => { l with haveScan := g l } := by
    intro w w' h
    injection h with h
    subst h
    exact ⟨rfl, fun l => l.haveScan, by simp⟩
  exact ⟨fun _ => ⟨e, e, e, e⟩, fun _ => ⟨e, e⟩, fun _ _ _ => ⟨e, e⟩, fun _ _ => e⟩

theorem marker_quiet : Quiet marker := by
  obtain ⟨h1, h2, h3, h4⟩ := idle_quiet
  refine ⟨fun p => ⟨(h1 p).1, (h1 p).2.1, ?_, (h1 p).2.2.2⟩, h2, h3, h4⟩
  intro w w' h
  injection h with h
  subst h
  exact ⟨rfl, fun _ => true, rfl⟩

/-- The empty copy. -/
def start : W Unit := { app := () }

/-- The path of link 3 and of a peer on it, as `miracle-wifid` makes them. -/
def l3 : List Byte := bytes "/org/freedesktop/miracle/wifi/link/_33"
/-- A peer on link 3. -/
def pA : List Byte := bytes "/org/freedesktop/miracle/wifi/peer/aa_3abb_403"
/-- The same label, written with capitals. -/
def pA' : List Byte := bytes "/org/freedesktop/miracle/wifi/peer/AA_3abb_403"

/-- A conversation for the examples. -/
def talk : List Msg := [
  .added pA [(peerIf, [])],
  .objects [(l3, [(linkIf, [(bytes "InterfaceName", .s (bytes "wlan0")), (bytes "Managed", .b true)])]), (pA, [(peerIf, [(bytes "FriendlyName", .s (bytes "tv"))])])],
  .added pA' [(peerIf, [])],
  .changed pA peerIf [(bytes "Connected", .b true), (bytes "LocalAddress", .s (bytes "10.0.0.1"))],
  .changed l3 linkIf [(bytes "P2PScanning", .other)]]

/-- **C56.** For all programs that leave the copy alone and all sequences of messages: the copy holds, under
every label, exactly what a listener knows that remembers the last values said of an object, forgets
objects (and the peers of a link) when they are removed, and ignores what it cannot place. -/
theorem copy_follows {σ : Type} (H : Hooks σ) (hq : Quiet H) (ms : List Msg) (a : σ) (w : W σ) (hr : runMsgs H { app := a } ms = some w) :
    (∀ label, label ≠ [] → (w.findLink label).map Link.view = (ms.foldl Known.hear .nothing).link (key label)) ∧
    ∀ label, (w.findPeer label).map Peer.view = (ms.foldl Known.hear .nothing).peer (key label) :=
  have h := run_rel hq ms (rel_start a 1) hr
  ⟨fun _ hl => h.findLink hl, h.findPeer⟩

example : ∃ w, runMsgs marker start talk = some w ∧ Quiet marker ∧
    (w.findPeer (bytes "aa:bb@3")).map Peer.view = some { friendly := some (bytes "tv"), connected := true, loc := some (bytes "10.0.0.1") } ∧
    (w.findLink (bytes "3")).map Link.view = some { ifname := some (bytes "wlan0"), managed := true } ∧
    w.links.map (·.haveScan) = [true] ∧ (w.links.map (·.peers.length)) = [1] :=
  ⟨_, rfl, marker_quiet, by decide +kernel, by decide +kernel, by decide +kernel, by decide +kernel⟩

example : ∃ w, runMsgs marker start (talk ++ [.removed l3]) = some w ∧ w.links = [] ∧ w.findPeer (bytes "aa:bb@3") = none :=
  ⟨_, rfl, by decide +kernel, by decide +kernel⟩

/-- **C56**, the shape of the copy: links differ in their labels (up to case, unless these are empty), peers differ in
their labels, every peer refers to the link that lists it, which is the one named in its label, and no two
objects share an address. -/
theorem copy_wellformed {σ : Type} (H : Hooks σ) (hq : Quiet H) (ms : List Msg) (a : σ) (w : W σ) (hr : runMsgs H { app := a } ms = some w) :
    (w.links.Pairwise fun x y => x.label ≠ [] → key x.label ≠ key y.label) ∧
    (∀ l ∈ w.links, l.peers.Pairwise fun x y => key x.label ≠ key y.label) ∧
    (∀ l ∈ w.links, ∀ p ∈ l.peers, p.l = l.id ∧ ∃ m r, p.label = m ++ ch '@' :: r ∧ ch '@' ∉ m ∧ r ≠ [] ∧ key r = key l.label) ∧
    (∀ l ∈ w.links, ∀ l' ∈ w.links, l.id = l'.id → l = l') ∧
    ∀ l ∈ w.links, ∀ l' ∈ w.links, ∀ p ∈ l.peers, ∀ p' ∈ l'.peers, p.id = p'.id ∨ key p.label = key p'.label → l = l' ∧ p = p' := by
  have g := (run_rel hq ms (rel_start a 1) hr).good
  refine ⟨?_, ?_, ?_, fun l hl l' hl' e => g.uniq hl hl' e, ?_⟩
  · have := g.labels
    rw [List.pairwise_map] at this
    exact this
  · intro l hl
    have := g.peers _ (List.mem_map_of_mem hl)
    change (l.peers.map pshape).Pairwise _ at this
    rw [List.pairwise_map] at this
    exact this
  · intro l hl p hp
    obtain ⟨h1, -, r, h2, h3, h4⟩ := g.own _ (List.mem_map_of_mem hl) _ (List.mem_map_of_mem hp)
    refine ⟨h1, p.label.takeWhile (· ≠ ch '@'), r, ?_, ?_, h3, h4⟩
    · change afterAt p.label = some r at h2
      have e := List.takeWhile_append_dropWhile (p := fun x => decide (x ≠ ch '@')) (l := p.label)
      unfold afterAt at h2
      split at h2
      · cases h2
      · rename_i c t hd
        injection h2 with h2
        have hc : c = ch '@' := by
          have := List.head?_dropWhile_not (fun x => decide (x ≠ ch '@')) p.label
          rw [hd] at this
          simpa using this
        rw [hd, h2, hc] at e
        exact e.symm
    · intro hm
      have := List.all_eq_true.mp (List.all_takeWhile (p := fun x => decide (x ≠ ch '@')) (l := p.label)) _ hm
      simp at this
  · intro l hl l' hl' p hp p' hp' e
    rcases e with e | e
    · exact g.uniqPid hl hl' hp hp' e
    · exact g.uniqPeer hl hl' hp hp' e

example : ∃ w, runMsgs marker start talk = some w ∧ w.links.map (fun l => (l.id, l.label, l.peers.map fun p => (p.id, p.l, p.label))) = [(1, bytes "3", [(2, 1, bytes "aa:bb@3")])] :=
  ⟨_, rfl, by decide +kernel⟩

/-- **C56 fails** for links whose label is empty: each announcement adds another one, and none can be removed. -/
theorem empty_label_duplicates : ∃ (path : List Byte) (w : W Unit), runMsgs idle start [.added path [], .added path [], .removed path] = some w ∧
    w.links.map (·.label) = [[], []] :=
  ⟨bytes "/org/freedesktop/miracle/wifi/link/_", _, rfl, by decide +kernel⟩

/-- The listing can be taken over: labels of links are not empty, properties have the right types, and the link
of a peer is listed before it. -/
def Orderly (l : List (List Byte × Ifaces)) : Prop :=
  ∀ before path ifs after, l = before ++ (path, ifs) :: after →
    match labelOf Wifid.linkPre path with
    | some label => label ≠ [] ∧ (about linkIf ifs).all linkTyped
    | none =>
      match labelOf Wifid.peerPre path with
      | none => True
      | some label => (about peerIf ifs).all peerTyped ∧
          ∃ r, afterAt label = some r ∧ r ≠ [] ∧ ∃ q ∈ before, ∃ lab, labelOf Wifid.linkPre q.1 = some lab ∧ key lab = key r

/-- **C93**, without the case that peers are listed before their links: after an orderly listing of the existing objects all of them are
known. -/
theorem fetch_complete_partial {σ : Type} (H : Hooks σ) (hq : Quiet H) (l : List (List Byte × Ifaces)) (ho : Orderly l) (a : σ) (e : Int) (w : W σ)
    (hr : fetch H l { app := a } = some (e, w)) :
    e = 0 ∧ ∀ q ∈ l, match labelOf Wifid.linkPre q.1 with
      | some label => (w.findLink label).isSome
      | none => ∀ label, labelOf Wifid.peerPre q.1 = some label → (w.findPeer label).isSome := by
  have hR := fetch_step hq l (rel_start a 1) hr
  have hE := fetch_known hq l [] (rel_start a 1) (fun q hq => absurd hq (by simp)) ho hr
  refine ⟨hE.1, fun q hm => ?_⟩
  have := hE.2 q hm
  unfold knows at this
  split
  · rename_i label hl
    rw [hl] at this
    have h1 := hR.findLink this.1
    rw [← Option.isSome_map (f := Link.view), h1]
    exact this.2
  · rename_i hl
    rw [hl] at this
    intro label hlab
    rw [hlab] at this
    have h1 := hR.findPeer label
    rw [← Option.isSome_map (f := Peer.view), h1]
    exact this

example : Orderly [(l3, []), (pA, [(peerIf, [])])] ∧ ∃ w, fetch idle [(l3, []), (pA, [(peerIf, [])])] start = some (0, w) ∧ (w.findPeer (bytes "AA:bb@3")).isSome := by
  refine ⟨?_, _, rfl, by decide +kernel⟩
  intro before path ifs after h
  match before, h with
  | [], h =>
    simp only [List.nil_append, List.cons.injEq, Prod.mk.injEq] at h
    obtain ⟨⟨rfl, rfl⟩, -⟩ := h
    have e : labelOf Wifid.linkPre l3 = some (bytes "3") := by decide +kernel
    rw [e]
    exact ⟨by decide +kernel, rfl⟩
  | [b], h =>
    simp only [List.cons_append, List.nil_append, List.cons.injEq, Prod.mk.injEq] at h
    obtain ⟨rfl, ⟨rfl, rfl⟩, -⟩ := h
    have e : labelOf Wifid.linkPre pA = none := by decide +kernel
    have e2 : labelOf Wifid.peerPre pA = some (bytes "aa:bb@3") := by decide +kernel
    rw [e, e2]
    exact ⟨by decide +kernel, bytes "3", by decide +kernel, by decide +kernel, (l3, []), by simp, bytes "3", by decide +kernel, rfl⟩
  | b :: c :: d, h => simp at h

/-- **C93 fails**: a peer listed before its link ends the reading with `-EBUSY`; neither the peer nor anything after it becomes
known. A peer announced before its link is not known either, whatever is announced next. -/
theorem peer_first_lost : ∃ peer link : List Byte,
    (∀ (e : Int) (w : W Unit), fetch idle [(peer, []), (link, [])] start = some (e, w) → e = -EBUSY ∧ w.links = []) ∧
    ∀ w : W Unit, runMsgs idle start [.added peer [], .added link []] = some w → w.links.map (·.peers) = [[]] := by
  refine ⟨pA, l3, ?_, ?_⟩
  · intro e w h
    have : fetch idle [(pA, []), (l3, [])] start = some (-EBUSY, { app := () }) := by decide +kernel
    rw [this] at h
    simp only [Option.some.injEq, Prod.mk.injEq] at h
    obtain ⟨rfl, rfl⟩ := h
    exact ⟨rfl, rfl⟩
  · intro w h
    have : (runMsgs idle start [.added pA [], .added l3 []]).map (fun w => w.links.map (·.peers)) = some [[]] := by decide +kernel
    rw [h] at this
    simpa using this

end Verif.Mirror
