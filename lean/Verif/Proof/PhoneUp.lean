import Verif.Proof.Phone
/-! # Helper lemmas: the connection comes up -/
namespace Verif.Phone
open Verif.C Spec

/-- Nothing that the controller hears of. -/
theorem quiet_exchange (jk : Nat → Byte) (E : Sinkctl.Env) (W : World) {s1 : P2p.S} {o : List P2p.Out} (hl : s1.log = W.s.log ++ o)
    (ho : ∀ a ∈ o, signal W.idx s1 a = none ∧ request jk a = some []) : exchange jk E W s1 = some { W with s := s1 } := by
  have h1 : told W.idx W.s s1 = [] := by
    unfold told
    rw [hl, drop_added, List.map_eq_nil_iff, List.filterMap_eq_nil_iff]
    exact fun a ha => (ho a ha).1
  have h2 : calls W.idx W.w W.w = [] := by
    unfold calls
    rw [List.drop_length]
    rfl
  have h3 : requests jk o = some [] := by
    clear hl h1
    induction o with
    | nil => rfl
    | cons a t ih =>
      rw [requests, (ho a (List.mem_cons_self ..)).2, ih fun b hb => ho b (List.mem_cons_of_mem _ hb)]
      rfl
  unfold exchange
  rw [h1]
  simp only [Sinkctl.run, Option.bind_some, h2, P2p.S.run]
  rw [hl, drop_added, h3, Option.map_some, List.append_nil]

/-- A group on which this device is a client, owned by peer `p`. -/
structure Own (s : P2p.S) (g p : Nat) (x : P2p.Grp) (y : P2p.Peer) : Prop where
  inv : P2p.Inv s
  grp : s.gheap g = some x
  own : x.owner = some p
  peer : s.pheap p = some y
  isin : y.g = some g
  shown : y.shown = true
  off : y.connected = false

/-- The new group. -/
def client (p : Nat) (i : List Byte) : P2p.Grp := { users := 1, owner := some p, go := false, subnet := 0, ifname := i, localAddr := none, dhcp := true }

/-- The state after the group of a peer has started. -/
def joined (s : P2p.S) (p : Nat) (y : P2p.Peer) (i : List Byte) : P2p.S :=
  { s with gheap := P2p.upd s.gheap s.next (some (client p i)), groups := s.next :: s.groups, pheap := P2p.upd s.pheap p (some { y with g := some s.next }),
           next := s.next + 1, log := s.log ++ [.dhcpClient s.next] }

/-- The group of a peer starts. -/
theorem started_step {s : P2p.S} (h : P2p.Inv s) (hb : s.bus = true) {p : Nat} {y : P2p.Peer} (hp : s.pheap p = some y) (hg : y.g = none)
    {i : List Byte} (hn : ∀ g x, s.gheap g = some x → x.ifname ≠ i) : s.step (.groupStarted y.mac i false true true) = some (joined s p y i) := by
  have hf := h.g.findPeer hp rfl
  have hfg : s.findGroup i = none := by
    cases hf : s.findGroup i with
    | none => rfl
    | some g => obtain ⟨_, x, hx, e⟩ := P2p.findGroup_some hf; exact absurd e (hn g x hx)
  rcases P2p.groupNew_case h.g i false true true with ⟨t, _, _, _, hw⟩ | ⟨_, _, _, e⟩
  · simp at hw
  · simp only [P2p.S.step, P2p.Op.fromWpas, hb, Bool.not_true, Bool.and_false, Bool.false_eq_true, if_false, P2p.S.handle, hf, hfg, e]
    rw [if_neg (by simp)]
    simp only [P2p.S.setGroup, hp, hg, P2p.upd_same]
    rw [if_neg (by simp)]
    simp only [Option.isSome_none, Bool.false_eq_true, if_false, hp, P2p.upd_same, P2p.S.setPeer, P2p.S.setGrp, P2p.upd_upd]
    unfold joined
    rw [hb]
    rfl

theorem own_joined {s : P2p.S} (h : P2p.Inv s) (hb : s.bus = true) {p : Nat} {y : P2p.Peer} (hp : s.pheap p = some y) (hs : y.shown = true) (hg : y.g = none)
    (hc : y.connected = false) {i : List Byte} (hn : ∀ g x, s.gheap g = some x → x.ifname ≠ i) :
    Own (joined s p y i) s.next p (client p i) { y with g := some s.next } :=
  ⟨Inv_step h (started_step h hb hp hg hn), P2p.upd_same _ _ _, rfl, P2p.upd_same _ _ _, rfl, hs, hc⟩

theorem Own.line {s : P2p.S} {g p : Nat} {x : P2p.Grp} {y : P2p.Peer} (h : Own s g p x y) {l : List Byte} : ∀ {k : Byte} {t : List Byte},
    P2p.Spec.reads l = some (k, t) → s.step (.comm g (.line l) true true) = (s.applyLine g x k t true).bind (fun s => s.announce g) := by
  intro k t hr
  have hg : g ∈ s.groups := (h.inv.g.i.gl g).mpr ⟨x, h.grp⟩
  rw [P2p.comm_step hg, P2p.comm_line s h.grp, hr]
  rfl

/-- The local address. -/
theorem Own.lineL {s : P2p.S} {g p : Nat} {x : P2p.Grp} {y : P2p.Peer} (h : Own s g p x y) (hr : y.remote = none) {l t : List Byte}
    (e : P2p.Spec.reads l = some (ch 'L', t)) : s.step (.comm g (.line l) true true) = some (s.setGrp g { x with localAddr := some t }) ∧
      Own (s.setGrp g { x with localAddr := some t }) g p { x with localAddr := some t } y := by
  have key : s.step (.comm g (.line l) true true) = some (s.setGrp g { x with localAddr := some t }) := by
    rw [h.line e]
    unfold P2p.S.applyLine
    rw [if_pos rfl, Option.bind_some]
    unfold P2p.S.announce
    have e1 : (s.setGrp g { x with localAddr := some t }).gheap g = some { x with localAddr := some t } := P2p.upd_same _ _ _
    have e2 : (s.setGrp g { x with localAddr := some t }).pheap p = some y := h.peer
    have e3 : ({ x with localAddr := some t } : P2p.Grp).owner = some p := h.own
    have e4 : ¬ ({ x with localAddr := some t } : P2p.Grp).localAddr = none := by simp
    revert e1 e3 e4
    generalize ({ x with localAddr := some t } : P2p.Grp) = x' at e2 ⊢
    generalize s.setGrp g x' = S at e2 ⊢
    intro e1 e3 e4
    simp only [e1, if_neg e4, e3, e2, if_pos hr]
  exact ⟨key, Inv_step h.inv key, P2p.upd_same _ _ _, h.own, h.peer, h.isin, h.shown, h.off⟩

/-- Another line. -/
theorem Own.lineO {s : P2p.S} {g p : Nat} {x : P2p.Grp} {y : P2p.Peer} (h : Own s g p x y) (hr : y.remote = none) {l t : List Byte} {k : Byte}
    (e : P2p.Spec.reads l = some (k, t)) (hk : k ≠ ch 'L' ∧ k ≠ ch 'G' ∧ k ≠ ch 'R') : s.step (.comm g (.line l) true true) = some s := by
  rw [h.line e]
  unfold P2p.S.applyLine
  rw [if_neg hk.1, if_neg hk.2.1, if_neg hk.2.2, Option.bind_some]
  unfold P2p.S.announce
  simp only [h.grp, h.own, h.peer, hr]
  split <;> rfl

/-- The gateway, with the local address there. -/
theorem Own.lineG {s : P2p.S} {g p : Nat} {x : P2p.Grp} {y : P2p.Peer} (h : Own s g p x y) (ha : x.localAddr ≠ none) {l t : List Byte}
    (e : P2p.Spec.reads l = some (ch 'G', t)) : s.step (.comm g (.line l) true true) =
      some ((s.setPeer p { y with remote := some t, connected := true }).emit (.connected p true)) := by
  rw [h.line e]
  unfold P2p.S.applyLine
  rw [if_neg (by decide), if_pos rfl]
  simp only [h.own, h.peer, Option.bind_some]
  unfold P2p.S.announce
  have e1 : (s.setPeer p { y with remote := some t }).gheap g = some x := h.grp
  have e2 : (s.setPeer p { y with remote := some t }).pheap p = some { y with remote := some t } := P2p.upd_same _ _ _
  rw [e1]
  dsimp only
  rw [if_neg ha, h.own]
  dsimp only
  rw [e2]
  dsimp only
  rw [if_neg (by simp)]
  unfold P2p.S.connectedChanged
  rw [e2]
  dsimp only
  rw [if_neg (by rw [h.off]; simp)]
  simp only [P2p.S.emitIf, h.shown, if_true, P2p.S.setPeer, P2p.upd_upd]

/-- The peer as the controller sees it then. -/
def upPeer (q : Mirror.Peer) (i a gw : List Byte) : Mirror.Peer := { q with connected := true, iface := some i, loc := some a, rem := some gw }

/-- The controller then. -/
def upCtl (q : Mirror.Peer) (w : Sinkctl.S) : Sinkctl.S :=
  { w with app := { w.app with log := w.app.log ++ [.running q.id], pending := none, runPeer := some q.id, scanT := false, conn := false, time := 1, sinkT := some 1 } }

theorem four_props (s : P2p.S) (y : P2p.Peer) {g : Nat} {x : P2p.Grp} {a gw : List Byte} (hg : y.g = some g) (hx : s.gheap g = some x) (ha : x.localAddr = some a)
    (hr : y.remote = some gw) (hc : y.connected = true) : ((values s y).props y.mac).filter (fun q => q.1 ∈ four) =
      [(bytes "Connected", .b true), (bytes "Interface", .s x.ifname), (bytes "LocalAddress", .s a), (bytes "RemoteAddress", .s gw)] := by
  have e : values s y = { connected := true, iface := some x.ifname, loc := some a, rem := some gw } := by
    unfold values
    simp [hg, hx, ha, hr, hc]
  rw [e]
  rfl

/-- The controller hears that the peer is connected. -/
theorem conn_run (E : Sinkctl.Env) {w : Sinkctl.S} {m : List Byte} {idx : Nat} {q : Mirror.Peer} (hk : w.peerAt (Wifid.peerPath m idx) = some q)
    (hl : w.app.runLink = some q.l) (hd : q.wfd.getD [] ≠ []) (hi : w.app.runPeer = none) (hc : q.connected = false) (i a gw : List Byte) :
    Sinkctl.run E w [.msg (.changed (Wifid.peerPath m idx) Mirror.peerIf
      [(bytes "Connected", .b true), (bytes "Interface", .s i), (bytes "LocalAddress", .s a), (bytes "RemoteAddress", .s gw)])] =
    some (upCtl q (w.putPeer (upPeer q i a gw))) := by
  have hr : Mirror.readPeer [(bytes "Connected", .b true), (bytes "Interface", .s i), (bytes "LocalAddress", .s a), (bytes "RemoteAddress", .s gw)] {} =
      some { conn := some true, iface := some i, loc := some a, rem := some gw } := rfl
  have hp : Mirror.peerProps (Sinkctl.hooks E) q [(bytes "Connected", .b true), (bytes "Interface", .s i), (bytes "LocalAddress", .s a), (bytes "RemoteAddress", .s gw)] w =
      some (0, upPeer q i a gw, upCtl q (w.putPeer (upPeer q i a gw))) := by
    unfold Mirror.peerProps
    rw [hr]
    simp only [hc]
    rw [if_neg (by simp)]
    have e1 : { Mirror.PeerUpd.apply { conn := some true, iface := some i, loc := some a, rem := some gw } q with connected := true } = upPeer q i a gw := by
      simp [Mirror.PeerUpd.apply, upPeer]
    have e2 : Sinkctl.onConnected (upPeer q i a gw) (w.putPeer (upPeer q i a gw)) = some (upCtl q (w.putPeer (upPeer q i a gw))) := by
      unfold Sinkctl.onConnected
      rw [if_neg (by simp [Sinkctl.ignored, upPeer, Mirror.W.putPeer, hl, hd])]
      have : (w.putPeer (upPeer q i a gw)).app.runPeer = none := hi
      simp only [this]
      rfl
    simp only [if_true, Sinkctl.hooks, e1, e2]
    rfl
  simp only [Sinkctl.run, Sinkctl.step, Mirror.receive, Daemon.label_none, hk]
  rw [if_neg (by simp), hp]
  rfl

/-- Following the pointer to the running peer. -/
theorem peerAt_put {w : Sinkctl.S} {path : List Byte} {q q' : Mirror.Peer} (hk : w.peerAt path = some q) (hi : q'.id = q.id) :
    Sinkctl.peerAt (w.putPeer q') q.id = some q' := by
  obtain ⟨l, hl, hm⟩ : ∃ l ∈ w.links, q ∈ l.peers := by
    unfold Mirror.W.peerAt at hk
    obtain ⟨lab, _, hf⟩ := Option.bind_eq_some_iff.mp hk
    unfold Mirror.W.findPeer at hf
    split at hf
    · cases hf
    · obtain ⟨l, h1, h2⟩ := Option.bind_eq_some_iff.mp hf
      refine ⟨l, ?_, List.mem_of_find?_eq_some h2⟩
      unfold Mirror.W.linkByPeer at h1
      split at h1
      · cases h1
      · obtain ⟨r, _, h3⟩ := Option.bind_eq_some_iff.mp h1
        unfold Mirror.W.findLink at h3
        split at h3
        · cases h3
        · exact List.mem_of_find?_eq_some h3
  unfold Sinkctl.peerAt
  have hall : ∀ z ∈ (w.putPeer q').links.flatMap (·.peers), z.id = q.id → z = q' := by
    intro z hz e
    unfold Mirror.W.putPeer at hz
    obtain ⟨_, h2, hz⟩ := List.mem_flatMap.mp hz
    obtain ⟨l', _, rfl⟩ := List.mem_map.mp h2
    obtain ⟨z', _, rfl⟩ := List.mem_map.mp hz
    split at e
    · rename_i h1; rw [if_pos h1]
    · rename_i h1; exact absurd (e.trans hi.symm) h1
  have hex : q' ∈ (w.putPeer q').links.flatMap (·.peers) := by
    unfold Mirror.W.putPeer
    exact List.mem_flatMap.mpr ⟨_, List.mem_map.mpr ⟨l, hl, rfl⟩, List.mem_map.mpr ⟨q, hm, if_pos hi.symm⟩⟩
  cases hf : ((w.putPeer q').links.flatMap (·.peers)).find? (fun p => decide (p.id = q.id)) with
  | none => exact absurd (List.find?_eq_none.mp hf q' hex) (by simp [hi])
  | some z => rw [hall z (List.mem_of_find?_eq_some hf) (by simpa using List.find?_some hf)]

/-- Storing a peer under its own label. -/
theorem path_put {w : Sinkctl.S} {path : List Byte} {q q' : Mirror.Peer} (hk : w.peerAt path = some q) (hi : q'.id = q.id) (hl : q'.label = q.label) :
    (w.putPeer q').peerAt path = some q' := by
  unfold Mirror.W.peerAt at hk ⊢
  obtain ⟨lab, h1, hf⟩ := Option.bind_eq_some_iff.mp hk
  rw [h1, Option.bind_some]
  unfold Mirror.W.findPeer at hf ⊢
  by_cases h0 : lab = []
  · rw [if_pos h0] at hf; cases hf
  rw [if_neg h0] at hf ⊢
  obtain ⟨l, h2, h3⟩ := Option.bind_eq_some_iff.mp hf
  have h4 : (w.putPeer q').linkByPeer lab = some { l with peers := l.peers.map fun q => if q.id = q'.id then q' else q } := by
    unfold Mirror.W.linkByPeer at h2 ⊢
    rw [if_neg h0] at h2 ⊢
    obtain ⟨r, h5, h6⟩ := Option.bind_eq_some_iff.mp h2
    rw [h5, Option.bind_some]
    unfold Mirror.W.findLink at h6 ⊢
    by_cases h7 : r = []
    · rw [if_pos h7] at h6; cases h6
    rw [if_neg h7] at h6 ⊢
    unfold Mirror.W.putPeer
    rw [List.find?_map]
    show Option.map _ (w.links.find? fun l => caseEq l.label r) = _
    rw [h6]
    rfl
  rw [h4, Option.bind_some]
  unfold Mirror.Link.findPeer at h3 ⊢
  have key : ∀ ps : List Mirror.Peer, ps.find? (fun p => caseEq p.label lab) = some q →
      (ps.map fun q => if q.id = q'.id then q' else q).find? (fun p => caseEq p.label lab) = some q' := by
    intro ps
    induction ps with
    | nil => intro h; cases h
    | cons a ps ih =>
      intro h
      rw [List.find?_cons] at h
      rw [List.map_cons, List.find?_cons]
      have hq : caseEq q'.label lab = true := by
        rw [hl]
        split at h
        · rename_i ha
          injection h with h
          rw [← h]; exact ha
        · exact (List.find?_some (p := fun p : Mirror.Peer => caseEq p.label lab) h)
      by_cases ha : a.id = q'.id
      · rw [if_pos ha, hq]
      · rw [if_neg ha]
        split at h
        · injection h with h
          rw [h] at ha
          exact absurd hi.symm ha
        · exact ih h
  exact key l.peers h3

/-- The timer: the source is connected to. -/
theorem timer_run (E : Sinkctl.Env) {w : Sinkctl.S} {path : List Byte} {q : Mirror.Peer} (hk : w.peerAt path = some q) (ha : w.app.alive = true) (ho : w.app.isOpen = false)
    (i a gw : List Byte) : ∃ w', Sinkctl.step E (upCtl q (w.putPeer (upPeer q i a gw))) .sinkTimer = some w' ∧
      w'.app.log = w.app.log ++ [.running q.id, .connect (some gw)] ∧ w'.app.runPeer = some q.id ∧ w'.app.isOpen = E.acc (w.app.log.length + 1) ∧
      Sinkctl.peerAt w' q.id = some (upPeer q i a gw) ∧ w'.app.pending = none ∧
      w'.peerAt path = some (upPeer q i a gw) ∧ w'.app.runLink = w.app.runLink ∧ w'.app.alive = true ∧ w'.links = (w.putPeer (upPeer q i a gw)).links := by
  have hpp : (w.putPeer (upPeer q i a gw)).peerAt path = some (upPeer q i a gw) := path_put hk rfl rfl
  have hp : ∀ c, Sinkctl.peerAt { w.putPeer (upPeer q i a gw) with app := c } q.id = some (upPeer q i a gw) := fun c => peerAt_put hk rfl
  simp only [Sinkctl.step, upCtl, reduceCtorEq, if_false]
  unfold Sinkctl.sinkFn
  simp only [hp]
  simp only [upPeer, Bool.not_true, Bool.false_eq_true, if_false, Mirror.W.putPeer, ha, ho, Option.bind_eq_bind, Option.bind_some, Sinkctl.act, Sinkctl.steps,
    Option.isSome_some, Bool.and_true, List.length_append, List.length_cons, List.length_nil, Nat.zero_add]
  cases hacc : E.acc (w.app.log.length + 1)
  · simp only [Bool.false_eq_true, if_false]
    rw [if_neg (by omega)]
    exact ⟨_, rfl, by simp, rfl, rfl, hp _, rfl, hpp, rfl, rfl, rfl⟩
  · simp only [if_true]
    exact ⟨_, rfl, by simp, rfl, rfl, hp _, rfl, hpp, rfl, rfl, rfl⟩

end Verif.Phone
