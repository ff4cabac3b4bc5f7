import Verif.Proof.PhoneGo
import Verif.Spec.PhoneDown
import Verif.Props.Ask
/-! # Helper lemmas: the connection ends -/
namespace Verif.Phone
open Verif.C Spec

/-! ## The daemon -/

theorem detachAll_none (g : Nat) : ∀ (l : List Nat) (s : P2p.S), (∀ r z, s.pheap r = some z → z.g ≠ some g) → s.detachAll g l = s
  | [], _, _ => rfl
  | r :: l, s, h => by
    have e : s.detachIf g r = s := by
      unfold P2p.S.detachIf
      cases hr : s.pheap r with
      | none => rfl
      | some z => simp only [if_neg (h r z hr)]
    unfold P2p.S.detachAll
    rw [List.foldl_cons, e]
    exact detachAll_none g l s h

theorem detachAll_one (g : Nat) {p : Nat} {y : P2p.Peer} : ∀ (l : List Nat) (s : P2p.S), p ∈ l → s.pheap p = some y → y.g = some g → Sole s g p → s.detachAll g l = s.detach p y
  | [], _, h, _, _, _ => by cases h
  | r :: l, s, h, hp, hy, hs => by
    unfold P2p.S.detachAll
    rw [List.foldl_cons]
    by_cases e : r = p
    · subst e
      have e1 : s.detachIf g r = s.detach r y := by
        unfold P2p.S.detachIf
        simp only [hp, hy, if_true]
      rw [e1]
      refine detachAll_none g l _ ?_
      intro r' z hz hg
      by_cases e2 : r' = r
      · subst e2
        have : (s.detach r' y).pheap r' = some y.alone := P2p.upd_same _ _ _
        rw [this] at hz
        cases hz
        cases hg
      · have : (s.detach r y).pheap r' = s.pheap r' := P2p.upd_ne _ _ e2
        rw [this] at hz
        exact e2 (hs r' z hz hg)
    · have e1 : s.detachIf g r = s := by
        unfold P2p.S.detachIf
        cases hr : s.pheap r with
        | none => rfl
        | some z => simp only [if_neg (fun hz => e (hs r z hr hz))]
      rw [e1]
      refine detachAll_one g l s ?_ hp hy hs
      rcases List.mem_cons.mp h with h | h
      · exact absurd h.symm e
      · exact h

theorem count_sole {s : P2p.S} (hn : s.peers.Nodup) {g p : Nat} (hs : Sole s g p) : s.peers.countP (P2p.inG s g) ≤ 1 := by
  have h1 : ∀ r ∈ s.peers, P2p.inG s g r = true → r = p := by
    intro r _ hr
    unfold P2p.inG at hr
    cases hz : s.pheap r with
    | none => simp [hz] at hr
    | some z => exact hs r z hz (by simpa [hz] using hr)
  have key : ∀ l : List Nat, l.Nodup → (∀ r ∈ l, P2p.inG s g r = true → r = p) → l.countP (P2p.inG s g) ≤ 1 := by
    intro l
    induction l with
    | nil => intro _ _; simp
    | cons a l ih =>
      intro hn h
      rw [List.countP_cons]
      by_cases ha : P2p.inG s g a = true
      · have h0 : l.countP (P2p.inG s g) = 0 := by
          rw [List.countP_eq_zero]
          intro r hr hc
          have e1 := h a List.mem_cons_self ha
          have e2 := h r (List.mem_cons_of_mem _ hr) hc
          exact (List.nodup_cons.mp hn).1 (by rw [e1, ← e2]; exact hr)
        rw [h0, if_pos ha]; omega
      · rw [if_neg ha]
        exact ih (List.nodup_cons.mp hn).2 fun r hr => h r (List.mem_cons_of_mem _ hr)
  exact key s.peers hn h1

/-- A group with one peer is destroyed. -/
theorem freed_sole {s : P2p.S} (h : P2p.Good s) {g p : Nat} {x : P2p.Grp} {y : P2p.Peer} (hp : s.pheap p = some y) (hy : y.g = some g) (hs : Sole s g p) :
    s.freed g x = { s with pheap := P2p.upd s.pheap p (some y.alone), groups := s.groups.erase g, gheap := P2p.upd s.gheap g none,
                           log := s.log ++ ((if s.bus then [.groupRemove x.ifname] else []) ++ (if x.dhcp then [.dhcpKill g] else []) ++ (if y.connected && y.shown then [.connected p false] else [])) } := by
  have e : (s.killed g x).detachAll g s.peers = (s.killed g x).detach p y :=
    detachAll_one g s.peers _ ((h.i.pl p).mpr ⟨y, hp⟩) hp hy hs
  unfold P2p.S.freed
  rw [e]
  simp only [P2p.S.detach, P2p.S.killed, List.append_assoc]

/-- The group is freed, and its only peer owns it. -/
theorem free_owned {s : P2p.S} (h : P2p.Inv s) {g p : Nat} {x : P2p.Grp} (hx : s.gheap g = some x)
    (ho : x.owner = some p) (hs : Sole s g p) : P2p.S.groupFree P2p.depth s g = some (s.freed g x) := by
  rcases h.g.groupFree hx with ⟨⟨x', hx', hne, _⟩, _⟩ | ⟨_, e, _⟩
  · exfalso
    rw [hx] at hx'
    cases hx'
    apply hne
    unfold P2p.Spec.plain
    rw [List.filter_eq_nil_iff]
    intro r hr
    obtain ⟨z, hz, hzg⟩ : ∃ z, s.pheap r = some z ∧ z.g = some g := by
      unfold P2p.Spec.members at hr
      have := (List.mem_filter.mp hr).2
      cases hz : s.pheap r with
      | none => simp [hz] at this
      | some z => exact ⟨z, rfl, by simpa [hz] using this⟩
    rw [hs r z hz hzg]
    simp [hx, ho]
  · exact e

/-- The group is removed by wpa_supplicant, and the peer owns it. -/
theorem removed_step {s : P2p.S} (h : P2p.Inv s) (hb : s.bus = true) {g p : Nat} {x : P2p.Grp} (hx : s.gheap g = some x) (hf : s.findGroup x.ifname = some g)
    (ho : x.owner = some p) (hs : Sole s g p) : s.step (.groupRemoved x.ifname) = some (s.freed g x) := by
  simp only [P2p.S.step, P2p.Op.fromWpas, hb, Bool.not_true, Bool.and_false, Bool.false_eq_true, if_false, P2p.S.handle, hf]
  exact free_owned h hx ho hs

/-- What the end of a helper does, however it is noticed. -/
theorem gone_step {s : P2p.S} (h : P2p.Inv s) {g : Nat} {x : P2p.Grp} (hx : s.gheap g = some x) (died : Bool) :
    s.step (if died then .helperDied g else .comm g .hup true true) = P2p.S.groupFree P2p.depth s g := by
  have hm : g ∈ s.groups := (h.g.i.gl g).mpr ⟨x, hx⟩
  cases died <;> simp [P2p.S.step, P2p.Op.fromWpas, P2p.S.handle, hm, P2p.S.comm, hx]

/-- What the daemon does when a connected peer leaves its group, which is then gone or not. -/
inductive Leaves (i : List Byte) (g p : Nat) : Bool → List P2p.Out → Prop
  | stay : Leaves i g p false [.connected p false]
  | before (k : List P2p.Out) (hk : k = [] ∨ k = [.dhcpKill g]) : Leaves i g p true (.groupRemove i :: k ++ [.connected p false])
  | after (k : List P2p.Out) (hk : k = [] ∨ k = [.dhcpKill g]) : Leaves i g p true (.connected p false :: .groupRemove i :: k)

/-- … and the state then. -/
structure Left (s s1 : P2p.S) (p : Nat) (y : P2p.Peer) (g : Nat) (x : P2p.Grp) (gone : Bool) : Prop where
  log : ∃ o, s1.log = s.log ++ o ∧ Leaves x.ifname g p gone o
  peer : s1.pheap p = some y.alone
  grp : s1.gheap g = none ↔ gone = true
  bus : s1.bus = s.bus
  running : s1.running = s.running
  pend : s1.pending = s.pending ∨ s1.pending = none
  others : ∀ k, k ≠ g → s1.gheap k = s.gheap k
  next : s1.next = s.next
  kept : Kept s s1 p

theorem kill_if (b : Bool) (g : Nat) : (if b then [P2p.Out.dhcpKill g] else []) = [] ∨ (if b then [P2p.Out.dhcpKill g] else []) = [P2p.Out.dhcpKill g] := by
  cases b
  · exact .inl rfl
  · exact .inr rfl

theorem left_freed {s : P2p.S} (h : P2p.Good s) (hb : s.bus = true) {g p : Nat} {x : P2p.Grp} {y : P2p.Peer} (hp : s.pheap p = some y) (hy : y.g = some g) (hs : Sole s g p)
    (hsh : y.shown = true) (hc : y.connected = true) : Left s (s.freed g x) p y g x true := by
  rw [freed_sole h hp hy hs]
  refine ⟨⟨_, rfl, ?_⟩, P2p.upd_same _ _ _, ⟨fun _ => rfl, fun _ => P2p.upd_same _ _ _⟩, rfl, rfl, .inl rfl, fun _ hk => P2p.upd_ne _ _ hk, rfl, fun _ hk => P2p.upd_ne _ _ hk, rfl⟩
  rw [hb, hsh, hc]
  exact .before _ (kill_if x.dhcp g)

/-- The peer leaves. -/
theorem sta_step {s : P2p.S} (h : P2p.Inv s) (hb : s.bus = true) {g p : Nat} {x : P2p.Grp} {y : P2p.Peer} (hx : s.gheap g = some x) (ho : x.owner = none) (hp : s.pheap p = some y)
    (hy : y.g = some g) (hsh : y.shown = true) (hc : y.connected = true) (gone : Bool) (hg : gone = true ↔ Sole s g p) :
    ∃ s1, s.step (.staDisconnected y.mac) = some s1 ∧ Left s s1 p y g x gone := by
  have hf := h.g.findPeer hp rfl
  have hst : s.step (.staDisconnected y.mac) = (if s.pending = some p then ({ s with pending := none } : P2p.S).connectedChanged p false else some s).bind (fun s => s.dropGroup p) := by
    simp only [P2p.S.step, P2p.Op.fromWpas, hb, Bool.not_true, Bool.and_false, Bool.false_eq_true, if_false, P2p.S.handle, hf, hp, hc, if_true]
    split <;> rename_i e <;> simp [e]
  rw [hst]
  have two : ∀ (s' : P2p.S) (z : P2p.Peer), P2p.Good s' → s'.pheap p = some z → z.g = some g → s'.gheap g = some x → ¬ Sole s' g p → 2 ≤ x.users := by
    intro s' z hg' hz hzg hx' hns
    have c := (hg'.c g x hx').1
    have c3 := P2p.memc_pos hg' hz hzg
    exact Decidable.byContradiction fun hlt => hns fun r w hr hw => P2p.memc_one hg' (by omega) hz hzg hr hw
  by_cases hpe : s.pending = some p
  · rw [if_pos hpe]
    have h1 := h.g.pending none (by intro q hq; cases hq)
    obtain ⟨e, h2⟩ := h1.connectedChanged (y := y) hp false
    rw [e, Option.bind_some]
    rw [if_pos ⟨by rw [hc]; simp, hsh⟩] at h2 ⊢
    generalize hs2 : ({ s with pending := none, pheap := P2p.upd s.pheap p (some { y with connected := false }), log := s.log ++ [.connected p false] } : P2p.S) = s2 at h2 ⊢
    have hp2 : s2.pheap p = some { y with connected := false } := by rw [← hs2]; exact P2p.upd_same _ _ _
    have hx2 : s2.gheap g = some x := by rw [← hs2]; exact hx
    have hsole : Sole s2 g p ↔ Sole s g p := by
      constructor
      · intro k r z hz hzg
        by_cases er : r = p
        · exact er
        · refine k r z ?_ hzg
          rw [← hs2]
          exact (P2p.upd_ne _ _ er).trans hz
      · intro k r z hz hzg
        by_cases er : r = p
        · exact er
        · refine k r z ?_ hzg
          rw [← hs2] at hz
          exact (P2p.upd_ne _ _ er).symm.trans hz
    have hal : ({ y with connected := false } : P2p.Peer).alone = y.alone := rfl
    rcases P2p.dropGroup_case h2 hp2 with ⟨hn, _⟩ | ⟨g', x', hg', hx', ⟨hk, e2⟩ | ⟨_, h1', e2, hu⟩⟩
    · rw [show ({ y with connected := false } : P2p.Peer).g = y.g from rfl, hy] at hn; cases hn
    · obtain rfl : g' = g := by rw [show ({ y with connected := false } : P2p.Peer).g = y.g from rfl, hy] at hg'; injection hg' with k; exact k.symm
      obtain rfl : x' = x := by rw [hx2] at hx'; injection hx' with k; exact k.symm
      have hgf : gone = false := by
        cases hgo : gone with
        | false => rfl
        | true =>
          have sl := hg.mp hgo
          have hk2 : 2 ≤ x'.users := by
            rcases hk with hk | hk
            · rw [ho] at hk; cases hk
            · exact hk
          have c2 := (h.g.c g' x' hx).2 ho
          have m1 : P2p.memc s g' ≤ 1 := by
            unfold P2p.memc
            exact count_sole h.g.i.pn sl
          omega
      refine ⟨_, e2, ⟨⟨[.connected p false], ?_, (by rw [hgf]; exact .stay)⟩, ?_, ?_, ?_, ?_, ?_, ?_, ?_, ?_⟩⟩
      · rw [← hs2]; simp [P2p.S.detach, P2p.S.setGrp]
      · exact P2p.upd_same _ _ _
      · rw [hgf]
        have : (s2.detach p { y with connected := false }).setGrp g' { x' with users := x'.users - (if x'.owner = some p then 0 else 1) } |>.gheap g' |>.isSome := by
          simp [P2p.S.setGrp, P2p.upd_same]
        constructor
        · intro k; rw [k] at this; cases this
        · intro k; cases k
      · rw [← hs2]; rfl
      · rw [← hs2]; rfl
      · rw [← hs2]; exact .inr rfl
      · intro k hk; rw [← hs2]; exact P2p.upd_ne _ _ hk
      · rw [← hs2]; rfl
      · rw [← hs2]; exact ⟨fun _ hk => (P2p.upd_ne _ _ hk).trans (P2p.upd_ne _ _ hk), rfl⟩
    · obtain rfl : g' = g := by rw [show ({ y with connected := false } : P2p.Peer).g = y.g from rfl, hy] at hg'; injection hg' with k; exact k.symm
      obtain rfl : x' = x := by rw [hx2] at hx'; injection hx' with k; exact k.symm
      have hgt : gone = true := hg.mpr (hsole.mp hu)
      refine ⟨_, e2, ?_⟩
      rw [freed_sole h2 hp2 hy hu]
      have hb2 : s2.bus = true := by rw [← hs2]; exact hb
      refine ⟨⟨.connected p false :: .groupRemove x'.ifname :: (if x'.dhcp then [.dhcpKill g'] else []), ?_, (by rw [hgt]; exact .after _ (kill_if x'.dhcp g'))⟩, P2p.upd_same _ _ _, ⟨fun _ => hgt, fun _ => P2p.upd_same _ _ _⟩, ?_, ?_, ?_, ?_, ?_, ?_⟩
      · rw [hb2]
        show s2.log ++ _ = _
        rw [← hs2]
        simp
      · rw [← hs2]
      · rw [← hs2]
      · rw [← hs2]; exact .inr rfl
      · intro k hk; rw [← hs2]; exact P2p.upd_ne _ _ hk
      · rw [← hs2]
      · rw [← hs2]; exact ⟨fun _ hk => (P2p.upd_ne _ _ hk).trans (P2p.upd_ne _ _ hk), rfl⟩
  · rw [if_neg hpe, Option.bind_some]
    rcases P2p.dropGroup_case h.g hp with ⟨hn, _⟩ | ⟨g', x', hg', hx', ⟨hk, e2⟩ | ⟨_, h1', e2, hu⟩⟩
    · rw [hy] at hn; cases hn
    · obtain rfl : g' = g := by rw [hy] at hg'; injection hg' with k; exact k.symm
      obtain rfl : x' = x := by rw [hx] at hx'; injection hx' with k; exact k.symm
      have hgf : gone = false := by
        cases hgo : gone with
        | false => rfl
        | true =>
          have sl := hg.mp hgo
          have hk2 : 2 ≤ x'.users := by
            rcases hk with hk | hk
            · rw [ho] at hk; cases hk
            · exact hk
          have c2 := (h.g.c g' x' hx).2 ho
          have m1 : P2p.memc s g' ≤ 1 := by
            unfold P2p.memc
            exact count_sole h.g.i.pn sl
          omega
      refine ⟨_, e2, ⟨⟨[.connected p false], ?_, (by rw [hgf]; exact .stay)⟩, ?_, ?_, ?_, ?_, ?_, ?_, ?_, ?_⟩⟩
      · simp [P2p.S.detach, P2p.S.setGrp, hc, hsh]
      · exact P2p.upd_same _ _ _
      · rw [hgf]
        have : (s.detach p y).setGrp g' { x' with users := x'.users - (if x'.owner = some p then 0 else 1) } |>.gheap g' |>.isSome := by
          simp [P2p.S.setGrp, P2p.upd_same]
        constructor
        · intro k; rw [k] at this; cases this
        · intro k; cases k
      · rfl
      · rfl
      · exact .inl rfl
      · exact fun _ hk => P2p.upd_ne _ _ hk
      · rfl
      · exact ⟨fun _ hk => P2p.upd_ne _ _ hk, rfl⟩
    · obtain rfl : g' = g := by rw [hy] at hg'; injection hg' with k; exact k.symm
      obtain rfl : x' = x := by rw [hx] at hx'; injection hx' with k; exact k.symm
      have hgt : gone = true := hg.mpr hu
      refine ⟨_, e2, ?_⟩
      rw [hgt]
      exact left_freed h.g hb hp hy hu hsh hc

/-! ## The controller -/

/-- Marks on links do not matter for finding peers. -/
theorem path_mark {w : Sinkctl.S} (f : Mirror.Link → Bool) (c : Sinkctl.Ctl) (path : List Byte) :
    ({ w with links := w.links.map fun l => { l with haveScan := f l }, app := c } : Sinkctl.S).peerAt path = w.peerAt path := by
  unfold Mirror.W.peerAt Mirror.W.findPeer Mirror.W.linkByPeer Mirror.W.findLink
  congr 1
  funext lab
  split
  · rfl
  cases Mirror.afterAt lab with
  | none => rfl
  | some r =>
    simp only [Option.bind_some]
    by_cases hr : r = []
    · simp only [if_pos hr]
    · simp only [if_neg hr]
      rw [List.find?_map]
      show Option.bind (Option.map _ (w.links.find? fun l => caseEq l.label r)) _ = _
      cases w.links.find? fun l => caseEq l.label r <;> rfl

theorem path_app {w : Sinkctl.S} (c : Sinkctl.Ctl) (path : List Byte) : ({ w with app := c } : Sinkctl.S).peerAt path = w.peerAt path := rfl

/-- Scanning is switched on. -/
theorem scan_on (E : Sinkctl.Env) {w : Sinkctl.S} {id : Nat} (h : ∃ l ∈ w.links, l.id = id) : ∃ w' tail, Sinkctl.setScan E id true w = some w' ∧ w'.app = { w.app with log := w.app.log ++ tail } ∧
    (tail = [] ∨ ∃ l n, tail = [.scan l n true]) ∧ (∀ path, w'.peerAt path = w.peerAt path) ∧ w'.links.map (·.id) = w.links.map (·.id) := by
  obtain ⟨l, hl⟩ : ∃ l, Sinkctl.linkAt w id = some l := by
    unfold Sinkctl.linkAt
    cases hf : w.links.find? (fun l => decide (l.id = id)) with
    | some l => exact ⟨l, rfl⟩
    | none =>
      obtain ⟨l, h1, h2⟩ := h
      exact absurd (List.find?_eq_none.mp hf l h1) (by simp [h2])
  unfold Sinkctl.setScan
  rw [hl]
  simp only [Option.bind_eq_bind, Option.bind_some]
  by_cases hs : l.scanning = true
  · rw [if_pos hs]
    exact ⟨w, [], rfl, by simp, .inl rfl, fun _ => rfl, rfl⟩
  · rw [if_neg hs]
    refine ⟨_, [.scan l.id l.label true], rfl, ?_, .inr ⟨_, _, rfl⟩, ?_, ?_⟩
    · split <;> rfl
    · intro path
      split
      · exact path_mark _ _ path
      · exact path_app _ path
    · split
      · simp [Sinkctl.act]
      · rfl

/-- The peer as the controller sees it then. -/
def downPeer (q : Mirror.Peer) : Mirror.Peer := { q with connected := false, iface := some [], loc := some [], rem := some [] }

/-- The controller hears that the peer is not connected any more. -/
theorem down_run (E : Sinkctl.Env) {w : Sinkctl.S} {m : List Byte} {idx : Nat} {q : Mirror.Peer} (hk : w.peerAt (Wifid.peerPath m idx) = some q)
    (hl : w.app.runLink = some q.l) (ht : ∃ l ∈ w.links, l.id = q.l) (hd : q.wfd.getD [] ≠ []) (hi : w.app.runPeer = some q.id) (hc : q.connected = true) (ha : w.app.alive = true) :
    ∃ w' did, Sinkctl.run E w [.msg (.changed (Wifid.peerPath m idx) Mirror.peerIf
      [(bytes "Connected", .b false), (bytes "Interface", .s []), (bytes "LocalAddress", .s []), (bytes "RemoteAddress", .s [])])] = some w' ∧
      w'.app.log = w.app.log ++ did ∧ Over w.app.pid q.id did ∧ w'.app.pid = none ∧ w'.app.isOpen = false ∧ w'.app.alive = true ∧ w'.app.runPeer = none ∧ w'.app.runLink = w.app.runLink ∧
      w'.peerAt (Wifid.peerPath m idx) = some (downPeer q) ∧ w'.links.map (·.id) = w.links.map (·.id) := by
  have hr : Mirror.readPeer [(bytes "Connected", .b false), (bytes "Interface", .s []), (bytes "LocalAddress", .s []), (bytes "RemoteAddress", .s [])] {} =
      some { conn := some false, iface := some [], loc := some [], rem := some [] } := rfl
  have hput := path_put (q' := downPeer q) hk rfl rfl
  have ht' : ∃ l ∈ (w.putPeer (downPeer q)).links, l.id = q.l := by
    obtain ⟨l, h1, h2⟩ := ht
    exact ⟨_, List.mem_map_of_mem h1, h2⟩
  have fin : ∃ w' did, Sinkctl.onDisconnected E (downPeer q) (w.putPeer (downPeer q)) = some w' ∧
      w'.app.log = w.app.log ++ did ∧ Over w.app.pid q.id did ∧ w'.app.pid = none ∧ w'.app.isOpen = false ∧ w'.app.alive = true ∧ w'.app.runPeer = none ∧ w'.app.runLink = w.app.runLink ∧
      w'.peerAt (Wifid.peerPath m idx) = some (downPeer q) ∧ w'.links.map (·.id) = w.links.map (·.id) := by
    generalize hv : w.putPeer (downPeer q) = v at hput ht' ⊢
    have hva : v.app = w.app := by rw [← hv]; rfl
    have hlv : v.links.map (·.id) = w.links.map (·.id) := by rw [← hv]; simp [Mirror.W.putPeer]
    unfold Sinkctl.onDisconnected
    rw [if_neg (by simp [Sinkctl.ignored, downPeer, hva, hl, hd]), if_pos (by rw [hva]; exact hi)]
    unfold Sinkctl.endSession
    rw [← hva] at ha hl hi ⊢
    cases hp : v.app.pid with
    | none =>
      simp only [Sinkctl.killPlayer, hp, Sinkctl.closeSink, ha, Bool.not_true, Bool.false_eq_true, if_false, Sinkctl.act, Option.bind_eq_bind, Option.bind_some]
      generalize hw3 : ({ v with app := _ } : Sinkctl.S) = w3
      obtain ⟨w', tail, e1, e2, e3, e4, e5⟩ := scan_on E (w := w3) (id := q.l) (by rw [← hw3]; exact ht')
      refine ⟨w', _, e1, ?_, ⟨tail, rfl, e3⟩, ?_, ?_, ?_, ?_, ?_, ?_, ?_⟩
      · rw [e2, ← hw3]; simp [downPeer]
      · rw [e2, ← hw3]
      · rw [e2, ← hw3]
      · rw [e2, ← hw3]
      · rw [e2, ← hw3]
      · rw [e2, ← hw3]
      · rw [e4, ← hw3]; exact hput
      · rw [e5, ← hw3]; exact hlv
    | some n =>
      simp only [Sinkctl.killPlayer, hp, Sinkctl.closeSink, ha, Bool.not_true, Bool.false_eq_true, if_false, Sinkctl.act, Option.bind_eq_bind, Option.bind_some]
      generalize hw3 : ({ v with app := _ } : Sinkctl.S) = w3
      obtain ⟨w', tail, e1, e2, e3, e4, e5⟩ := scan_on E (w := w3) (id := q.l) (by rw [← hw3]; exact ht')
      refine ⟨w', _, e1, ?_, ⟨tail, rfl, e3⟩, ?_, ?_, ?_, ?_, ?_, ?_, ?_⟩
      · rw [e2, ← hw3]; simp [downPeer]
      · rw [e2, ← hw3]
      · rw [e2, ← hw3]
      · rw [e2, ← hw3]
      · rw [e2, ← hw3]
      · rw [e2, ← hw3]
      · rw [e4, ← hw3]; exact hput
      · rw [e5, ← hw3]; exact hlv
  obtain ⟨w', did, e, r⟩ := fin
  refine ⟨w', did, ?_, r⟩
  have hp : Mirror.peerProps (Sinkctl.hooks E) q [(bytes "Connected", .b false), (bytes "Interface", .s []), (bytes "LocalAddress", .s []), (bytes "RemoteAddress", .s [])] w =
      some (0, downPeer q, w') := by
    unfold Mirror.peerProps
    rw [hr]
    simp only [hc]
    rw [if_neg (by simp)]
    have e1 : { Mirror.PeerUpd.apply { conn := some false, iface := some [], loc := some [], rem := some [] } q with connected := false } = downPeer q := by
      simp [Mirror.PeerUpd.apply, downPeer]
    simp only [Bool.false_eq_true, if_false, Sinkctl.hooks, e1, e]
    rfl
  simp only [Sinkctl.run, Sinkctl.step, Mirror.receive, Daemon.label_none, hk]
  rw [if_neg (by simp), hp]
  rfl

/-! ## Both -/

theorem down_props (s : P2p.S) (y : P2p.Peer) (hc : y.connected = false) : ((values s y).props y.mac).filter (fun q => q.1 ∈ four) =
    [(bytes "Connected", .b false), (bytes "Interface", .s []), (bytes "LocalAddress", .s []), (bytes "RemoteAddress", .s [])] := by
  have e : (values s y).connected = false := hc
  generalize values s y = v at e
  obtain ⟨c, i, l, r, w, f⟩ := v
  dsimp only at e
  subst e
  rfl

theorem leaves_told {i : List Byte} {g p : Nat} {gone : Bool} {o : List P2p.Out} (h : Leaves i g p gone o) (idx : Nat) {s1 : P2p.S} {y : P2p.Peer} (hp : s1.pheap p = some y) (hc : y.connected = false) :
    o.filterMap (signal idx s1) = [.changed (Wifid.peerPath y.mac idx) Mirror.peerIf
      [(bytes "Connected", .b false), (bytes "Interface", .s []), (bytes "LocalAddress", .s []), (bytes "RemoteAddress", .s [])]] := by
  have e1 : signal idx s1 (.connected p false) = some (.changed (Wifid.peerPath y.mac idx) Mirror.peerIf
      [(bytes "Connected", .b false), (bytes "Interface", .s []), (bytes "LocalAddress", .s []), (bytes "RemoteAddress", .s [])]) := by
    show (s1.pheap p).map _ = _
    rw [hp, Option.map_some, down_props s1 y hc]
  have e2 : signal idx s1 (.groupRemove i) = none := rfl
  have e3 : signal idx s1 (.dhcpKill g) = none := rfl
  cases h with
  | stay => simp only [List.filterMap_cons, e1, List.filterMap_nil]
  | before k hk => rcases hk with rfl | rfl <;> simp only [List.filterMap_cons, List.cons_append, List.nil_append, e1, e2, e3, List.filterMap_nil]
  | after k hk => rcases hk with rfl | rfl <;> simp only [List.filterMap_cons, e1, e2, e3, List.filterMap_nil]

theorem leaves_asked (jk : Nat → Byte) {i : List Byte} {g p : Nat} {gone : Bool} {o : List P2p.Out} (h : Leaves i g p gone o) (hi : Ask.Spec.Unquoted i ∧ i.length ≤ 1000000000) :
    ∃ ds, requests jk o = some ds ∧ (if gone then ∃ d, ds = [d] ∧ Ask.Spec.hear d = .order (bytes "P2P_GROUP_REMOVE") [i] else ds = []) := by
  obtain ⟨d, hd, hh⟩ := (Ask.Props.names_heard_partial jk i hi.2).2.2.mpr hi.1
  have e1 : request jk (.connected p false) = some [] := rfl
  have e2 : request jk (.groupRemove i) = some [d] := by
    have : request jk (.groupRemove i) = (Ask.removeGroup jk i).map (·.2.toList) := by simp only [request]
    rw [this, hd, Option.map_some, Option.toList_some]
  have e3 : request jk (.dhcpKill g) = some [] := rfl
  cases h with
  | stay => exact ⟨[], by simp only [requests, e1]; rfl, rfl⟩
  | before k hk =>
    refine ⟨[d], ?_, d, rfl, hh⟩
    rcases hk with rfl | rfl <;> simp only [requests, List.cons_append, List.nil_append, e1, e2, e3, Option.bind_some, Option.map_some, List.append_nil]
  | after k hk =>
    refine ⟨[d], ?_, d, rfl, hh⟩
    rcases hk with rfl | rfl <;> simp only [requests, e1, e2, e3, Option.bind_some, Option.map_some, List.append_nil, List.nil_append]

theorem over_calls (idx : Nat) {pid : Option Nat} {id : Nat} {did : List Sinkctl.Act} (h : Over pid id did) : did.filterMap (called idx) = [] := by
  obtain ⟨tail, rfl, ht⟩ := h
  rw [List.filterMap_eq_nil_iff]
  intro a ha
  rcases ht with rfl | ⟨l, n, rfl⟩ <;> cases pid <;> simp at ha
  · rcases ha with rfl | rfl <;> rfl
  · rcases ha with rfl | rfl | rfl <;> rfl
  · rcases ha with rfl | rfl | rfl <;> rfl
  · rcases ha with rfl | rfl | rfl | rfl <;> rfl

/-- The daemon has let the peer go: the controller ends the session. -/
theorem left_exchange (jk : Nat → Byte) (E : Sinkctl.Env) {W : World} {p : Nat} {y : P2p.Peer} {q : Mirror.Peer} {g : Nat} {x : P2p.Grp} (h : On W p y q g x)
    (ht : ∃ l ∈ W.w.links, l.id = q.l) (hn : Ask.Spec.Unquoted x.ifname ∧ x.ifname.length ≤ 1000000000) {s1 : P2p.S} {gone : Bool}
    (hr : ∃ zx ops, (P2p.start zx).run ops = some s1) (hs : Left W.s s1 p y g x gone) :
    ∃ W' ds, exchange jk E W s1 = some W' ∧ W'.s = s1 ∧ W'.sent = W.sent ++ ds ∧
      (if gone then ∃ d, ds = [d] ∧ Ask.Spec.hear d = .order (bytes "P2P_GROUP_REMOVE") [x.ifname] else ds = []) ∧ Ended W W' p y q := by
  obtain ⟨o, hl, ho⟩ := hs.log
  have htold : told W.idx W.s s1 = [.msg (.changed (Wifid.peerPath y.mac W.idx) Mirror.peerIf
      [(bytes "Connected", .b false), (bytes "Interface", .s []), (bytes "LocalAddress", .s []), (bytes "RemoteAddress", .s [])])] := by
    unfold told
    rw [hl, drop_added, leaves_told ho W.idx hs.peer rfl]
    rfl
  obtain ⟨ds, hds, hd⟩ := leaves_asked jk ho hn
  obtain ⟨w', did, e, l1, l2, l3, l4, l5, l6, l7, l8, l9⟩ := down_run E h.known h.link ht h.display h.session h.qon h.alive
  have hcalls : calls W.idx W.w w' = [] := by
    unfold calls
    rw [l1, drop_added]
    exact over_calls W.idx l2
  refine ⟨{ W with s := s1, w := w', sent := W.sent ++ ds }, ds, ?_, rfl, rfl, hd, ⟨did, l1, l2⟩, l3, l4, l5, rfl, y.alone, downPeer q, ?_, rfl, rfl, rfl, rfl, rfl, rfl, rfl, rfl, rfl, l9, hs.pend⟩
  · unfold exchange
    rw [htold, e, Option.bind_some, hcalls, P2p.S.run, Option.bind_some, hl, drop_added, hds]
    rfl
  · exact ⟨hr, hs.bus.trans h.bus, hs.running.trans h.running, hs.peer, h.shown, rfl, l8, h.label, l7.trans h.link, h.display, l6⟩

end Verif.Phone
