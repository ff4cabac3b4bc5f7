import Verif.Proof.P2pMore
/-! Connected peers have what it takes, as long as owners stay in their groups. -/
namespace Verif.P2p
open Verif.C Spec

def CI (s : S) : Prop := ∀ p y, s.pheap p = some y → y.connected = true → Linked s y

theorem CI.congr {s s' : S} (h : CI s) (hp : s'.pheap = s.pheap) (hg : s'.gheap = s.gheap) : CI s' := by
  intro p y hy hc
  rw [hp] at hy
  obtain ⟨a, g, x, b, c, d⟩ := h p y hy hc
  exact ⟨a, g, x, b, by rw [hg]; exact c, d⟩

theorem CI.emitIf {s : S} (h : CI s) (c : Bool) (o : Out) : CI (s.emitIf c o) := by rw [emitIf_eq]; exact h.congr rfl rfl

theorem CI.setPeer {s : S} (h : CI s) (p : Nat) (y' : Peer) (hn : y'.connected = true → Linked s y') : CI (s.setPeer p y') := by
  intro q z hz hc
  have hz : upd s.pheap p (some y') q = some z := hz
  by_cases e : q = p
  · subst e; rw [upd_same] at hz; cases hz; exact hn hc
  · rw [upd_ne _ _ e] at hz; exact h q z hz hc

theorem linked_setGrp {s : S} {y : Peer} (h : Linked s y) {g : Nat} {x x' : Grp} (hx : s.gheap g = some x) (hl : x.localAddr ≠ none → x'.localAddr ≠ none) :
    Linked (s.setGrp g x') y := by
  obtain ⟨a, k, w, b, c, d⟩ := h
  by_cases e : k = g
  · subst e; rw [hx] at c; cases c; exact ⟨a, k, x', b, upd_same _ _ _, hl d⟩
  · exact ⟨a, k, w, b, (upd_ne _ _ e).trans c, d⟩

theorem CI.setGrp {s : S} (h : CI s) {g : Nat} {x x' : Grp} (hx : s.gheap g = some x) (hl : x.localAddr ≠ none → x'.localAddr ≠ none) : CI (s.setGrp g x') :=
  fun q z hz hc => linked_setGrp (h q z hz hc) hx hl

theorem CI.detach {s : S} (h : CI s) (p : Nat) (y : Peer) : CI (s.detach p y) := by
  have : CI (s.setPeer p y.alone) := h.setPeer p y.alone (by intro e; cases e)
  exact this.congr rfl rfl

theorem CI.freed {s : S} (h : CI s) (hi : Inv0 s) (g : Nat) (x : Grp) : CI (s.freed g x) := by
  intro q z hz hc
  rw [freed_pheap hi] at hz
  cases hq : s.pheap q with
  | none => rw [hq] at hz; cases hz
  | some y =>
    rw [hq] at hz
    simp only [Option.map_some, Option.some.injEq] at hz
    split at hz
    · subst hz; cases hc
    · rename_i hne
      subst hz
      obtain ⟨a, k, w, b, c, d⟩ := h q y hq hc
      refine ⟨a, k, w, b, ?_, d⟩
      rw [freed_frame]
      exact (upd_ne _ _ (by rintro rfl; exact hne b)).trans c

theorem CI.dropGroup {s s' : S} (h : CI s) (hg : Good s) {p : Nat} {y : Peer} (hp : s.pheap p = some y) (hd : s.dropGroup p = some s') : CI s' := by
  rcases dropGroup_case hg hp with ⟨hy, e⟩ | ⟨g, x, hy, hx, ⟨_, e⟩ | ⟨ho, h1, e, hu⟩⟩
  · rw [e] at hd; cases hd; exact h
  · rw [e] at hd; cases hd
    exact (h.detach p y).setGrp hx (fun e => e)
  · rw [e] at hd; cases hd; exact h.freed hg.i g x

theorem CI.groupFree {s s' : S} (h : CI s) (hg : Good s) {g : Nat} (hd : S.groupFree depth s g = some s') : CI s' := by
  cases hx : s.gheap g with
  | none => rw [show depth = 1 + 1 from rfl, S.groupFree, hx] at hd; cases hd
  | some x =>
    rcases hg.groupFree hx with ⟨_, e⟩ | ⟨_, e, _⟩
    · rw [e] at hd; cases hd
    · rw [e] at hd; cases hd; exact h.freed hg.i g x

theorem CI.setGroup {s s' : S} (h : CI s) (hg : Good s) {p g : Nat} (hd : s.setGroup p g = some s') : CI s' := by
  unfold S.setGroup at hd
  cases hp : s.pheap p with
  | none => simp only [hp] at hd; cases hd
  | some y =>
    simp only [hp] at hd
    split at hd
    · cases hd; exact h
    · cases hyg : y.g with
      | none =>
        simp only [hyg, Option.isSome_none, Bool.false_eq_true, if_false, hp] at hd
        split at hd
        · rename_i x e1 hx
          cases e1; cases hd
          refine (h.setPeer p _ ?_).setGrp (g := g) (x := x) (by assumption) (fun e => e)
          intro hc
          obtain ⟨_, k, w, b, _⟩ := h p y hp hc
          rw [hyg] at b; cases b
        · cases hd
      | some g' =>
        obtain ⟨s1, e1, g1, f1, p1⟩ := hg.dropGroup hp
        have c1 := h.dropGroup hg hp e1
        rw [if_neg (by rw [hyg]; simp)] at p1
        simp only [hyg, Option.isSome_some, if_true, e1, p1] at hd
        split at hd
        · rename_i x e2 hx
          cases e2; cases hd
          exact (c1.setPeer p _ (by intro hc; cases hc)).setGrp (g := g) (x := x) (by assumption) (fun e => e)
        · cases hd

theorem CI.connectedChanged {s s' : S} (h : CI s) {p : Nat} {v : Bool} (hl : v = true → ∀ y, s.pheap p = some y → Linked s y)
    (hd : s.connectedChanged p v = some s') : CI s' := by
  unfold S.connectedChanged at hd
  split at hd
  · cases hd
  · rename_i y hy
    split at hd
    · cases hd; exact h
    · cases hd
      refine (h.setPeer p _ ?_).emitIf _ _
      intro hv
      exact hl hv y hy

theorem CI.formationFailure {s s' : S} (h : CI s) {p : Nat} (hd : s.formationFailure p = some s') : CI s' := by
  unfold S.formationFailure at hd
  split at hd
  · cases hd
  · cases hd; exact h.emitIf _ _

theorem CI.started {s s' : S} (h : CI s) {p : Nat} (hd : s.started p = some s') : CI s' := by
  unfold S.started at hd
  split at hd
  · cases hd
  · rename_i y hy
    split at hd
    · cases hd; exact h
    · cases hd
      have : CI (s.setPeer p { y with shown := true }) := h.setPeer p _ (fun hc => h p y hy hc)
      exact this.congr rfl rfl

theorem CI.startedAll : ∀ (l : List Nat) {s s' : S}, CI s → s.startedAll l = some s' → CI s'
  | [], s, s', h, e => by cases e; exact h
  | p :: t, s, s', h, e => by
    unfold S.startedAll at e
    split at e
    · cases e
    · rename_i s1 e1
      exact CI.startedAll t (h.started e1) e

theorem CI.peerFree {s s' : S} (h : CI s) (hg : Good s) {p : Nat} {y : Peer} (hp : s.pheap p = some y) (hd : s.peerFree p = some s') : CI s' := by
  unfold S.peerFree at hd
  have key : ∀ s1 : S, CI s1 → Good s1 → s1.pheap p = some y → (match s1.dropGroup p with
        | none => none
        | some s =>
          match s.pheap p with
          | none => none
          | some y => some ({ s.emitIf y.shown (.removed p) with peers := (s.emitIf y.shown (.removed p)).peers.erase p, pheap := upd (s.emitIf y.shown (.removed p)).pheap p none } : S)) = some s' → CI s' := by
    intro s1 c1 g1 p1 e1
    obtain ⟨s2, e2, g2, f2, p2⟩ := g1.dropGroup p1
    have c2 := c1.dropGroup g1 p1 e2
    simp only [e2, p2] at e1
    cases e1
    intro q z hz hc
    rw [emitIf_eq] at hz
    have hz : upd s2.pheap p none q = some z := hz
    by_cases e : q = p
    · subst e; rw [upd_same] at hz; cases hz
    · rw [upd_ne _ _ e] at hz
      obtain ⟨a, k, w, b, c, d⟩ := c2 q z hz hc
      exact ⟨a, k, w, b, by rw [emitIf_eq]; exact c, d⟩
  by_cases hpe : s.pending = some p
  · rw [if_pos hpe] at hd
    have h1 := hg.pending none (by intro q hq; cases hq)
    obtain ⟨e, h2⟩ := h1.formationFailure (y := y) hp
    simp only [e] at hd
    have c1 : CI ({ s with pending := none } : S) := h.congr rfl rfl
    exact key _ (c1.emitIf _ _) h2 (by rw [emitIf_eq]; exact hp) hd
  · rw [if_neg hpe] at hd
    exact key s h hg hp hd

theorem CI.freePeers : ∀ (l : List Nat) {s s' : S}, CI s → Good s → s.peers = l → s.freePeers l = some s' → CI s'
  | [], s, s', h, _, _, e => by cases e; exact h
  | p :: t, s, s', h, hg, hl, e => by
    obtain ⟨y, hy⟩ := hg.live p (by rw [hl]; exact List.mem_cons_self)
    obtain ⟨s1, a, h1, hp, _⟩ := hg.peerFree hy
    unfold S.freePeers at e
    simp only [a] at e
    exact CI.freePeers t (h.peerFree hg hy a) h1 (by rw [hp, hl]; simp) e

theorem ci_none {s : S} (h : ∀ p, s.pheap p = none) : CI s := by
  intro p y hy; rw [h] at hy; cases hy

theorem CI.grow {s : S} (h : CI s) (hf : s.gheap s.next = none) (x : Grp) (gs : List Nat) (n : Nat) (t : List Out) :
    CI { s with next := n, gheap := upd s.gheap s.next (some x), groups := gs, log := t } := by
  intro q z hz hc
  obtain ⟨a, k, w, b, c, d⟩ := h q z hz hc
  exact ⟨a, k, w, b, (upd_ne _ _ (by rintro rfl; rw [hf] at c; cases c)).trans c, d⟩

theorem CI.groupNew {s s' : S} (h : CI s) (hg : Good s) {i : List Byte} {go a b : Bool} {r : Option Nat} (e : s.groupNew i go a b = some (s', r)) : CI s' := by
  rcases groupNew_case hg i go a b with ⟨t, _, _, e1, _⟩ | ⟨_, _, _, e1⟩
  · rw [e1] at e; cases e; exact h.congr rfl rfl
  · rw [e1] at e; cases e; exact h.grow hg.fresh _ _ _ _

theorem CI.tell (g : Nat) : ∀ (l : List Nat) {s s' : S} {x : Grp}, CI s → s.gheap g = some x → x.localAddr ≠ none → s.tell g l = some s' → CI s'
  | [], s, s', x, h, _, _, e => by cases e; exact h
  | p :: t, s, s', x, h, hx, hl, e => by
    unfold S.tell at e
    split at e
    · cases e
    · rename_i y hy
      split at e
      · exact CI.tell g t h hx hl e
      · rename_i hc
        split at e
        · cases e
        · rename_i s1 e1
          have hgh : s1.gheap = s.gheap := by
            unfold S.connectedChanged at e1
            rw [hy] at e1
            simp only [] at e1
            split at e1
            · cases e1; rfl
            · cases e1; rw [emitIf_eq]; rfl
          refine CI.tell g t (h.connectedChanged ?_ e1) (by rw [hgh]; exact hx) hl e
          intro _ z hz
          rw [hy] at hz; cases hz
          refine ⟨fun e => hc (Or.inr e), g, x, ?_, hx, hl⟩
          by_contra e; exact hc (Or.inl e)

theorem CI.announce {s s' : S} (h : CI s) {g : Nat} (ho : ∀ x p, s.gheap g = some x → x.owner = some p → ∃ y, s.pheap p = some y ∧ y.g = some g)
    (e : s.announce g = some s') : CI s' := by
  unfold S.announce at e
  split at e
  · cases e
  · rename_i x hx
    split at e
    · cases e; exact h
    · rename_i hl
      split at e
      · rename_i p hp
        split at e
        · cases e
        · rename_i y hy
          split at e
          · cases e; exact h
          · rename_i hr
            refine h.connectedChanged ?_ e
            intro _ z hz
            rw [hy] at hz; cases hz
            obtain ⟨y', hy', hg'⟩ := ho x p hx hp
            rw [hy] at hy'; cases hy'
            exact ⟨hr, g, x, hg', hx, hl⟩
      · exact h.tell g _ hx hl e

theorem CI.remote {s : S} (h : CI s) {p : Nat} {y : Peer} (hp : s.pheap p = some y) (r : List Byte) : CI (s.setPeer p { y with remote := some r }) := by
  refine h.setPeer p _ (fun hc => ?_)
  obtain ⟨_, k, w, b, c, d⟩ := h p y hp hc
  exact ⟨by simp, k, w, b, c, d⟩

/-- Addresses are stored: groups keep their owner, peers their group. -/
theorem applyLine_keep {s s' : S} {g : Nat} {x : Grp} (hx : s.gheap g = some x) {k : Byte} {t : List Byte} {m : Bool} (h : CI s)
    (e : s.applyLine g x k t m = some s') :
    CI s' ∧ (∃ x', s'.gheap g = some x' ∧ x'.owner = x.owner) ∧ (∀ p y, s.pheap p = some y → ∃ y', s'.pheap p = some y' ∧ y'.g = y.g) := by
  have hset : ∀ p y r, s.pheap p = some y → ∀ q z, s.pheap q = some z → ∃ z', (s.setPeer p { y with remote := some r }).pheap q = some z' ∧ z'.g = z.g := by
    intro p y r hy q z hz
    by_cases e : q = p
    · subst e; rw [hy] at hz; cases hz; exact ⟨_, upd_same _ _ _, rfl⟩
    · exact ⟨z, (upd_ne _ _ e).trans hz, rfl⟩
  have hid : CI s ∧ (∃ x', s.gheap g = some x' ∧ x'.owner = x.owner) ∧ (∀ p y, s.pheap p = some y → ∃ y', s.pheap p = some y' ∧ y'.g = y.g) :=
    ⟨h, ⟨x, hx, rfl⟩, fun p y hy => ⟨y, hy, rfl⟩⟩
  unfold S.applyLine at e
  split at e
  · cases e
    exact ⟨h.setGrp hx (by simp), ⟨_, upd_same _ _ _, rfl⟩, fun p y hy => ⟨y, hy, rfl⟩⟩
  · split at e
    · split at e
      · cases e; exact hid
      · split at e
        · cases e
        · rename_i y hy
          cases e
          exact ⟨h.remote hy _, ⟨x, hx, rfl⟩, hset _ y _ hy⟩
    · split at e
      · simp only [] at e
        split at e
        · cases e; exact hid
        · split at e
          · cases e; exact hid
          · split at e
            · cases e; exact hid
            · split at e
              · cases e
              · rename_i y hy
                cases e
                exact ⟨h.remote hy _, ⟨x, hx, rfl⟩, hset _ y _ hy⟩
      · cases e; exact hid

theorem CI.comm {s s' : S} (h : CI s) (hg : Good s) (ht : Tidy s) {g : Nat} {c : Comm} {a b : Bool} (e : s.comm g c a b = some s') : CI s' := by
  unfold S.comm at e
  split at e
  · cases e
  · rename_i x hx
    split at e
    · exact h.groupFree hg e
    · simp only [] at e
      split at e
      · cases e; exact h
      · split at e
        · cases e; exact h
        · obtain ⟨s1, e1, e2⟩ := Option.bind_eq_some_iff.mp e
          obtain ⟨c1, ⟨x', hx', ho⟩, hp⟩ := applyLine_keep hx h e1
          refine c1.announce ?_ e2
          intro z p hz hzo
          rw [hx'] at hz; cases hz
          obtain ⟨y, hy, hyg⟩ := ht g x p hx (by rw [← ho]; exact hzo)
          obtain ⟨y', hy', hg'⟩ := hp p y hy
          exact ⟨y', hy', hg'.trans hyg⟩

theorem step_CI {s s' : S} (h : Inv s) (ht : Tidy s) (hc : CI s) {op : Op} (e : s.step op = some s') : CI s' := by
  have hg := h.g
  unfold S.step at e
  split at e
  · cases e; exact hc
  · cases op with
    | found mac order =>
      simp only [S.handle, S.parsePeer] at e
      cases hf : s.findPeer mac with
      | some p =>
        rw [hf] at e
        simp only [] at e
        split at e
        · exact hc.started e
        · cases e; exact hc
      | none =>
        rw [hf] at e
        simp only [] at e
        have hn : CI (s.peerNew mac order).1 := by
          unfold S.peerNew
          split
          · exact hc
          · intro q z hz hcz
            have hz : upd s.pheap s.next _ q = some z := hz
            by_cases e : q = s.next
            · subst e; rw [upd_same] at hz; cases hz; cases hcz
            · rw [upd_ne _ _ e] at hz; exact hc q z hz hcz
        cases e2 : s.peerNew mac order with
        | mk s1 r =>
          rw [e2] at e hn
          cases r with
          | none => cases e; exact hn
          | some p =>
            simp only [] at e
            split at e
            · exact hn.started e
            · cases e; exact hn
    | lost mac =>
      simp only [S.handle] at e
      split at e
      · cases e; exact hc
      · rename_i p hf
        obtain ⟨_, y, hy, _⟩ := findPeer_some hf
        exact hc.peerFree hg hy e
    | provision mac prov pin mem =>
      simp only [S.handle] at e
      split at e
      · cases e; exact hc
      · split at e
        · cases e
        · rename_i y hy
          split at e
          · cases e; exact hc
          · cases e
            have c1 : ∀ p, s.pheap p = some y → CI (s.setPeer p { y with prov := some prov, pin := pin }) := fun p hy => hc.setPeer p _ (fun h1 => hc p y hy h1)
            exact (c1 _ hy).emitIf _ _
    | negotiation mac =>
      simp only [S.handle] at e
      split at e
      · cases e; exact hc
      · split at e
        · cases e
        · rename_i y hy
          cases e
          refine CI.emitIf ?_ _ _
          split
          · exact hc.setPeer _ _ (fun h1 => hc _ y hy h1)
          · exact hc
    | negotiated mac sta mem =>
      simp only [S.handle] at e
      split at e
      · cases e; exact hc
      · split at e
        · cases e
        · rename_i y hy
          split at e
          · cases e; exact hc
          · cases e
            exact hc.setPeer _ _ (fun h1 => hc _ y hy h1)
    | groupStarted mac ifname go spawn watch =>
      simp only [S.handle] at e
      split at e
      · cases e; exact hc
      · have fin : ∀ s1 g, Good s1 → CI s1 → (match s.findPeer mac with
            | none => some s1
            | some p => match s1.setGroup p g with
              | none => none
              | some s2 => match s2.gheap g with
                | none => none
                | some x => some (s2.setGrp g { x with owner := some p })) = some s' → CI s' := by
          intro s1 g g1 c1 e
          split at e
          · cases e; exact c1
          · split at e
            · cases e
            · rename_i s2 e2
              split at e
              · cases e
              · rename_i x hx
                cases e
                exact (c1.setGroup g1 e2).setGrp hx (fun e => e)
        cases hf : s.findGroup ifname with
        | some g => rw [hf] at e; exact fin s g hg hc e
        | none =>
          rw [hf] at e
          simp only [] at e
          obtain ⟨s1, r, a, b, _⟩ := hg.groupNew ifname go spawn watch
          have c1 := hc.groupNew hg a
          rw [a] at e
          cases r with
          | none => cases e; exact c1
          | some g => exact fin s1 g b c1 e
    | groupRemoved ifname =>
      simp only [S.handle] at e
      split at e
      · cases e; exact hc
      · exact hc.groupFree hg e
    | formationFailed =>
      simp only [S.handle] at e
      split at e
      · cases e; exact hc
      · have c1 : CI ({ s with pending := none } : S) := hc.congr rfl rfl
        exact c1.formationFailure e
    | staConnected mac sta ifname mem =>
      simp only [S.handle] at e
      split at e
      · cases e; exact hc
      · rename_i p hf
        split at e
        · cases e
        · rename_i y hy
          split at e
          · cases e; exact hc
          · split at e
            · cases e; exact hc
            · have c1 : CI (s.setPeer p { y with sta := some sta }) := hc.setPeer _ _ (fun h1 => hc _ y hy h1)
              have g1 := hg.setPeer hy (y' := { y with sta := some sta }) rfl rfl rfl rfl
              split at e
              · cases e; exact c1
              · split at e
                · cases e; exact c1
                · exact c1.setGroup g1 e
    | staDisconnected mac =>
      simp only [S.handle] at e
      split at e
      · cases e; exact hc
      · rename_i p hf
        split at e
        · cases e
        · rename_i y hy
          by_cases hp : s.pending = some p
          · rw [if_pos hp] at e
            have h1 := hg.pending none (by intro q hq; cases hq)
            have c1 : CI ({ s with pending := none } : S) := hc.congr rfl rfl
            by_cases hcc : y.connected = true
            · rw [if_pos hcc] at e
              obtain ⟨e1, h2⟩ := h1.connectedChanged (y := y) hy false
              simp only [e1] at e
              exact (c1.connectedChanged (by intro h; cases h) e1).dropGroup h2 (p := p) (upd_same _ _ _) e
            · rw [if_neg hcc] at e
              obtain ⟨e1, h2⟩ := h1.formationFailure (y := y) hy
              simp only [e1] at e
              exact (c1.formationFailure e1).dropGroup h2 (p := p) (y := y) (by rw [emitIf_eq]; exact hy) e
          · rw [if_neg hp] at e
            exact hc.dropGroup hg hy e
    | comm g c m1 m2 =>
      simp only [S.handle] at e
      split at e
      · exact hc.comm hg ht e
      · cases e; exact hc
    | helperDied g =>
      simp only [S.handle] at e
      split at e
      · exact hc.groupFree hg e
      · cases e; exact hc
    | connect mac prov pin call =>
      simp only [S.handle] at e
      split at e
      · cases e; exact hc
      · split at e
        · unfold S.connect at e
          split at e
          · cases e
          · split at e
            · cases e; exact hc.congr rfl rfl
            · split at e
              · cases e; exact hc.congr rfl rfl
              · split at e
                · cases e; exact hc.congr rfl rfl
                · simp only [] at e
                  split at e
                  · cases e; exact hc.congr rfl rfl
                  · split at e
                    · cases e; exact hc.congr rfl rfl
                    · cases e; exact hc.congr rfl rfl
        · cases e; exact hc
    | disconnect mac =>
      simp only [S.handle] at e
      split at e
      · cases e; exact hc
      · rename_i p hf
        split at e
        · cases e
        · rename_i y hy
          split at e
          · have h1 := hg.setPeer hy (y' := { y with prov := none, pin := none }) rfl rfl rfl rfl
            exact (hc.setPeer p { y with prov := none, pin := none } (fun h1 => hc _ y hy h1)).dropGroup h1 (p := p) (upd_same _ _ _) e
          · cases e; exact hc
    | startScan =>
      simp only [S.handle] at e
      cases e
      split
      · exact hc.congr rfl rfl
      · exact hc
    | attached => cases e; exact hc.congr rfl rfl
    | ready =>
      simp only [S.handle] at e
      split at e
      · cases e; exact hc
      · have c1 : CI ({ s with running := true } : S) := hc.congr rfl rfl
        exact CI.startedAll s.peers c1 e
    | ownMac mac => cases e; exact hc.congr rfl rfl
    | stopped =>
      simp only [S.handle] at e
      obtain ⟨s1, a, b, c, d⟩ := Good.freePeers s.peers (hg.flags false s.running s.p2pMac) rfl
      rw [a] at e
      simp only [] at e
      obtain ⟨s2, a2, b2, c2, d2, e2⟩ := Good.freeGroups s1.groups.length b c rfl
      rw [a2] at e
      simp only [] at e
      cases e
      apply ci_none
      intro p
      cases hp : s2.pheap p with
      | none => rfl
      | some y =>
        have := (b2.i.pl p).mpr ⟨y, hp⟩
        rw [c2] at this; cases this

theorem run_CI : ∀ (ops : List Op) {s s' : S}, Inv s → CI s → tidyRun s ops → s.run ops = some s' → CI s'
  | [], s, s', h, hc, _, e => by cases e; exact hc
  | o :: t, s, s', h, hc, ht, e => by
    unfold S.run at e
    obtain ⟨h1, h2⟩ := ht
    rcases step_case h o with ⟨_, e1⟩ | ⟨_, s1, e1, i1⟩
    · rw [e1] at e; cases e
    · rw [e1] at e
      exact run_CI t i1 (step_CI h h1 hc e1) (h2 s1 e1) e

end Verif.P2p
