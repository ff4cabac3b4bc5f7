import Verif.Proof.P2pAll
/-! What leaving a group does, and what keeps the pending attempt. -/
namespace Verif.P2p
open Verif.C Spec

/-! ### Requests to remove a group -/

theorem removals_append (i : List Byte) (a b : List Out) : removals i (a ++ b) = removals i a + removals i b := by
  simp [removals, List.count_append]

/-- Histories without such a request. -/
def calm (t : List Out) : Prop := ∀ i, removals i t = 0

theorem calm_nil : calm [] := fun _ => rfl
theorem calm_app {a b : List Out} (ha : calm a) (hb : calm b) : calm (a ++ b) := by intro i; rw [removals_append, ha, hb]
theorem calm_if {c : Prop} [Decidable c] {a : List Out} (ha : calm a) : calm (if c then a else []) := by
  split
  · exact ha
  · exact calm_nil
theorem calm_one {o : Out} (h : ∀ i, o ≠ .groupRemove i) : calm [o] := by
  intro i
  simp [removals, List.count_cons, h i]

theorem detach_calm (g : Nat) : ∀ (l : List Nat) (s : S), ∃ t, calm t ∧ (s.detachAll g l).log = s.log ++ t
  | [], s => ⟨[], calm_nil, by simp [S.detachAll]⟩
  | p :: l, s => by
    obtain ⟨t, h1, h2⟩ := detach_calm g l (s.detachIf g p)
    have h3 : ∃ t, calm t ∧ (s.detachIf g p).log = s.log ++ t := by
      unfold S.detachIf
      split
      · split
        · exact ⟨_, calm_if (calm_one (by simp)), rfl⟩
        · exact ⟨[], calm_nil, by simp⟩
      · exact ⟨[], calm_nil, by simp⟩
    obtain ⟨t', h4, h5⟩ := h3
    refine ⟨t' ++ t, calm_app h4 h1, ?_⟩
    show (S.detachAll g (s.detachIf g p) l).log = _
    rw [h2, h5, List.append_assoc]

theorem freed_removals (s : S) (g : Nat) (x : Grp) (i : List Byte) :
    removals i (s.freed g x).log = removals i s.log + (if s.bus = true ∧ i = x.ifname then 1 else 0) := by
  obtain ⟨t, ht, hl⟩ := detach_calm g s.peers (s.killed g x)
  have : (s.freed g x).log = s.log ++ ((if s.bus then [.groupRemove x.ifname] else []) ++ ((if x.dhcp then [.dhcpKill g] else []) ++ t)) := by
    show ((s.killed g x).detachAll g s.peers).log = _
    rw [hl]; simp [S.killed]
  rw [this, removals_append, removals_append, calm_app (calm_if (calm_one (by simp))) ht i]
  cases s.bus
  · simp [removals]
  · by_cases e : i = x.ifname
    · subst e; simp [removals]
    · simp [removals, e, List.count_cons, Ne.symm e]

theorem freed_log (s : S) (g : Nat) (x : Grp) : ∃ t, (s.freed g x).log = s.log ++ t := by
  obtain ⟨t, _, hl⟩ := detach_calm g s.peers (s.killed g x)
  have : (s.freed g x).log = s.log ++ ((if s.bus then [.groupRemove x.ifname] else []) ++ ((if x.dhcp then [.dhcpKill g] else []) ++ t)) := by
    show ((s.killed g x).detachAll g s.peers).log = _
    rw [hl]; simp [S.killed]
  exact ⟨_, this⟩

theorem tends_never {g : Nat} : ∀ (t : List Out) {k : Helper}, tends g k t = some .never → k = .never
  | [], k, h => by cases h; rfl
  | o :: t, k, h => by
    unfold tends at h
    obtain ⟨k', h1, h2⟩ := Option.bind_eq_some_iff.mp h
    have := tends_never t h2
    subst this
    cases o <;> simp only [tend] at h1
    case dhcpServer => split at h1 <;> simp_all
    case dhcpClient => split at h1 <;> simp_all
    case dhcpKill =>
      split at h1
      · cases h1; rfl
      · split at h1 <;> cases h1
    all_goals (cases h1; rfl)

/-- Only the history of the helper matters. -/
theorem Good.helper {s : S} (h : Good s) (g : Nat) : ∃ k, tends g .never s.log = some k ∧ Keeps k (s.gheap g) := by
  obtain ⟨k, a, b, _⟩ := h.w g; exact ⟨k, a, b⟩

theorem Good.helper_up {s : S} (h : Good s) {g : Nat} {x : Grp} (hx : s.gheap g = some x) : tends g .never s.log = some (.up x.subnet) := by
  obtain ⟨k, a, b⟩ := h.helper g
  rw [hx] at b
  rw [a, b.2]

theorem Good.up_group {s : S} (h : Good s) {g n : Nat} (hu : tends g .never s.log = some (.up n)) : ∃ x, s.gheap g = some x ∧ x.subnet = n := by
  obtain ⟨k, a, b⟩ := h.helper g
  rw [hu] at a
  cases a
  cases hx : s.gheap g with
  | none => rw [hx] at b; exact absurd rfl (b n)
  | some x => rw [hx] at b; have := b.2; injection this with e; exact ⟨x, rfl, e.symm⟩

theorem Good.down {s : S} (h : Good s) {g : Nat} (hx : s.gheap g = none) (n : Nat) : tends g .never s.log ≠ some (.up n) := by
  intro e
  obtain ⟨x, hx', _⟩ := h.up_group e
  rw [hx] at hx'; cases hx'

/-- What leaving does to the group. -/
theorem drop_effect {s : S} (h : Good s) {p g : Nat} {y : Peer} {x : Grp} (hp : s.pheap p = some y) (hy : y.g = some g) (hx : s.gheap g = some x) :
    ∃ s', s.dropGroup p = some s' ∧ Good s' ∧ s'.pheap p = some y.alone ∧ s'.pending = s.pending ∧ s'.peers = s.peers ∧
      (∀ q, q ≠ p → s'.pheap q = s.pheap q) ∧ (∀ k, k ≠ g → s'.gheap k = s.gheap k) ∧ s'.bus = s.bus ∧ (∃ t, s'.log = s.log ++ t) ∧
      if x.owner ≠ some p ∧ x.users = 1 then s'.gheap g = none ∧ (∀ i, removals i s'.log = removals i s.log + (if s.bus = true ∧ i = x.ifname then 1 else 0))
      else s'.gheap g = some { x with users := x.users - (if x.owner = some p then 0 else 1) } ∧ (∀ i, removals i s'.log = removals i s.log) := by
  obtain ⟨s1, e1, g1, f, p1⟩ := h.dropGroup hp
  rw [hy] at p1 f
  rw [if_neg (by simp)] at p1
  refine ⟨s1, e1, g1, p1, f.pending, f.peers, f.ph, fun k hk => f.gh k (by simpa using Ne.symm hk), f.bus, ?_, ?_⟩
  · rcases dropGroup_case h hp with ⟨_, hd⟩ | ⟨g', x', _, _, ⟨_, hd⟩ | ⟨_, _, hd, _⟩⟩
    · rw [e1] at hd; cases hd; exact ⟨[], by simp⟩
    · rw [e1] at hd; cases hd; exact ⟨_, rfl⟩
    · rw [e1] at hd; cases hd; exact freed_log s g' x'
  rcases dropGroup_case h hp with ⟨hy', _⟩ | ⟨g', x', hy', hx', hc⟩
  · rw [hy] at hy'; cases hy'
  · rw [hy] at hy'; cases hy'
    rw [hx] at hx'; cases hx'
    rcases hc with ⟨hk, hd⟩ | ⟨ho, h1, hd, _⟩
    · rw [if_neg (by rintro ⟨a, b⟩; rcases hk with hk | hk; exact a hk; omega)]
      rw [e1] at hd; cases hd
      refine ⟨upd_same _ _ _, fun i => ?_⟩
      show removals i (s.log ++ _) = _
      rw [removals_append, calm_if (calm_one (by simp)) i]
      rfl
    · rw [if_pos ⟨ho, h1⟩]
      rw [e1] at hd; cases hd
      refine ⟨by rw [freed_frame]; exact upd_same _ _ _, freed_removals s g x⟩

theorem Good.findPeer {s : S} (h : Good s) {p : Nat} {y : Peer} {mac : List Byte} (hp : s.pheap p = some y) (hm : y.mac = mac) : s.findPeer mac = some p := by
  cases hf : s.findPeer mac with
  | none => exact absurd hm (findPeer_none hf p ((h.i.pl p).mpr ⟨y, hp⟩) y hp)
  | some q =>
    obtain ⟨_, z, hz, e⟩ := findPeer_some hf
    rw [h.i.inj q p z y hz hp (e.trans hm.symm)]

theorem leave_step {s : S} (h : Inv s) {op : Op} {p g : Nat} {y : Peer} {x : Grp} (hl : Leaves s op p) (hp : s.pheap p = some y)
    (hy : y.g = some g) (hx : s.gheap g = some x) :
    ∃ s', s.step op = some s' ∧ Inv s' ∧ (∀ q, q ≠ p → s'.pheap q = s.pheap q) ∧ (∀ z, s'.pheap p = some z → z.g = none) ∧
      (∀ k, k ≠ g → s'.gheap k = s.gheap k) ∧ (∃ t, s'.log = s.log ++ t) ∧
      if x.owner ≠ some p ∧ x.users = 1 then s'.gheap g = none ∧ (∀ i, removals i s'.log = removals i s.log + (if s.bus = true ∧ i = x.ifname then 1 else 0))
      else s'.gheap g = some { x with users := x.users - (if x.owner = some p then 0 else 1) } ∧ (∀ i, removals i s'.log = removals i s.log) := by
  have hInv : ∀ s', s.step op = some s' → Inv s' := by
    intro s' e
    rcases step_case h op with ⟨_, e1⟩ | ⟨_, s1, e1, h1⟩
    · rw [e1] at e; cases e
    · rw [e1] at e; cases e; exact h1
  -- the common part: first something harmless, then the group is dropped
  have core : ∀ (s1 : S) (y1 : Peer), Good s1 → s1.pheap p = some y1 → y1.g = some g → s1.gheap = s.gheap → (∀ q, q ≠ p → s1.pheap q = s.pheap q) →
      s1.bus = s.bus → (∃ t, calm t ∧ s1.log = s.log ++ t) →
      ∃ s', s1.dropGroup p = some s' ∧ Good s' ∧ s'.pheap p = some y1.alone ∧ (∀ q, q ≠ p → s'.pheap q = s.pheap q) ∧ (∀ k, k ≠ g → s'.gheap k = s.gheap k) ∧ (∃ t, s'.log = s.log ++ t) ∧
      if x.owner ≠ some p ∧ x.users = 1 then s'.gheap g = none ∧ (∀ i, removals i s'.log = removals i s.log + (if s.bus = true ∧ i = x.ifname then 1 else 0))
      else s'.gheap g = some { x with users := x.users - (if x.owner = some p then 0 else 1) } ∧ (∀ i, removals i s'.log = removals i s.log) := by
    intro s1 y1 h1 hp1 hy1 hg1 hq1 hb1 ⟨t, ht, hl1⟩
    obtain ⟨s', a, b, c, _, _, d, e, f, ⟨t2, ht2⟩, k⟩ := drop_effect h1 hp1 hy1 (by rw [hg1]; exact hx)
    have hrem : ∀ i, removals i s1.log = removals i s.log := by intro i; rw [hl1, removals_append, ht i]; rfl
    refine ⟨s', a, b, c, fun q hq => (d q hq).trans (hq1 q hq), fun q hq => (e q hq).trans (by rw [hg1]), ⟨t ++ t2, by rw [ht2, hl1, List.append_assoc]⟩, ?_⟩
    split at k
    · rename_i hc; rw [if_pos hc]; exact ⟨k.1, fun i => by rw [k.2, hrem, hb1]⟩
    · rename_i hc; rw [if_neg hc]; exact ⟨k.1, fun i => by rw [k.2, hrem]⟩
  cases op with
  | lost mac =>
    obtain ⟨hb, y0, hp0, hm⟩ := hl
    have hf := h.g.findPeer hp0 hm
    have hstep : s.step (.lost mac) = s.peerFree p := by simp [S.step, hb, S.handle, hf]
    rw [hstep] at hInv ⊢
    have key : ∃ s1 y1, (if s.pending = some p then ({ s with pending := none } : S).formationFailure p else some s) = some s1 ∧ Good s1 ∧ s1.pheap p = some y1 ∧ y1.g = some g ∧
        s1.gheap = s.gheap ∧ (∀ q, q ≠ p → s1.pheap q = s.pheap q) ∧ s1.bus = s.bus ∧ (∃ t, calm t ∧ s1.log = s.log ++ t) := by
      split
      · obtain ⟨e, g1⟩ := (h.g.pending none (by intro q hq; cases hq)).formationFailure (y := y) hp
        rw [emitIf_eq] at e g1
        exact ⟨_, y, e, g1, hp, hy, rfl, fun _ _ => rfl, rfl, _, calm_if (calm_one (by simp)), rfl⟩
      · exact ⟨s, y, rfl, h.g, hp, hy, rfl, fun _ _ => rfl, rfl, [], calm_nil, by simp⟩
    obtain ⟨s1, y1, e1, a1, a2, a3, a4, a5, a6, a7⟩ := key
    obtain ⟨s2, b1, b2, b3, b4, b5, ⟨t3, ht3⟩, b6⟩ := core s1 y1 a1 a2 a3 a4 a5 a6 a7
    have hfree : s.peerFree p = some { s2.emitIf y1.alone.shown (.removed p) with peers := s2.peers.erase p, pheap := upd s2.pheap p none } := by
      unfold S.peerFree
      rw [e1]
      simp only [b1, b3, emitIf_eq]
    refine ⟨_, hfree, hInv _ hfree, ?_, ?_, ?_, ?_, ?_⟩
    · intro q hq; rw [emitIf_eq]; exact (upd_ne _ _ hq).trans (b4 q hq)
    · intro z hz; rw [emitIf_eq] at hz
      have hz : upd s2.pheap p none p = some z := hz
      rw [upd_same] at hz; cases hz
    · intro k hk; rw [emitIf_eq]; exact b5 k hk
    · rw [emitIf_eq]; exact ⟨t3 ++ _, by show s2.log ++ _ = _; rw [ht3, List.append_assoc]⟩
    · have hlog : ∀ i, removals i ({ s2.emitIf y1.alone.shown (.removed p) with peers := s2.peers.erase p, pheap := upd s2.pheap p none } : S).log = removals i s2.log := by
        intro i; rw [emitIf_eq]
        show removals i (s2.log ++ _) = _
        rw [removals_append, calm_if (calm_one (by simp)) i]; rfl
      simp only [hlog]
      rw [emitIf_eq]
      exact b6
  | staDisconnected mac =>
    obtain ⟨hb, y0, hp0, hm⟩ := hl
    have hf := h.g.findPeer hp0 hm
    have key : ∃ s1 y1, (if s.pending = some p then
            if y.connected then ({ s with pending := none } : S).connectedChanged p false else ({ s with pending := none } : S).formationFailure p
          else some s) = some s1 ∧ Good s1 ∧ s1.pheap p = some y1 ∧ y1.g = some g ∧
        s1.gheap = s.gheap ∧ (∀ q, q ≠ p → s1.pheap q = s.pheap q) ∧ s1.bus = s.bus ∧ (∃ t, calm t ∧ s1.log = s.log ++ t) := by
      split
      · have h1 := h.g.pending none (by intro q hq; cases hq)
        split
        · obtain ⟨e, g1⟩ := h1.connectedChanged (y := y) hp false
          exact ⟨_, _, e, g1, upd_same _ _ _, hy, rfl, fun q hq => upd_ne _ _ hq, rfl, _, calm_if (calm_one (by simp)), rfl⟩
        · obtain ⟨e, g1⟩ := h1.formationFailure (y := y) hp
          rw [emitIf_eq] at e g1
          exact ⟨_, y, e, g1, hp, hy, rfl, fun _ _ => rfl, rfl, _, calm_if (calm_one (by simp)), rfl⟩
      · exact ⟨s, y, rfl, h.g, hp, hy, rfl, fun _ _ => rfl, rfl, [], calm_nil, by simp⟩
    obtain ⟨s1, y1, e1, a1, a2, a3, a4, a5, a6, a7⟩ := key
    obtain ⟨s2, b1, b2, b3, b4, b5, ⟨t3, ht3⟩, b6⟩ := core s1 y1 a1 a2 a3 a4 a5 a6 a7
    have hstep : s.step (.staDisconnected mac) = some s2 := by
      have : s.step (.staDisconnected mac) = s.handle (.staDisconnected mac) := by simp [S.step, hb]
      rw [this]
      simp only [S.handle, hf, hp]
      rw [e1]; exact b1
    exact ⟨s2, hstep, hInv _ hstep, b4, by intro z hz; rw [b3] at hz; cases hz; rfl, b5, ⟨t3, ht3⟩, b6⟩
  | disconnect mac =>
    obtain ⟨y0, hp0, hm, hs⟩ := hl
    have hf := h.g.findPeer hp0 hm
    rw [hp] at hp0
    cases hp0
    have g1 := h.g.setPeer hp (y' := { y with prov := none, pin := none }) rfl rfl rfl rfl
    obtain ⟨s2, b1, b2, b3, b4, b5, ⟨t3, ht3⟩, b6⟩ := core _ _ g1 (upd_same _ _ _) hy rfl (fun q hq => upd_ne _ _ hq) rfl ⟨[], calm_nil, by simp [S.setPeer]⟩
    have hstep : s.step (.disconnect mac) = some s2 := by
      simp only [S.step, Op.fromWpas, S.handle, hf, hp, Bool.false_and, Bool.false_eq_true, if_false]
      rw [if_pos hs]
      exact b1
    exact ⟨s2, hstep, hInv _ hstep, b4, by intro z hz; rw [b3] at hz; cases hz; rfl, b5, ⟨t3, ht3⟩, b6⟩
  | _ => exact absurd hl (by simp [Leaves])

/-! ### The pending attempt -/

theorem pend_connectedChanged {s s' : S} {p : Nat} {v : Bool} (h : s.connectedChanged p v = some s') : s'.pending = s.pending := by
  unfold S.connectedChanged at h
  split at h
  · cases h
  · split at h
    · cases h; rfl
    · cases h; rw [emitIf_eq]; rfl

theorem pend_formationFailure {s s' : S} {p : Nat} (h : s.formationFailure p = some s') : s'.pending = s.pending := by
  unfold S.formationFailure at h
  split at h
  · cases h
  · cases h; rw [emitIf_eq]

theorem pend_dropGroupWith {free : S → Nat → Option S} (hf : ∀ s g s', free s g = some s' → s'.pending = s.pending) {s s' : S} {p : Nat}
    (h : S.dropGroupWith free s p = some s') : s'.pending = s.pending := by
  unfold S.dropGroupWith at h
  split at h
  · cases h
  · split at h
    · cases h; rfl
    · split at h
      · cases h
      · simp only [] at h
        split at h
        · cases h
        · rename_i s1 h1
          have e1 : s1.pending = s.pending := by
            split at h1
            · cases h1; rfl
            · split at h1
              · cases h1; rfl
              · split at h1
                · cases h1; rfl
                · have := hf _ _ _ h1
                  exact this
          split at h
          · cases h
          · exact (pend_connectedChanged h).trans e1

theorem pend_dropAllWith {free : S → Nat → Option S} (hf : ∀ s g s', free s g = some s' → s'.pending = s.pending) (g : Nat) :
    ∀ (l : List Nat) {s s' : S}, S.dropAllWith free g s l = some s' → s'.pending = s.pending
  | [], s, s', h => by cases h; rfl
  | p :: t, s, s', h => by
    unfold S.dropAllWith at h
    split at h
    · cases h
    · split at h
      · split at h
        · cases h
        · rename_i s1 h1
          exact (pend_dropAllWith hf g t h).trans (pend_dropGroupWith hf h1)
      · exact pend_dropAllWith hf g t h

theorem pend_groupFree : ∀ (n : Nat) (s : S) (g : Nat) (s' : S), S.groupFree n s g = some s' → s'.pending = s.pending
  | 0, _, _, _, h => by cases h
  | n + 1, s, g, s', h => by
    unfold S.groupFree at h
    split at h
    · cases h
    · simp only [] at h
      split at h
      · cases h
      · rename_i s1 h1
        split at h
        · cases h
        · cases h
          have := pend_dropAllWith (pend_groupFree n) g _ h1
          rw [prologue_eq] at this
          exact this

theorem pend_dropGroup {s s' : S} {p : Nat} (h : s.dropGroup p = some s') : s'.pending = s.pending := pend_dropGroupWith (pend_groupFree _) h

theorem pend_groupNew {s s' : S} {i : List Byte} {go a b : Bool} {r : Option Nat} (h : s.groupNew i go a b = some (s', r)) : s'.pending = s.pending := by
  unfold S.groupNew at h
  generalize (if go = true then s.freeSubnet else 0) = n at h
  simp only [] at h
  split at h
  · obtain ⟨s1, h1, h2⟩ := Option.map_eq_some_iff.mp h
    cases h2
    have := pend_groupFree _ _ _ _ h1
    exact this
  · split at h
    · obtain ⟨s1, h1, h2⟩ := Option.map_eq_some_iff.mp h
      cases h2
      have := pend_groupFree _ _ _ _ h1
      exact this
    · cases h; rfl

theorem pend_setGroup {s s' : S} {p g : Nat} (h : s.setGroup p g = some s') : s'.pending = s.pending := by
  unfold S.setGroup at h
  split at h
  · cases h
  · split at h
    · cases h; rfl
    · split at h
      · cases h
      · rename_i s1 h1
        have e1 : s1.pending = s.pending := by
          split at h1
          · exact pend_dropGroup h1
          · cases h1; rfl
        split at h
        · cases h; exact e1
        · cases h

theorem pend_started {s s' : S} {p : Nat} (h : s.started p = some s') : s'.pending = s.pending := by
  unfold S.started at h
  split at h
  · cases h
  · split at h <;> (cases h; rfl)

theorem pend_startedAll : ∀ (l : List Nat) {s s' : S}, s.startedAll l = some s' → s'.pending = s.pending
  | [], s, s', h => by cases h; rfl
  | p :: t, s, s', h => by
    unfold S.startedAll at h
    split at h
    · cases h
    · rename_i s1 h1
      exact (pend_startedAll t h).trans (pend_started h1)

theorem pend_parsePeer {s s' : S} {m : List Byte} {o : List Nat} (h : s.parsePeer m o = some s') : s'.pending = s.pending := by
  have hn : (s.peerNew m o).1.pending = s.pending := by unfold S.peerNew; split <;> rfl
  unfold S.parsePeer at h
  cases hf : s.findPeer m with
  | some p =>
    rw [hf] at h
    simp only [] at h
    split at h
    · exact pend_started h
    · cases h; rfl
  | none =>
    rw [hf] at h
    simp only [] at h
    cases e : s.peerNew m o with
    | mk s1 r =>
      rw [e] at h hn
      cases r with
      | none => cases h; exact hn
      | some p =>
        simp only [] at h
        split at h
        · exact (pend_started h).trans hn
        · cases h; exact hn

theorem pend_tell (g : Nat) : ∀ (l : List Nat) {s s' : S}, s.tell g l = some s' → s'.pending = s.pending
  | [], s, s', h => by cases h; rfl
  | p :: t, s, s', h => by
    unfold S.tell at h
    split at h
    · cases h
    · split at h
      · exact pend_tell g t h
      · split at h
        · cases h
        · rename_i s1 h1
          exact (pend_tell g t h).trans (pend_connectedChanged h1)

theorem pend_announce {s s' : S} {g : Nat} (h : s.announce g = some s') : s'.pending = s.pending := by
  unfold S.announce at h
  split at h
  · cases h
  · split at h
    · cases h; rfl
    · split at h
      · split at h
        · cases h
        · split at h
          · cases h; rfl
          · exact pend_connectedChanged h
      · exact pend_tell _ _ h

theorem pend_applyLine {s s' : S} {g : Nat} {x : Grp} {k : Byte} {t : List Byte} {m : Bool} (h : s.applyLine g x k t m = some s') : s'.pending = s.pending := by
  unfold S.applyLine at h
  split at h
  · cases h; rfl
  · split at h
    · split at h
      · cases h; rfl
      · split at h <;> (cases h; try rfl)
    · split at h
      · simp only [] at h
        split at h
        · cases h; rfl
        · split at h
          · cases h; rfl
          · split at h
            · cases h; rfl
            · split at h <;> (cases h; try rfl)
      · cases h; rfl

theorem pend_comm {s s' : S} {g : Nat} {c : Comm} {a b : Bool} (h : s.comm g c a b = some s') : s'.pending = s.pending := by
  unfold S.comm at h
  split at h
  · cases h
  · split at h
    · exact pend_groupFree _ _ _ _ h
    · simp only [] at h
      split at h
      · cases h; rfl
      · split at h
        · cases h; rfl
        · obtain ⟨s1, h1, h2⟩ := Option.bind_eq_some_iff.mp h
          exact (pend_announce h2).trans (pend_applyLine h1)

theorem pend_connect {s s' : S} {p : Nat} {a b : Option (List Byte)} {c : Bool} (h : s.connect p a b c = some s') :
    s'.pending = s.pending ∨ (s'.pending = some p ∧ (s.pending = none ∨ s.pending = some p)) := by
  unfold S.connect at h
  split at h
  · cases h
  · split at h
    · cases h; exact Or.inl rfl
    · split at h
      · cases h; exact Or.inl rfl
      · split at h
        · cases h; exact Or.inl rfl
        · rename_i hp
          simp only [] at h
          split at h
          · cases h; exact Or.inl rfl
          · split at h
            · cases h; exact Or.inl rfl
            · cases h
              refine Or.inr ⟨rfl, ?_⟩
              cases hs : s.pending with
              | none => exact Or.inl rfl
              | some q =>
                right
                by_contra e
                exact hp ⟨by rw [hs]; rfl, by rw [hs]; exact e⟩

end Verif.P2p
