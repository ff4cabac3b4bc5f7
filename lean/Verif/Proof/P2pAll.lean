import Verif.Proof.P2pRun
/-! The invariant for whole runs. -/
namespace Verif.P2p
open Verif.C Spec

theorem plain_length (s : S) {g : Nat} {x : Grp} (hx : s.gheap g = some x) : (plain s g).length = s.peers.countP (plainB s g x) := by
  unfold plain members
  rw [List.filter_filter, List.countP_eq_length_filter]
  congr 1
  apply List.filter_congr
  intro p _
  simp [plainB, hx, Bool.and_comm]

theorem plain_le (s : S) {g : Nat} {x : Grp} : s.peers.countP (plainB s g x) ≤ memc s g := by
  apply List.countP_mono_left
  intro p _ h
  simp only [plainB, Bool.and_eq_true] at h
  exact h.1

theorem Good.groupFree {s : S} (h : Good s) {g : Nat} {x : Grp} (hx : s.gheap g = some x) :
    (Doomed s g ∧ S.groupFree depth s g = none) ∨
    (¬ Doomed s g ∧ S.groupFree depth s g = some (s.freed g x) ∧ Good (s.freed g x)) := by
  have hp := plain_length s hx
  have hle := Nat.le_trans (plain_le s (g := g) (x := x)) (h.c g x hx).1
  by_cases hd : s.peers.countP (plainB s g x) < x.users ∨ x.users = 0
  · right
    refine ⟨?_, groupFree_ok 1 h.live h.i.pn hx hd, h.freed hx⟩
    rintro ⟨x', hx', hne, hu⟩
    rw [hx] at hx'
    cases hx'
    have : (plain s g).length ≠ 0 := fun e => hne (List.length_eq_zero_iff.mp e)
    omega
  · left
    have h0 : x.users ≠ 0 := fun e => hd (Or.inr e)
    have h1 : ¬ s.peers.countP (plainB s g x) < x.users := fun e => hd (Or.inl e)
    refine ⟨⟨x, hx, ?_, by omega⟩, groupFree_ub 0 h.live h.i.pn hx (by omega) h0⟩
    intro e
    rw [e] at hp
    simp at hp
    omega

theorem freed_small (s : S) (g : Nat) (x : Grp) : (s.freed g x).bus = s.bus ∧ (s.freed g x).running = s.running ∧ (s.freed g x).peers = s.peers ∧ (s.freed g x).groups = s.groups.erase g := by
  rw [freed_frame]; exact ⟨rfl, rfl, rfl, rfl⟩

theorem Good.startedAll : ∀ (l : List Nat) {s : S}, Good s → (∀ p ∈ l, p ∈ s.peers) →
    ∃ s', s.startedAll l = some s' ∧ Good s' ∧ s'.bus = s.bus ∧ s'.running = s.running ∧ s'.peers = s.peers
  | [], s, h, _ => ⟨s, rfl, h, rfl, rfl, rfl⟩
  | p :: t, s, h, hl => by
    obtain ⟨y, hy⟩ := h.live p (hl p List.mem_cons_self)
    obtain ⟨s1, e, h1, f⟩ := h.started hy
    unfold S.startedAll
    simp only [e]
    obtain ⟨s', a, b, c, d, k⟩ := Good.startedAll t h1 (fun q hq => by rw [f.peers]; exact hl q (List.mem_cons_of_mem _ hq))
    exact ⟨s', a, b, c.trans f.bus, d.trans f.running, k.trans f.peers⟩

theorem Good.freePeers : ∀ (l : List Nat) {s : S}, Good s → s.peers = l →
    ∃ s', s.freePeers l = some s' ∧ Good s' ∧ s'.peers = [] ∧ s'.bus = s.bus
  | [], s, h, e => ⟨s, rfl, h, e, rfl⟩
  | p :: t, s, h, e => by
    obtain ⟨y, hy⟩ := h.live p (by rw [e]; exact List.mem_cons_self)
    obtain ⟨s1, a, h1, hp, hb, _⟩ := h.peerFree hy
    unfold S.freePeers
    simp only [a]
    obtain ⟨s', b, c, d, k⟩ := Good.freePeers t h1 (by rw [hp, e]; simp)
    exact ⟨s', b, c, d, k.trans hb⟩

theorem Good.freeGroups : ∀ (n : Nat) {s : S}, Good s → s.peers = [] → s.groups.length = n →
    ∃ s', S.freeGroups n s = some s' ∧ Good s' ∧ s'.peers = [] ∧ s'.groups = [] ∧ s'.bus = s.bus
  | 0, s, h, hp, hl => ⟨s, rfl, h, hp, List.length_eq_zero_iff.mp hl, rfl⟩
  | n + 1, s, h, hp, hl => by
    unfold S.freeGroups
    match hg : s.groups with
    | [] => rw [hg] at hl; cases hl
    | g :: t =>
      simp only []
      obtain ⟨x, hx⟩ := (h.i.gl g).mp (by rw [hg]; exact List.mem_cons_self)
      rcases h.groupFree hx with ⟨⟨_, _, hne, _⟩, _⟩ | ⟨_, e, h1⟩
      · exact absurd (by simp [plain, members, hp]) hne
      · simp only [e]
        obtain ⟨a, b, c, d⟩ := freed_small s g x
        have hlen : (s.freed g x).groups.length = n := by
          rw [d, hg]
          rw [hg] at hl
          simpa using hl
        obtain ⟨s', f1, f2, f3, f4, f5⟩ := Good.freeGroups n h1 (c.trans hp) hlen
        exact ⟨s', f1, f2, f3, f4, f5.trans a⟩

/-- The invariant between events. -/
structure Inv (s : S) : Prop where
  g : Good s
  idle : s.bus = false → s.peers = [] ∧ s.groups = []
  act : s.running = true → s.bus = true

/-- The events that are undefined. -/
def Bad (s : S) (op : Op) : Prop := (∃ g, Destroys s op g ∧ Doomed s g) ∨ Dangles s op

theorem Inv.of {s s' : S} (h : Inv s) (g : Good s') (hb : s'.bus = s.bus) (hr : s'.running = s.running) (hbus : s.bus = true) : Inv s' :=
  ⟨g, by rw [hb, hbus]; simp, by intro _; rw [hb, hbus]⟩

theorem Inv.of2 {s s' : S} (h : Inv s) (g : Good s') (hb : s'.bus = s.bus) (hr : s'.running = s.running) (hp : s'.peers = s.peers)
    (hg : ∀ k, k ∈ s'.groups → k ∈ s.groups) : Inv s' := by
  refine ⟨g, ?_, ?_⟩
  · intro e
    rw [hb] at e
    obtain ⟨a, b⟩ := h.idle e
    refine ⟨hp.trans a, ?_⟩
    apply List.eq_nil_iff_forall_not_mem.mpr
    intro k hk
    have := hg k hk
    rw [b] at this
    simp at this
  · rw [hr, hb]; exact h.act

theorem destroy_case {s : S} (h : Inv s) {g : Nat} (hg : g ∈ s.groups) :
    (Doomed s g ∧ S.groupFree depth s g = none) ∨ (¬ Doomed s g ∧ ∃ s', S.groupFree depth s g = some s' ∧ Inv s') := by
  obtain ⟨x, hx⟩ := (h.g.i.gl g).mp hg
  rcases h.g.groupFree hx with ⟨a, b⟩ | ⟨a, b, c⟩
  · exact Or.inl ⟨a, b⟩
  · refine Or.inr ⟨a, _, b, ?_⟩
    obtain ⟨e1, e2, e3, e4⟩ := freed_small s g x
    exact h.of2 c e1 e2 e3 (by rw [e4]; intro k hk; exact List.mem_of_mem_erase hk)

theorem bad_destroy {s : S} {op : Op} {g : Nat} (hd : ∀ k, Destroys s op k ↔ k = g) (hn : ¬ Dangles s op) : Bad s op ↔ Doomed s g := by
  constructor
  · rintro (⟨k, h1, h2⟩ | h)
    · rw [(hd k).mp h1] at h2; exact h2
    · exact absurd h hn
  · intro h; exact Or.inl ⟨g, (hd g).mpr rfl, h⟩

theorem bad_none {s : S} {op : Op} (hd : ∀ k, ¬ Destroys s op k) (hn : ¬ Dangles s op) : ¬ Bad s op := by
  rintro (⟨k, h1, h2⟩ | h)
  · exact hd k h1
  · exact hn h

/-- The events that can neither destroy a group nor look at its owner. -/
def Op.harmless : Op → Bool
  | .groupRemoved _ | .comm .. | .helperDied _ => false
  | _ => true

theorem bad_harmless {s : S} {op : Op} (h : op.harmless = true) : ¬ Bad s op := by
  cases op <;> simp_all [Op.harmless, Bad, Destroys, Dangles]

theorem handle_harmless {s : S} (h : Inv s) (op : Op) (hh : op.harmless = true) (hb : op.fromWpas = true → s.bus = true) : ∃ s', s.handle op = some s' ∧ Inv s' := by
  have hg := h.g
  cases op with
  | found mac order =>
    obtain ⟨s', a, b, c, d⟩ := hg.parsePeer mac order
    exact ⟨s', a, h.of b c d (hb rfl)⟩
  | lost mac =>
    simp only [S.handle]
    split
    · exact ⟨s, rfl, h⟩
    · rename_i p hf
      obtain ⟨_, y, hy, _⟩ := findPeer_some hf
      obtain ⟨s', a, b, c, d, e, _⟩ := hg.peerFree hy
      exact ⟨s', a, h.of b d e (hb rfl)⟩
  | provision mac prov pin mem =>
    simp only [S.handle]
    split
    · exact ⟨s, rfl, h⟩
    · rename_i p hf
      obtain ⟨_, y, hy, _⟩ := findPeer_some hf
      simp only [hy]
      split
      · exact ⟨s, rfl, h⟩
      · have h1 := hg.setPeer hy (y' := { y with prov := some prov, pin := pin }) rfl rfl rfl rfl
        exact ⟨_, rfl, h.of (h1.sayP (p := p) (y := { y with prov := some prov, pin := pin }) (upd_same _ _ _) (fun e => e) (fun q k => rfl) (fun _ _ => rfl))
          (by rw [emitIf_eq]; rfl) (by rw [emitIf_eq]; rfl) (hb rfl)⟩
  | negotiation mac =>
    simp only [S.handle]
    split
    · exact ⟨s, rfl, h⟩
    · rename_i p hf
      obtain ⟨_, y, hy, _⟩ := findPeer_some hf
      simp only [hy]
      have h1 : ∃ y1, (if y.prov = none then s.setPeer p { y with prov := some (bytes "pbc"), pin := none } else s).pheap p = some y1 ∧ y1.shown = y.shown ∧
          Good (if y.prov = none then s.setPeer p { y with prov := some (bytes "pbc"), pin := none } else s) ∧
          (if y.prov = none then s.setPeer p { y with prov := some (bytes "pbc"), pin := none } else s).bus = s.bus ∧
          (if y.prov = none then s.setPeer p { y with prov := some (bytes "pbc"), pin := none } else s).running = s.running := by
        split
        · exact ⟨_, upd_same _ _ _, rfl, hg.setPeer hy rfl rfl rfl rfl, rfl, rfl⟩
        · exact ⟨y, hy, rfl, hg, rfl, rfl⟩
      obtain ⟨y1, e1, e2, e3, e4, e5⟩ := h1
      refine ⟨_, rfl, h.of (e3.sayP (p := p) e1 (by intro e; rw [e2]; simp at e; exact e.2) (fun q k => rfl) (fun _ _ => rfl)) ?_ ?_ (hb rfl)⟩
      · rw [emitIf_eq]; exact e4
      · rw [emitIf_eq]; exact e5
  | negotiated mac sta mem =>
    simp only [S.handle]
    split
    · exact ⟨s, rfl, h⟩
    · rename_i p hf
      obtain ⟨_, y, hy, _⟩ := findPeer_some hf
      simp only [hy]
      split
      · exact ⟨s, rfl, h⟩
      · exact ⟨_, rfl, h.of (hg.setPeer hy rfl rfl rfl rfl) rfl rfl (hb rfl)⟩
  | groupStarted mac ifname go spawn watch =>
    simp only [S.handle]
    split
    · exact ⟨s, rfl, h⟩
    · have fin : ∀ s1 g x, Good s1 → s1.bus = s.bus → s1.running = s.running → s1.pheap = s.pheap → s1.gheap g = some x →
          ∃ s', (match s.findPeer mac with
            | none => some s1
            | some p => match s1.setGroup p g with
              | none => none
              | some s2 => match s2.gheap g with
                | none => none
                | some x => some (s2.setGrp g { x with owner := some p })) = some s' ∧ Inv s' := by
        intro s1 g x h1 b1 r1 p1 hx
        cases hf : s.findPeer mac with
        | none => exact ⟨s1, rfl, h.of h1 b1 r1 (hb rfl)⟩
        | some p =>
          obtain ⟨_, y, hy, _⟩ := findPeer_some hf
          obtain ⟨s2, a, b, ⟨x', hx', _⟩, _, b2, r2, _⟩ := h1.setGroup (p := p) (y := y) (by rw [p1]; exact hy) hx
          simp only [a, hx']
          exact ⟨_, rfl, h.of (b.setGrp hx' rfl (by intro e; cases e) rfl rfl rfl) (b2.trans b1) (r2.trans r1) (hb rfl)⟩
      cases hf : s.findGroup ifname with
      | some g =>
        obtain ⟨_, x, hx, _⟩ := findGroup_some hf
        simp only []
        exact fin s g x hg rfl rfl rfl hx
      | none =>
        simp only []
        obtain ⟨s1, r, a, b, c, d, e, _, _, f⟩ := hg.groupNew ifname go spawn watch
        rw [a]
        cases r with
        | none => exact ⟨s1, rfl, h.of b c d (hb rfl)⟩
        | some g =>
          obtain ⟨x, hx⟩ := f g rfl
          exact fin s1 g x b c d e hx
  | groupRemoved ifname => cases hh
  | formationFailed =>
    simp only [S.handle]
    split
    · exact ⟨s, rfl, h⟩
    · rename_i p hp
      obtain ⟨y, hy⟩ := hg.i.pe p hp
      have h1 := hg.pending none (by intro q hq; cases hq)
      obtain ⟨e, h2⟩ := h1.formationFailure (y := y) hy
      exact ⟨_, e, h.of h2 (by rw [emitIf_eq]) (by rw [emitIf_eq]) (hb rfl)⟩
  | staConnected mac sta ifname mem =>
    simp only [S.handle]
    split
    · exact ⟨s, rfl, h⟩
    · rename_i p hf
      obtain ⟨_, y, hy, _⟩ := findPeer_some hf
      simp only [hy]
      split
      · exact ⟨s, rfl, h⟩
      · split
        · exact ⟨s, rfl, h⟩
        · have h1 := hg.setPeer hy (y' := { y with sta := some sta }) rfl rfl rfl rfl
          cases ifname with
          | none => exact ⟨_, rfl, h.of h1 rfl rfl (hb rfl)⟩
          | some i =>
            simp only []
            split
            · exact ⟨_, rfl, h.of h1 rfl rfl (hb rfl)⟩
            · rename_i g hgf
              obtain ⟨_, x, hx, _⟩ := findGroup_some hgf
              obtain ⟨s2, a, b, _, _, b2, r2, _⟩ := h1.setGroup (p := p) (upd_same _ _ _) hx
              exact ⟨s2, a, h.of b b2 r2 (hb rfl)⟩
  | staDisconnected mac =>
    simp only [S.handle]
    split
    · exact ⟨s, rfl, h⟩
    · rename_i p hf
      obtain ⟨_, y, hy, _⟩ := findPeer_some hf
      simp only [hy]
      by_cases hp : s.pending = some p
      · rw [if_pos hp]
        have h1 := hg.pending none (by intro q hq; cases hq)
        by_cases hc : y.connected = true
        · rw [if_pos hc]
          obtain ⟨e, h2⟩ := h1.connectedChanged (y := y) hy false
          simp only [e]
          obtain ⟨s3, a, b, f, _⟩ := h2.dropGroup (p := p) (upd_same _ _ _)
          exact ⟨s3, a, h.of b f.bus f.running (hb rfl)⟩
        · rw [if_neg hc]
          obtain ⟨e, h2⟩ := h1.formationFailure (y := y) hy
          simp only [e]
          obtain ⟨s3, a, b, f, _⟩ := h2.dropGroup (p := p) (y := y) (by rw [emitIf_eq]; exact hy)
          exact ⟨s3, a, h.of b (f.bus.trans (by rw [emitIf_eq])) (f.running.trans (by rw [emitIf_eq])) (hb rfl)⟩
      · rw [if_neg hp]
        obtain ⟨s3, a, b, f, _⟩ := hg.dropGroup hy
        exact ⟨s3, a, h.of b f.bus f.running (hb rfl)⟩
  | comm g c m1 m2 => cases hh
  | helperDied g => cases hh
  | connect mac prov pin call =>
    simp only [S.handle]
    split
    · exact ⟨s, rfl, h⟩
    · rename_i p hf
      obtain ⟨_, y, hy, _⟩ := findPeer_some hf
      have hsay : ∀ r, Inv (s.emit (.result r)) := fun r => h.of2 (hg.say (quiet_result r) (mute_one (fun _ _ => rfl))) rfl rfl rfl (fun _ hk => hk)
      split
      · unfold S.connect
        simp only [hy]
        split
        · exact ⟨_, rfl, hsay _⟩
        · split
          · exact ⟨_, rfl, hsay _⟩
          · split
            · exact ⟨_, rfl, hsay _⟩
            · split
              · exact ⟨_, rfl, hsay _⟩
              · split
                · exact ⟨_, rfl, hsay _⟩
                · refine ⟨_, rfl, h.of2 (Good.say (Good.say (hg.pending (some p) ?_) (quiet_connect _ _ _) (mute_one (fun _ _ => rfl))) (quiet_result _) (mute_one (fun _ _ => rfl))) rfl rfl rfl (fun _ hk => hk)⟩
                  intro q hq; cases hq; exact ⟨y, hy⟩
      · exact ⟨s, rfl, h⟩
  | disconnect mac =>
    simp only [S.handle]
    split
    · exact ⟨s, rfl, h⟩
    · rename_i p hf
      obtain ⟨hin, y, hy, _⟩ := findPeer_some hf
      simp only [hy]
      split
      · have h1 := hg.setPeer hy (y' := { y with prov := none, pin := none }) rfl rfl rfl rfl
        obtain ⟨s3, a, b, f, _⟩ := h1.dropGroup (p := p) (upd_same _ _ _)
        refine ⟨s3, a, h.of b f.bus f.running ?_⟩
        cases hbus : s.bus with
        | true => rfl
        | false => rw [(h.idle hbus).1] at hin; simp at hin
      · exact ⟨s, rfl, h⟩
  | startScan =>
    simp only [S.handle]
    split
    · exact ⟨_, rfl, h.of2 (hg.pending none (by intro q hq; cases hq)) rfl rfl rfl (fun _ hk => hk)⟩
    · exact ⟨s, rfl, h⟩
  | attached =>
    exact ⟨_, rfl, hg.flags true s.running s.p2pMac, by simp, by simp⟩
  | ready =>
    simp only [S.handle]
    split
    · exact ⟨s, rfl, h⟩
    · obtain ⟨s', a, b, c, d, e⟩ := Good.startedAll s.peers (hg.flags s.bus true s.p2pMac) (fun _ hk => hk)
      refine ⟨s', a, b, ?_, ?_⟩
      · intro e; rw [c] at e; have : s.bus = true := hb rfl; rw [this] at e; cases e
      · intro _; rw [c]; exact hb rfl
  | ownMac mac => exact ⟨_, rfl, h.of2 (hg.flags s.bus s.running (some mac)) rfl rfl rfl (fun _ hk => hk)⟩
  | stopped =>
    simp only [S.handle]
    obtain ⟨s1, a, b, c, d⟩ := Good.freePeers s.peers (hg.flags false s.running s.p2pMac) rfl
    rw [a]
    simp only []
    obtain ⟨s2, a2, b2, c2, d2, e2⟩ := Good.freeGroups s1.groups.length b c rfl
    rw [a2]
    simp only []
    exact ⟨_, rfl, b2.flags s2.bus false none, fun _ => ⟨c2, d2⟩, by simp⟩

theorem step_case {s : S} (h : Inv s) (op : Op) : (Bad s op ∧ s.step op = none) ∨ (¬ Bad s op ∧ ∃ s', s.step op = some s' ∧ Inv s') := by
  unfold S.step
  by_cases hh : op.harmless = true
  · right
    refine ⟨bad_harmless hh, ?_⟩
    by_cases hw : op.fromWpas = true ∧ s.bus = false
    · rw [if_pos (by simp [hw.1, hw.2])]; exact ⟨s, rfl, h⟩
    · rw [if_neg (by cases h1 : op.fromWpas <;> cases h2 : s.bus <;> simp_all)]
      exact handle_harmless h op hh (by intro e; cases h2 : s.bus; exact absurd ⟨e, h2⟩ hw; rfl)
  · cases op with
    | groupRemoved i =>
      cases hbus : s.bus with
      | false =>
        right
        exact ⟨bad_none (by simp [Destroys, hbus]) (by simp [Dangles]), s, by simp [Op.fromWpas], h⟩
      | true =>
        simp only [Op.fromWpas, S.handle, Bool.not_true, Bool.and_false, Bool.false_eq_true, if_false]
        cases hf : s.findGroup i with
        | none => right; exact ⟨bad_none (by simp [Destroys, hf]) (by simp [Dangles]), s, rfl, h⟩
        | some g =>
          have hb : Bad s (.groupRemoved i) ↔ Doomed s g := bad_destroy (by intro k; simp only [Destroys, hbus, hf, true_and, Option.some.injEq]; exact eq_comm) (by simp [Dangles])
          rw [hb]
          exact destroy_case h (findGroup_some hf).1
    | helperDied g =>
      simp only [Op.fromWpas, S.handle, Bool.false_and, Bool.false_eq_true, if_false]
      by_cases hgm : g ∈ s.groups
      · rw [if_pos hgm]
        have hb : Bad s (.helperDied g) ↔ Doomed s g := bad_destroy (by intro k; simp only [Destroys]; constructor; exact fun e => e.1.symm; rintro rfl; exact ⟨rfl, hgm⟩) (by simp [Dangles])
        rw [hb]
        exact destroy_case h hgm
      · rw [if_neg hgm]
        right
        exact ⟨bad_none (by intro k; simp only [Destroys]; rintro ⟨rfl, e⟩; exact hgm e) (by simp [Dangles]), s, rfl, h⟩
    | comm g c mem1 mem2 =>
      simp only [Op.fromWpas, S.handle, Bool.false_and, Bool.false_eq_true, if_false]
      by_cases hgm : g ∈ s.groups
      · rw [if_pos hgm]
        obtain ⟨x, hx⟩ := (h.g.i.gl g).mp hgm
        cases c with
        | hup =>
          have hb : Bad s (.comm g .hup mem1 mem2) ↔ Doomed s g := bad_destroy (by intro k; simp only [Destroys]; constructor; exact fun e => e.1.symm; rintro rfl; exact ⟨rfl, hgm⟩) (by simp [Dangles])
          rw [hb]
          have : s.comm g .hup mem1 mem2 = S.groupFree depth s g := by simp [S.comm, hx]
          rw [this]
          exact destroy_case h hgm
        | line l =>
          rw [comm_line s hx]
          have hd : ∀ k, ¬ Destroys s (.comm g (.line l) mem1 mem2) k := by intro k; simp [Destroys]
          cases hr : reads l with
          | none =>
            right
            refine ⟨bad_none hd ?_, s, rfl, h⟩
            cases mem1 <;> simp [Dangles, hr]
          | some kt =>
            obtain ⟨k, t⟩ := kt
            simp only []
            cases mem1 with
            | false =>
              right
              exact ⟨bad_none hd (by simp [Dangles]), s, by simp, h⟩
            | true =>
              simp only [Bool.true_eq_false, if_false]
              rcases h.g.applyLine hx k t mem2 with ⟨hk, ⟨p, ho, hp⟩, e⟩ | ⟨hG, s1, e, h1, b1, r1, p1, gr1, x1, ph1⟩
              · left
                rw [e]
                exact ⟨Or.inr ⟨x, p, k, t, hgm, hx, ho, hp, hr, Or.inl hk⟩, rfl⟩
              · rw [e]
                simp only [Option.bind_some]
                by_cases hdang : ∃ p, x.owner = some p ∧ s.pheap p = none ∧ (k = ch 'L' ∨ x.localAddr ≠ none)
                · left
                  obtain ⟨p, ho, hp, hl⟩ := hdang
                  refine ⟨Or.inr ⟨x, p, k, t, hgm, hx, ho, hp, hr, Or.inr hl⟩, ?_⟩
                  refine announce_ub x1 ?_ ho ?_
                  · simp only []
                    by_cases hkL : k = ch 'L'
                    · rw [if_pos hkL]; simp
                    · rw [if_neg hkL]; rcases hl with hl | hl
                      · exact absurd hl hkL
                      · exact hl
                  · cases hpp : s1.pheap p with
                    | none => rfl
                    | some z =>
                      obtain ⟨z', hz'⟩ := (ph1 p).mpr ⟨z, hpp⟩
                      rw [hp] at hz'; cases hz'
                · right
                  constructor
                  · apply bad_none hd
                    rintro ⟨x', p, k', t', _, hx', ho, hp, hr', hk'⟩
                    rw [hx] at hx'; cases hx'
                    rw [hr] at hr'; cases hr'
                    rcases hk' with hk' | hk'
                    · obtain ⟨y, hy⟩ := hG hk' p ho
                      rw [hp] at hy; cases hy
                    · exact hdang ⟨p, ho, hp, hk'⟩
                  · obtain ⟨s', a, b, c, d, f, f2⟩ := h1.announce x1 (by
                      by_cases hl : k = ch 'L' ∨ x.localAddr ≠ none
                      · right
                        intro p ho
                        cases hpp : s.pheap p with
                        | none => exact absurd ⟨p, ho, hpp, hl⟩ hdang
                        | some y => exact (ph1 p).mp ⟨y, hpp⟩
                      · left
                        have h1 : k ≠ ch 'L' := fun e => hl (Or.inl e)
                        simp only [if_neg h1]
                        by_contra e
                        exact hl (Or.inr e))
                    exact ⟨s', a, h.of2 b (c.trans b1) (d.trans r1) (f.trans p1) (by rw [f2, gr1]; exact fun _ hk => hk)⟩
      · rw [if_neg hgm]
        right
        refine ⟨bad_none ?_ ?_, s, rfl, h⟩
        · intro k
          cases c with
          | hup => simp only [Destroys]; rintro ⟨rfl, e⟩; exact hgm e
          | line l => simp [Destroys]
        · cases c with
          | hup => simp [Dangles]
          | line l =>
            cases mem1
            · simp [Dangles]
            · rintro ⟨_, _, _, _, e, _⟩; exact hgm e
    | _ => exact absurd rfl hh

theorem Inv.start (zx : Bool) : Inv (start zx) := ⟨Good.start zx, fun _ => ⟨rfl, rfl⟩, by simp [P2p.start]⟩

theorem Inv.run : ∀ (ops : List Op) {s s' : S}, Inv s → s.run ops = some s' → Inv s'
  | [], s, s', h, e => by cases e; exact h
  | o :: t, s, s', h, e => by
    unfold S.run at e
    rcases step_case h o with ⟨_, e1⟩ | ⟨_, s1, e1, h1⟩
    · rw [e1] at e; cases e
    · rw [e1] at e; exact Inv.run t h1 e

/-- Every state that occurs. -/
theorem reached {zx : Bool} {ops : List Op} {s : S} (h : (start zx).run ops = some s) : Inv s := Inv.run ops (Inv.start zx) h

end Verif.P2p
