import Verif.Proof.P2pInv
/-! Each function keeps the invariant. -/
namespace Verif.P2p
open Verif.C Spec

theorem freed_zero (s : S) (g : Nat) (x : Grp) (u : Nat) : (s.setGrp g { x with users := u }).freed g { x with users := u } = s.freed g x := by
  have hk : (s.setGrp g { x with users := u }).killed g { x with users := u } = (s.killed g x).setGrp g { x with users := u, dhcp := false } := by
    simp only [S.killed, S.setGrp, upd_upd]
    rfl
  have hd : ((s.setGrp g { x with users := u }).killed g { x with users := u }).detachAll g s.peers = ((s.killed g x).detachAll g s.peers).setGrp g { x with users := u, dhcp := false } := by
    rw [hk, detachAll_setGrp]
  have hp : (s.setGrp g { x with users := u }).peers = s.peers := rfl
  unfold S.freed
  simp only [hp, hd]
  simp only [S.setGrp, upd_upd]

theorem detach_alone {s : S} {p : Nat} {y : Peer} (h : s.pheap p = some y.alone) : s.detach p y.alone = s := by
  have : y.alone.alone = y.alone := rfl
  unfold S.detach
  rw [this, ← h, upd_self]
  simp [Peer.alone]

theorem memc_one {s : S} (h : Good s) {p q g : Nat} {y z : Peer} (hm : memc s g ≤ 1) (hp : s.pheap p = some y) (hy : y.g = some g)
    (hq : s.pheap q = some z) (hz : z.g = some g) : q = p := by
  by_contra hne
  have h1 : p ∈ s.peers.filter (inG s g) := List.mem_filter.mpr ⟨(h.i.pl p).mpr ⟨y, hp⟩, by simp [inG, hp, hy]⟩
  have h2 : q ∈ s.peers.filter (inG s g) := List.mem_filter.mpr ⟨(h.i.pl q).mpr ⟨z, hq⟩, by simp [inG, hq, hz]⟩
  unfold memc at hm
  rw [List.countP_eq_length_filter] at hm
  match hl : s.peers.filter (inG s g) with
  | [] => rw [hl] at h1; simp at h1
  | [a] => rw [hl] at h1 h2; simp at h1 h2; exact hne (h2.trans h1.symm)
  | a :: b :: t => rw [hl] at hm; simp at hm

theorem memc_pos {s : S} (h : Good s) {p g : Nat} {y : Peer} (hp : s.pheap p = some y) (hy : y.g = some g) : 1 ≤ memc s g :=
  List.countP_pos_iff.mpr ⟨p, (h.i.pl p).mpr ⟨y, hp⟩, by simp [inG, hp, hy]⟩

/-- `supplicant_peer_drop_group` is always defined, and this is what it does. -/
theorem dropGroup_case {s : S} (h : Good s) {p : Nat} {y : Peer} (hp : s.pheap p = some y) :
    (y.g = none ∧ s.dropGroup p = some s) ∨ ∃ g x, y.g = some g ∧ s.gheap g = some x ∧
      (((x.owner = some p ∨ 2 ≤ x.users) ∧
          s.dropGroup p = some ((s.detach p y).setGrp g { x with users := x.users - (if x.owner = some p then 0 else 1) })) ∨
       (x.owner ≠ some p ∧ x.users = 1 ∧ s.dropGroup p = some (s.freed g x) ∧
          ∀ q z, s.pheap q = some z → z.g = some g → q = p)) := by
  cases hy : y.g with
  | none => left; exact ⟨rfl, by simp [S.dropGroup, S.dropGroupWith, hp, hy]⟩
  | some g =>
    right
    obtain ⟨x, hx⟩ := h.i.pg p y g hp hy
    obtain ⟨c1, c2⟩ := h.c g x hx
    have c3 := memc_pos h hp hy
    refine ⟨g, x, rfl, hx, ?_⟩
    by_cases hk : x.owner = some p ∨ 2 ≤ x.users
    · left
      exact ⟨hk, dropGroupWith_keep _ hp hy hx (by rcases hk with hk | hk; exact Or.inl hk; exact Or.inr (by omega))⟩
    · right
      have ho : x.owner ≠ some p := fun e => hk (Or.inl e)
      have h1 : x.users = 1 := by
        have : ¬ 2 ≤ x.users := fun e => hk (Or.inr e)
        omega
      refine ⟨ho, h1, ?_, fun q z hq hz => memc_one h (by omega) hp hy hq hz⟩
      unfold S.dropGroup S.dropGroupWith
      simp only [hp, hy, hx, if_neg ho, h1]
      rw [if_neg (by decide), if_neg (by simp)]
      rw [show depth = 1 + 1 from rfl, groupFree_ok 1 (s := s.setGrp g { x with users := 0 }) (x := { x with users := 0 }) h.live h.i.pn
        (by simp [S.setGrp, upd_same]) (Or.inr rfl)]
      simp only [freed_zero]
      have hph : (s.freed g x).pheap p = some y.alone := by rw [freed_pheap h.i]; simp [hp, hy]
      simp only [hph, leave_eq, detach_alone hph]

/-- What other parts may rely on. -/
structure Frame (s s' : S) (p : Nat) (g : Option Nat) : Prop where
  peers : s'.peers = s.peers
  next : s'.next = s.next
  pending : s'.pending = s.pending
  bus : s'.bus = s.bus
  running : s'.running = s.running
  own : s'.p2pMac = s.p2pMac
  zx : s'.zx = s.zx
  ph : ∀ q, q ≠ p → s'.pheap q = s.pheap q
  gh : ∀ k, g ≠ some k → s'.gheap k = s.gheap k

theorem Good.dropGroup {s : S} (h : Good s) {p : Nat} {y : Peer} (hp : s.pheap p = some y) :
    ∃ s', s.dropGroup p = some s' ∧ Good s' ∧ Frame s s' p y.g ∧
      s'.pheap p = some (if y.g = none then y else y.alone) := by
  rcases dropGroup_case h hp with ⟨hy, hd⟩ | ⟨g, x, hy, hx, ⟨_, hd⟩ | ⟨ho, h1, hd, hu⟩⟩
  · exact ⟨s, hd, h, ⟨rfl, rfl, rfl, rfl, rfl, rfl, rfl, fun _ _ => rfl, fun _ _ => rfl⟩, by simp [hy, hp]⟩
  · refine ⟨_, hd, h.leave hp hy hx, ⟨rfl, rfl, rfl, rfl, rfl, rfl, rfl, fun q hq => upd_ne _ _ hq, ?_⟩, ?_⟩
    · intro k hk
      exact upd_ne _ _ (by rintro rfl; exact hk hy)
    · rw [hy]; simp [S.setGrp, S.detach, upd_same]
  · refine ⟨_, hd, h.freed hx, ?_, ?_⟩
    · have hf := freed_frame s g x
      refine ⟨by rw [hf], by rw [hf], by rw [hf], by rw [hf], by rw [hf], by rw [hf], by rw [hf], ?_, ?_⟩
      · intro q hq
        rw [freed_pheap h.i]
        cases hz : s.pheap q with
        | none => rfl
        | some z => simp [show z.g ≠ some g from fun e => hq (hu q z hz e)]
      · intro k hk
        rw [hf]
        exact upd_ne _ _ (by rintro rfl; exact hk hy)
    · rw [freed_pheap h.i]; simp [hp, hy]

theorem Good.setGroup {s : S} (h : Good s) {p g : Nat} {y : Peer} {x : Grp} (hp : s.pheap p = some y) (hg : s.gheap g = some x) :
    ∃ s', s.setGroup p g = some s' ∧ Good s' ∧ (∃ x', s'.gheap g = some x' ∧ x'.subnet = x.subnet) ∧ (∃ y', s'.pheap p = some y') ∧
      s'.bus = s.bus ∧ s'.running = s.running ∧ s'.pending = s.pending := by
  unfold S.setGroup
  simp only [hp]
  by_cases hy : y.g = some g
  · rw [if_pos hy]
    exact ⟨s, rfl, h, ⟨x, hg, rfl⟩, ⟨y, hp⟩, rfl, rfl, rfl⟩
  · rw [if_neg hy]
    cases hyg : y.g with
    | none =>
      simp only [Option.isSome_none, Bool.false_eq_true, if_false, hp, hg]
      exact ⟨_, rfl, h.join hp hyg hg, ⟨_, upd_same _ _ _, rfl⟩, ⟨_, upd_same _ _ _⟩, rfl, rfl, rfl⟩
    | some g' =>
      obtain ⟨s1, hd, h1, hf, hp1⟩ := h.dropGroup hp
      have hg1 : s1.gheap g = some x := by rw [hf.gh g hy]; exact hg
      rw [if_neg (by rw [hyg]; simp)] at hp1
      simp only [Option.isSome_some, if_true, hd, hp1, hg1]
      exact ⟨_, rfl, h1.join hp1 rfl hg1, ⟨_, upd_same _ _ _, rfl⟩, ⟨_, upd_same _ _ _⟩, hf.bus, hf.running, hf.pending⟩

theorem Good.connectedChanged {s : S} (h : Good s) {p : Nat} {y : Peer} (hp : s.pheap p = some y) (v : Bool) :
    s.connectedChanged p v = some { s with pheap := upd s.pheap p (some { y with connected := v }), log := s.log ++ (if y.connected ≠ v ∧ y.shown = true then [.connected p v] else []) } ∧
    Good { s with pheap := upd s.pheap p (some { y with connected := v }), log := s.log ++ (if y.connected ≠ v ∧ y.shown = true then [.connected p v] else []) } := by
  have hi : ∀ t, Inv0 { s with pheap := upd s.pheap p (some { y with connected := v }), log := t } :=
    fun t => (h.i.setPeer hp (y' := { y with connected := v }) rfl (fun k hk => h.i.pg p y k hp hk)).log t
  refine ⟨?_, ⟨hi _, ?_, ?_, h.w.congr _ (mute_if (mute_one (fun _ _ => rfl))) rfl (fun _ => rfl) (Nat.le_refl _)⟩⟩
  · unfold S.connectedChanged
    simp only [hp]
    split
    · rename_i e
      have : ({ y with connected := v } : Peer) = y := by rw [← e]
      rw [this, ← hp, upd_self]
      simp [e]
    · rename_i e
      cases hs : y.shown <;> simp [S.emitIf, S.emit, S.setPeer, e]
  · intro k z hz
    have : memc ({ s with pheap := upd s.pheap p (some { y with connected := v }), log := s.log ++ (if y.connected ≠ v ∧ y.shown = true then [.connected p v] else []) } : S) k = memc s k := by
      refine memc_same (s := s) rfl ?_
      intro q hq
      by_cases hq2 : q = p
      · subst hq2; simp [inG, upd_same, hp]
      · simp [inG, upd_ne _ _ hq2]
    rw [this]
    exact h.c k z hz
  · refine h.v.one p _ rfl rfl (fun q hq => upd_ne _ _ hq) ?_ (h.i.pf p y hp) ?_
    · intro q hq k
      split
      · simp [follows, follow, Ne.symm hq]
      · rfl
    · intro k hk
      rw [hp] at hk
      simp only [upd_same]
      simp only [Fits] at hk ⊢
      subst hk
      cases hs : y.shown <;> cases hc : y.connected <;> cases v <;> simp [follows, follow]

theorem Good.formationFailure {s : S} (h : Good s) {p : Nat} {y : Peer} (hp : s.pheap p = some y) :
    s.formationFailure p = some (s.emitIf y.shown (.failure p)) ∧ Good (s.emitIf y.shown (.failure p)) :=
  ⟨by simp [S.formationFailure, hp], h.sayP hp (fun e => e) (fun q k => rfl) (fun _ _ => rfl)⟩

theorem Good.started {s : S} (h : Good s) {p : Nat} {y : Peer} (hp : s.pheap p = some y) :
    ∃ s', s.started p = some s' ∧ Good s' ∧ Frame s s' p none := by
  unfold S.started
  simp only [hp]
  cases hs : y.shown with
  | true => simp only [if_true]; exact ⟨s, rfl, h, ⟨rfl, rfl, rfl, rfl, rfl, rfl, rfl, fun _ _ => rfl, fun _ _ => rfl⟩⟩
  | false =>
    simp only [Bool.false_eq_true, if_false]
    refine ⟨_, rfl, ⟨(h.i.setPeer hp (y' := { y with shown := true }) rfl (fun k hk => h.i.pg p y k hp hk)).log _, ?_, ?_,
      h.w.congr [.added p y.connected] (mute_one (fun _ _ => rfl)) rfl (fun _ => rfl) (Nat.le_refl _)⟩,
      ⟨rfl, rfl, rfl, rfl, rfl, rfl, rfl, fun q hq => upd_ne _ _ hq, fun _ _ => rfl⟩⟩
    · intro k z hz
      have : memc ((s.setPeer p { y with shown := true }).emit (.added p y.connected)) k = memc s k := by
        refine memc_same (s := s) rfl ?_
        intro q hq
        by_cases hq2 : q = p
        · subst hq2; simp [inG, S.setPeer, S.emit, upd_same, hp]
        · simp [inG, S.setPeer, S.emit, upd_ne _ _ hq2]
      rw [this]
      exact h.c k z hz
    · refine h.v.one p [.added p y.connected] rfl rfl (fun q hq => upd_ne _ _ hq) ?_ (h.i.pf p y hp) ?_
      · intro q hq k
        simp [follows, follow, Ne.symm hq]
      · intro k hk
        rw [hp] at hk
        simp only [Fits, hs] at hk
        simp only [Bool.false_eq_true, if_false] at hk
        subst hk
        exact ⟨.here y.connected, by simp [follows, follow], by simp [S.setPeer, S.emit, upd_same, Fits]⟩

/-- A peer without a group is removed. -/
theorem Good.remove {s : S} (h : Good s) {p : Nat} {y : Peer} (hp : s.pheap p = some y) (hy : y.g = none) (hpe : s.pending ≠ some p) :
    Good { s.emitIf y.shown (.removed p) with peers := s.peers.erase p, pheap := upd s.pheap p none } := by
  rw [emitIf_eq]
  refine ⟨(h.i.freeP hpe).log _, ?_, ?_, h.w.congr _ (mute_if (mute_one (fun _ _ => rfl))) rfl (fun _ => rfl) (Nat.le_refl _)⟩
  · intro k z hz
    have hm : memc ({ s with log := s.log ++ (if y.shown then [.removed p] else []), peers := s.peers.erase p, pheap := upd s.pheap p none } : S) k = memc s k := by
      unfold memc
      have h1 : (s.peers.erase p).countP (inG ({ s with log := s.log ++ (if y.shown then [.removed p] else []), peers := s.peers.erase p, pheap := upd s.pheap p none } : S) k) = (s.peers.erase p).countP (inG s k) := by
        apply List.countP_congr
        intro q hq
        have : q ≠ p := (h.i.pn.mem_erase_iff.mp hq).1
        simp [inG, upd_ne _ _ this]
      show (s.peers.erase p).countP _ = _
      rw [h1, List.countP_erase]
      simp [inG, hp, hy]
    rw [hm]
    exact h.c k z hz
  · refine h.v.one p _ rfl rfl (fun q hq => upd_ne _ _ hq) ?_ (h.i.pf p y hp) ?_
    · intro q hq k
      split
      · simp [follows, follow, Ne.symm hq]
      · rfl
    · intro k hk
      rw [hp] at hk
      simp only [upd_same]
      simp only [Fits] at hk ⊢
      subst hk
      cases hs : y.shown
      · exact ⟨.unseen, by simp [follows], by simp⟩
      · exact ⟨.gone, by simp [follows, follow], by simp⟩

theorem Good.peerFree {s : S} (h : Good s) {p : Nat} {y : Peer} (hp : s.pheap p = some y) :
    ∃ s', s.peerFree p = some s' ∧ Good s' ∧ s'.peers = s.peers.erase p ∧ s'.bus = s.bus ∧ s'.running = s.running ∧ s'.pending = (if s.pending = some p then none else s.pending) ∧
      (∀ q, q ≠ p → s'.pheap q = s.pheap q) ∧ s'.pheap p = none ∧ s'.next = s.next ∧ s'.zx = s.zx := by
  have step2 : ∀ s1 : S, Good s1 → s1.pheap p = some y → s1.pending ≠ some p →
      ∃ s', (match s1.dropGroup p with
        | none => none
        | some s =>
          match s.pheap p with
          | none => none
          | some y => some { s.emitIf y.shown (.removed p) with peers := (s.emitIf y.shown (.removed p)).peers.erase p, pheap := upd (s.emitIf y.shown (.removed p)).pheap p none }) = some s' ∧
        Good s' ∧ s'.peers = s1.peers.erase p ∧ s'.bus = s1.bus ∧ s'.running = s1.running ∧ s'.pending = s1.pending ∧
        (∀ q, q ≠ p → s'.pheap q = s1.pheap q) ∧ s'.pheap p = none ∧ s'.next = s1.next ∧ s'.zx = s1.zx := by
    intro s1 h1 hp1 hpe
    obtain ⟨s2, hd, h2, hf, hp2⟩ := h1.dropGroup hp1
    simp only [hd, hp2]
    have hg2 : (if y.g = none then y else y.alone).g = none := by
      split
      · assumption
      · rfl
    have hr := h2.remove hp2 hg2 (by rw [hf.pending]; exact hpe)
    simp only [emitIf_eq] at hr ⊢
    refine ⟨_, rfl, hr, ?_, hf.bus, hf.running, hf.pending, ?_, upd_same _ _ _, hf.next, hf.zx⟩
    · simp only [hf.peers]
    · intro q hq
      show upd _ p none q = _
      rw [upd_ne _ _ hq]
      exact hf.ph q hq
  unfold S.peerFree
  by_cases hpe : s.pending = some p
  · have h1 := h.pending none (by intro q hq; cases hq)
    obtain ⟨e, h2⟩ := h1.formationFailure (y := y) hp
    rw [if_pos hpe]
    simp only [e]
    have e3 : (({ s with pending := none } : S).emitIf y.shown (.failure p)).pheap p = some y := by rw [emitIf_eq]; exact hp
    obtain ⟨s', hs, g, a, b, c, d, e4, e5, e6, e7⟩ := step2 _ h2 e3 (by rw [emitIf_eq]; simp)
    rw [emitIf_eq] at a b c d e4 e6 e7
    exact ⟨s', hs, g, a, b, c, by rw [if_pos hpe]; exact d, e4, e5, e6, e7⟩
  · rw [if_neg hpe]
    obtain ⟨s', hs, g, a, b, c, d, e4, e5, e6, e7⟩ := step2 s h hp hpe
    exact ⟨s', hs, g, a, b, c, by rw [if_neg hpe]; exact d, e4, e5, e6, e7⟩

theorem findPeer_some {s : S} {mac : List Byte} {p : Nat} (h : s.findPeer mac = some p) : p ∈ s.peers ∧ ∃ y, s.pheap p = some y ∧ y.mac = mac := by
  unfold S.findPeer at h
  have h1 := List.mem_of_find?_eq_some h
  have h2 := List.find?_some h
  refine ⟨h1, ?_⟩
  cases hp : s.pheap p with
  | none => simp [hp] at h2
  | some y => exact ⟨y, rfl, by simpa [hp] using h2⟩

theorem findPeer_none {s : S} {mac : List Byte} (h : s.findPeer mac = none) : ∀ p ∈ s.peers, ∀ y, s.pheap p = some y → y.mac ≠ mac := by
  intro p hp y hy
  unfold S.findPeer at h
  rw [List.find?_eq_none] at h
  have := h p hp
  simpa [hy] using this

theorem findGroup_some {s : S} {i : List Byte} {g : Nat} (h : s.findGroup i = some g) : g ∈ s.groups ∧ ∃ x, s.gheap g = some x ∧ x.ifname = i := by
  unfold S.findGroup at h
  have h1 := List.mem_of_find?_eq_some h
  have h2 := List.find?_some h
  refine ⟨h1, ?_⟩
  cases hp : s.gheap g with
  | none => simp [hp] at h2
  | some y => exact ⟨y, rfl, by simpa [hp] using h2⟩

theorem Good.peerNew {s : S} (h : Good s) (mac : List Byte) (order : List Nat) :
    Good (s.peerNew mac order).1 ∧ (∀ p, (s.peerNew mac order).2 = some p → ∃ y, (s.peerNew mac order).1.pheap p = some y) ∧
    (s.peerNew mac order).1.bus = s.bus ∧ (s.peerNew mac order).1.running = s.running := by
  unfold S.peerNew
  cases hf : s.findPeer (s.norm mac) with
  | some q => simp only [Option.isSome_some, if_true]; exact ⟨h, by simp, trivial, trivial⟩
  | none =>
    simp only [Option.isSome_none, Bool.false_eq_true, if_false]
    have hfree : s.pheap s.next = none := by
      cases e : s.pheap s.next with
      | none => rfl
      | some y => have := h.i.pf _ _ e; omega
    have hgfree : s.gheap s.next = none := by
      cases e : s.gheap s.next with
      | none => rfl
      | some y => have := h.i.gf _ _ e; omega
    generalize hy : ({ mac := s.norm mac, g := none, remote := none, sta := none, prov := none, pin := none, shown := false, connected := false } : Peer) = y
    have hperm : ∃ l, (if order.isPerm (s.next :: s.peers) then order else s.next :: s.peers) = l ∧ l.Perm (s.next :: s.peers) := by
      refine ⟨_, rfl, ?_⟩
      split
      · rename_i e; exact List.isPerm_iff.mp e
      · exact List.Perm.refl _
    obtain ⟨l, hl, hperm⟩ := hperm
    simp only [hl]
    have hnm : s.next ∉ s.peers := by
      intro e; obtain ⟨z, hz⟩ := (h.i.pl _).mp e; rw [hfree] at hz; cases hz
    have key : ∀ q z, upd s.pheap s.next (some y) q = some z → (q = s.next ∧ z = y) ∨ (q ≠ s.next ∧ s.pheap q = some z) := by
      intro q z hz
      by_cases e : q = s.next
      · subst e; rw [upd_same] at hz; cases hz; exact Or.inl ⟨rfl, rfl⟩
      · rw [upd_ne _ _ e] at hz; exact Or.inr ⟨e, hz⟩
    refine ⟨⟨⟨?_, ?_, ?_, h.i.gn, h.i.gl, ?_, ?_, ?_, ?_, ?_, h.i.sub, h.i.dis⟩, ?_, ?_, h.w.congr [] mute_nil (by simp) (fun _ => rfl) (Nat.le_succ _)⟩, ?_, by simp, by simp⟩
    · exact hperm.nodup_iff.mpr (List.nodup_cons.mpr ⟨hnm, h.i.pn⟩)
    · intro q
      refine (hperm.mem_iff).trans ?_
      rw [List.mem_cons]
      constructor
      · rintro (e | e)
        · exact ⟨y, by subst e; exact upd_same _ _ _⟩
        · obtain ⟨z, hz⟩ := (h.i.pl q).mp e
          exact ⟨z, (upd_ne _ _ (by rintro rfl; exact hnm e)).trans hz⟩
      · rintro ⟨z, hz⟩
        rcases key q z hz with ⟨e, _⟩ | ⟨_, e⟩
        · exact Or.inl e
        · exact Or.inr ((h.i.pl q).mpr ⟨z, e⟩)
    · intro q z hz
      rcases key q z hz with ⟨e, _⟩ | ⟨_, e⟩
      · show q < s.next + 1; omega
      · have := h.i.pf q z e; show q < s.next + 1; omega
    · intro g x hx; have := h.i.gf g x hx; show g < s.next + 1; omega
    · intro q z k hz hk
      rcases key q z hz with ⟨_, e⟩ | ⟨_, e⟩
      · rw [e, ← hy] at hk; cases hk
      · exact h.i.pg q z k e hk
    · intro q hq
      obtain ⟨z, hz⟩ := h.i.pe q hq
      exact ⟨z, (upd_ne _ _ (by rintro rfl; rw [hfree] at hz; cases hz)).trans hz⟩
    · intro q z hz
      rcases key q z hz with ⟨_, e⟩ | ⟨_, e⟩
      · exact ⟨mac, by rw [e, ← hy]; rfl⟩
      · exact h.i.mac q z e
    · intro q r z w hz hw hm
      rcases key q z hz with ⟨a, e⟩ | ⟨a, e⟩ <;> rcases key r w hw with ⟨b, f⟩ | ⟨b, f⟩
      · rw [a, b]
      · exact absurd (by rw [← hm, e, ← hy]) (findPeer_none hf r ((h.i.pl r).mpr ⟨w, f⟩) w f)
      · exact absurd (by rw [hm, f, ← hy]) (findPeer_none hf q ((h.i.pl q).mpr ⟨z, e⟩) z e)
      · exact h.i.inj q r z w e f hm
    · intro k z hz
      have hm : memc ({ s with next := s.next + 1, pheap := upd s.pheap s.next (some y), peers := l } : S) k = memc s k := by
        unfold memc
        show l.countP _ = _
        rw [hperm.countP_eq, List.countP_cons]
        have h1 : inG ({ s with next := s.next + 1, pheap := upd s.pheap s.next (some y), peers := l } : S) k s.next = false := by
          simp only [inG, upd_same]; rw [← hy]; simp
        rw [h1]
        simp only [Bool.false_eq_true, if_false, Nat.add_zero]
        apply List.countP_congr
        intro q hq
        simp [inG, upd_ne _ _ (show q ≠ s.next by rintro rfl; exact hnm hq)]
      rw [hm]
      exact h.c k z hz
    · intro q
      obtain ⟨k, h1, h2, h3⟩ := h.v q
      by_cases e : q = s.next
      · subst e
        have := h3 (Nat.le_refl _)
        subst this
        refine ⟨.unseen, h1, ?_, fun _ => rfl⟩
        simp only [upd_same, Fits]
        rw [← hy]
        simp
      · exact ⟨k, h1, by simp only [upd_ne _ _ e]; exact h2, fun hle => h3 (by have : s.next + 1 ≤ q := hle; omega)⟩
    · intro p hp
      cases hp
      exact ⟨y, upd_same _ _ _⟩

end Verif.P2p
