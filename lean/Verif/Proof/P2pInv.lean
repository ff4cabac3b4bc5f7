import Verif.Proof.P2pDrop
/-! The invariant of peers and groups and the primitive changes that keep it. -/
namespace Verif.P2p
open Verif.C Spec

structure Inv0 (s : S) : Prop where
  pn : s.peers.Nodup
  pl : ∀ p, p ∈ s.peers ↔ ∃ y, s.pheap p = some y
  pf : ∀ p y, s.pheap p = some y → p < s.next
  gn : s.groups.Nodup
  gl : ∀ g, g ∈ s.groups ↔ ∃ x, s.gheap g = some x
  gf : ∀ g x, s.gheap g = some x → g < s.next
  pg : ∀ p y g, s.pheap p = some y → y.g = some g → ∃ x, s.gheap g = some x
  pe : ∀ p, s.pending = some p → ∃ y, s.pheap p = some y
  mac : ∀ p y, s.pheap p = some y → ∃ m, y.mac = s.norm m
  inj : ∀ p q y z, s.pheap p = some y → s.pheap q = some z → y.mac = z.mac → p = q
  sub : ∀ g x, s.gheap g = some x → (x.go = true → 50 ≤ x.subnet ∧ x.subnet < 256) ∧ (x.go = false → x.subnet = 0)
  dis : ∀ g h x z, s.gheap g = some x → s.gheap h = some z → x.subnet = z.subnet → x.subnet ≠ 0 → g = h

/-- Whether a peer is in a group. -/
def inG (s : S) (g p : Nat) : Bool := (s.pheap p).any (fun y => decide (y.g = some g))

def memc (s : S) (g : Nat) : Nat := s.peers.countP (inG s g)

def Cnt (s : S) : Prop := ∀ g x, s.gheap g = some x → memc s g ≤ x.users ∧ (x.owner = none → x.users = memc s g)

def V (s : S) : Prop := ∀ p, ∃ k, follows p .unseen s.log = some k ∧ Fits k (s.pheap p) ∧ (s.next ≤ p → k = .unseen)

def W (s : S) : Prop := ∀ g, ∃ k, tends g .never s.log = some k ∧ Keeps k (s.gheap g) ∧ (s.next ≤ g → k = .never)

structure Good (s : S) : Prop where
  i : Inv0 s
  c : Cnt s
  v : V s
  w : W s

theorem tends_append (g : Nat) : ∀ (a b : List Out) (k : Helper), tends g k (a ++ b) = (tends g k a).bind (fun k => tends g k b)
  | [], b, k => rfl
  | o :: t, b, k => by
    simp only [List.cons_append, tends]
    cases tend g k o with
    | none => rfl
    | some k' => exact tends_append g t b k'

/-- Histories that say nothing about helpers. -/
def mute (l : List Out) : Prop := ∀ g k, tends g k l = some k

theorem mute_nil : mute [] := fun _ _ => rfl
theorem mute_app {a b : List Out} (ha : mute a) (hb : mute b) : mute (a ++ b) := by
  intro g k; rw [tends_append, ha]; exact hb g k
theorem mute_if {c : Prop} [Decidable c] {a : List Out} (ha : mute a) : mute (if c then a else []) := by
  split
  · exact ha
  · exact mute_nil
theorem mute_one {o : Out} (h : ∀ g k, tend g k o = some k) : mute [o] := by
  intro g k; simp [tends, h]

/-- What a group says about its helper. -/
def hel (x : Grp) : Bool × Nat := (x.dhcp, x.subnet)

theorem keeps_same {k : Helper} {a b : Option Grp} (h : a.map hel = b.map hel) (hk : Keeps k b) : Keeps k a := by
  cases a <;> cases b <;> simp_all [Keeps, hel]

theorem W.congr {s s' : S} (h : W s) (t : List Out) (hq : mute t) (hl : s'.log = s.log ++ t) (hg : ∀ g, (s'.gheap g).map hel = (s.gheap g).map hel)
    (hn : s.next ≤ s'.next) : W s' := by
  intro g
  obtain ⟨k, h1, h2, h3⟩ := h g
  exact ⟨k, by rw [hl, tends_append, h1]; exact hq g k, keeps_same (hg g) h2, fun h => h3 (Nat.le_trans hn h)⟩

theorem hel_upd {f : Nat → Option Grp} {g : Nat} {x x' : Grp} (hx : f g = some x) (h : hel x' = hel x) (k : Nat) : (upd f g (some x') k).map hel = (f k).map hel := by
  by_cases e : k = g
  · subst e; rw [upd_same, hx]; simp [h]
  · rw [upd_ne _ _ e]

theorem follows_append (p : Nat) : ∀ (a b : List Out) (k : Known), follows p k (a ++ b) = (follows p k a).bind (fun k => follows p k b)
  | [], b, k => rfl
  | o :: t, b, k => by
    simp only [List.cons_append, follows]
    cases follow p k o with
    | none => rfl
    | some k' => exact follows_append p t b k'

/-- Histories that say nothing about peers. -/
def quiet (l : List Out) : Prop := ∀ p k, follows p k l = some k

theorem quiet_nil : quiet [] := fun _ _ => rfl
theorem quiet_app {a b : List Out} (ha : quiet a) (hb : quiet b) : quiet (a ++ b) := by
  intro p k; rw [follows_append, ha]; exact hb p k
theorem quiet_if {c : Bool} {a : List Out} (ha : quiet a) : quiet (if c then a else []) := by
  cases c
  · exact quiet_nil
  · exact ha
theorem quiet_remove (i : List Byte) : quiet [.groupRemove i] := fun _ _ => rfl
theorem quiet_kill (g : Nat) : quiet [.dhcpKill g] := fun _ _ => rfl
theorem quiet_server (g n : Nat) : quiet [.dhcpServer g n] := fun _ _ => rfl
theorem quiet_client (g : Nat) : quiet [.dhcpClient g] := fun _ _ => rfl
theorem quiet_connect (a b : List Byte) (c : Option (List Byte)) : quiet [.connect a b c] := fun _ _ => rfl
theorem quiet_result (r : Int) : quiet [.result r] := fun _ _ => rfl

/-- Only the history, the peers and the counter of identities matter. -/
theorem V.congr {s s' : S} (h : V s) (t : List Out) (hq : quiet t) (hl : s'.log = s.log ++ t) (hp : s'.pheap = s.pheap) (hn : s.next ≤ s'.next) : V s' := by
  intro p
  obtain ⟨k, h1, h2, h3⟩ := h p
  exact ⟨k, by rw [hl, follows_append, h1]; exact hq p k, by rw [hp]; exact h2, fun h => h3 (Nat.le_trans hn h)⟩

/-- What is said about a single peer, which changes accordingly. -/
theorem V.one {s s' : S} (h : V s) (p : Nat) (t : List Out) (hl : s'.log = s.log ++ t) (hn : s'.next = s.next)
    (hp : ∀ q, q ≠ p → s'.pheap q = s.pheap q) (hq : ∀ q, q ≠ p → ∀ k, follows q k t = some k) (hlt : p < s.next)
    (h1 : ∀ k, Fits k (s.pheap p) → ∃ k', follows p k t = some k' ∧ Fits k' (s'.pheap p)) : V s' := by
  intro q
  obtain ⟨k, h2, h3, h4⟩ := h q
  by_cases e : q = p
  · subst e
    obtain ⟨k', h5, h6⟩ := h1 k h3
    exact ⟨k', by rw [hl, follows_append, h2]; exact h5, h6, fun h => by omega⟩
  · exact ⟨k, by rw [hl, follows_append, h2]; exact hq q e k, by rw [hp q e]; exact h3, by rw [hn]; exact h4⟩

/-! ### Counting -/

theorem countP_drop {l : List Nat} {f f' : Nat → Bool} {p : Nat} (hn : l.Nodup) (hp : p ∈ l) (h1 : f p = true) (h2 : f' p = false)
    (h : ∀ q, q ≠ p → f' q = f q) : l.countP f = l.countP f' + 1 := by
  induction l with
  | nil => simp at hp
  | cons a t ih =>
    obtain ⟨hn1, hn2⟩ := List.nodup_cons.mp hn
    rw [List.countP_cons, List.countP_cons]
    by_cases e : a = p
    · subst e
      rw [h1, h2]
      have : t.countP f' = t.countP f := List.countP_congr (fun q hq => by rw [h q (by rintro rfl; exact hn1 hq)])
      simp [this]
    · rw [h a e, ih hn2 (by rcases List.mem_cons.mp hp with h | h; exact absurd h.symm e; exact h)]
      omega

theorem memc_same {s s' : S} {g : Nat} (hp : s'.peers = s.peers) (h : ∀ q ∈ s.peers, inG s' g q = inG s g q) : memc s' g = memc s g := by
  unfold memc
  rw [hp]
  exact List.countP_congr (fun q hq => by rw [h q hq])

/-! ### Changes that keep the structure -/

theorem Inv0.log {s : S} (h : Inv0 s) (t : List Out) : Inv0 { s with log := t } := ⟨h.pn, h.pl, h.pf, h.gn, h.gl, h.gf, h.pg, h.pe, h.mac, h.inj, h.sub, h.dis⟩

theorem Inv0.setPeer {s : S} (h : Inv0 s) {p : Nat} {y y' : Peer} (hp : s.pheap p = some y) (hm : y'.mac = y.mac)
    (hg : ∀ g, y'.g = some g → ∃ x, s.gheap g = some x) : Inv0 { s with pheap := upd s.pheap p (some y') } := by
  have key : ∀ q z, upd s.pheap p (some y') q = some z → ∃ z', s.pheap q = some z' ∧ z.mac = z'.mac := by
    intro q z hz
    by_cases e : q = p
    · subst e; rw [upd_same] at hz; cases hz; exact ⟨y, hp, hm⟩
    · rw [upd_ne _ _ e] at hz; exact ⟨z, hz, rfl⟩
  have key2 : ∀ q z, s.pheap q = some z → ∃ z', upd s.pheap p (some y') q = some z' := by
    intro q z hz
    by_cases e : q = p
    · subst e; exact ⟨y', upd_same _ _ _⟩
    · exact ⟨z, (upd_ne _ _ e).trans hz⟩
  refine ⟨h.pn, ?_, ?_, h.gn, h.gl, h.gf, ?_, ?_, ?_, ?_, h.sub, h.dis⟩
  · intro q
    refine (h.pl q).trans ⟨?_, ?_⟩
    · rintro ⟨z, hz⟩; exact key2 q z hz
    · rintro ⟨z, hz⟩; obtain ⟨z', hz', _⟩ := key q z hz; exact ⟨z', hz'⟩
  · intro q z hz; obtain ⟨z', hz', _⟩ := key q z hz; exact h.pf q z' hz'
  · intro q z g hz hzg
    have hz : upd s.pheap p (some y') q = some z := hz
    by_cases e : q = p
    · subst e; rw [upd_same] at hz; cases hz; exact hg g hzg
    · rw [upd_ne _ _ e] at hz; exact h.pg q z g hz hzg
  · intro q hq; obtain ⟨z, hz⟩ := h.pe q hq; exact key2 q z hz
  · intro q z hz; obtain ⟨z', hz', e⟩ := key q z hz
    obtain ⟨m, hm⟩ := h.mac q z' hz'; exact ⟨m, by rw [e]; exact hm⟩
  · intro q r z w hz hw e
    obtain ⟨z', hz', e1⟩ := key q z hz
    obtain ⟨w', hw', e2⟩ := key r w hw
    exact h.inj q r z' w' hz' hw' (by rw [← e1, ← e2, e])

theorem Inv0.setGrp {s : S} (h : Inv0 s) {g : Nat} {x x' : Grp} (hg : s.gheap g = some x) (hs : x'.subnet = x.subnet) (hgo : x'.go = x.go) :
    Inv0 { s with gheap := upd s.gheap g (some x') } := by
  have key : ∀ q z, upd s.gheap g (some x') q = some z → ∃ z', s.gheap q = some z' ∧ z.subnet = z'.subnet ∧ z.go = z'.go := by
    intro q z hz
    by_cases e : q = g
    · subst e; rw [upd_same] at hz; cases hz; exact ⟨x, hg, hs, hgo⟩
    · rw [upd_ne _ _ e] at hz; exact ⟨z, hz, rfl, rfl⟩
  have key2 : ∀ q z, s.gheap q = some z → ∃ z', upd s.gheap g (some x') q = some z' := by
    intro q z hz
    by_cases e : q = g
    · subst e; exact ⟨x', upd_same _ _ _⟩
    · exact ⟨z, (upd_ne _ _ e).trans hz⟩
  refine ⟨h.pn, h.pl, h.pf, h.gn, ?_, ?_, ?_, h.pe, h.mac, h.inj, ?_, ?_⟩
  · intro q
    refine (h.gl q).trans ⟨?_, ?_⟩
    · rintro ⟨z, hz⟩; exact key2 q z hz
    · rintro ⟨z, hz⟩; obtain ⟨z', hz', _⟩ := key q z hz; exact ⟨z', hz'⟩
  · intro q z hz; obtain ⟨z', hz', _⟩ := key q z hz; exact h.gf q z' hz'
  · intro q z k hz hzg; obtain ⟨w, hw⟩ := h.pg q z k hz hzg; exact key2 k w hw
  · intro q z hz; obtain ⟨z', hz', e1, e2⟩ := key q z hz; rw [e1, e2]; exact h.sub q z' hz'
  · intro q r z w hz hw e h0
    obtain ⟨z', hz', e1, _⟩ := key q z hz
    obtain ⟨w', hw', e2, _⟩ := key r w hw
    exact h.dis q r z' w' hz' hw' (by rw [← e1, ← e2, e]) (by rw [← e1]; exact h0)

theorem Inv0.detach {s : S} (h : Inv0 s) {p : Nat} {y : Peer} (hp : s.pheap p = some y) : Inv0 (s.detach p y) :=
  (h.setPeer hp (y' := y.alone) rfl (by simp [Peer.alone])).log _

theorem Inv0.detachIf {s : S} (h : Inv0 s) (g p : Nat) : Inv0 (s.detachIf g p) := by
  unfold S.detachIf
  split
  · rename_i y hy
    split
    · exact h.detach hy
    · exact h
  · exact h

theorem Inv0.detachAll (g : Nat) : ∀ (l : List Nat) {s : S}, Inv0 s → Inv0 (s.detachAll g l)
  | [], _, h => h
  | p :: t, _, h => Inv0.detachAll g t (h.detachIf g p)

/-- A group without members is freed. -/
theorem Inv0.freeG {s : S} (h : Inv0 s) {g : Nat} (hg : ∀ p y, s.pheap p = some y → y.g ≠ some g) :
    Inv0 { s with groups := s.groups.erase g, gheap := upd s.gheap g none } := by
  have key : ∀ q z, upd s.gheap g none q = some z → q ≠ g ∧ s.gheap q = some z := by
    intro q z hz
    by_cases e : q = g
    · subst e; rw [upd_same] at hz; cases hz
    · rw [upd_ne _ _ e] at hz; exact ⟨e, hz⟩
  refine ⟨h.pn, h.pl, h.pf, h.gn.erase g, ?_, ?_, ?_, h.pe, h.mac, h.inj, ?_, ?_⟩
  · intro q
    rw [h.gn.mem_erase_iff, h.gl]
    constructor
    · rintro ⟨e, z, hz⟩; exact ⟨z, (upd_ne _ _ e).trans hz⟩
    · rintro ⟨z, hz⟩; obtain ⟨e, hz⟩ := key q z hz; exact ⟨e, z, hz⟩
  · intro q z hz; exact h.gf q z (key q z hz).2
  · intro q z k hz hzg
    obtain ⟨w, hw⟩ := h.pg q z k hz hzg
    exact ⟨w, (upd_ne _ _ (by rintro rfl; exact hg q z hz hzg)).trans hw⟩
  · intro q z hz; exact h.sub q z (key q z hz).2
  · intro q r z w hz hw; exact h.dis q r z w (key q z hz).2 (key r w hw).2

/-- A peer without a group is freed. -/
theorem Inv0.freeP {s : S} (h : Inv0 s) {p : Nat} (hp : s.pending ≠ some p) :
    Inv0 { s with peers := s.peers.erase p, pheap := upd s.pheap p none } := by
  have key : ∀ q z, upd s.pheap p none q = some z → q ≠ p ∧ s.pheap q = some z := by
    intro q z hz
    by_cases e : q = p
    · subst e; rw [upd_same] at hz; cases hz
    · rw [upd_ne _ _ e] at hz; exact ⟨e, hz⟩
  refine ⟨h.pn.erase p, ?_, ?_, h.gn, h.gl, h.gf, ?_, ?_, ?_, ?_, h.sub, h.dis⟩
  · intro q
    rw [h.pn.mem_erase_iff, h.pl]
    constructor
    · rintro ⟨e, z, hz⟩; exact ⟨z, (upd_ne _ _ e).trans hz⟩
    · rintro ⟨z, hz⟩; obtain ⟨e, hz⟩ := key q z hz; exact ⟨e, z, hz⟩
  · intro q z hz; exact h.pf q z (key q z hz).2
  · intro q z k hz; exact h.pg q z k (key q z hz).2
  · intro q hq
    obtain ⟨z, hz⟩ := h.pe q hq
    exact ⟨z, (upd_ne _ _ (by rintro rfl; exact hp hq)).trans hz⟩
  · intro q z hz; exact h.mac q z (key q z hz).2
  · intro q r z w hz hw; exact h.inj q r z w (key q z hz).2 (key r w hw).2

/-! ### Histories -/

theorem V.detach {s : S} (h : V s) (hi : Inv0 s) {p : Nat} {y : Peer} (hp : s.pheap p = some y) : V (s.detach p y) := by
  refine h.one p _ rfl rfl (fun q hq => upd_ne _ _ hq) ?_ (hi.pf p y hp) ?_
  · intro q hq k
    split
    · simp only [follows, follow, ne_eq, hq.symm, not_false_eq_true, if_true, Option.bind_some]
    · rfl
  · intro k hk
    rw [hp] at hk
    simp only [S.detach, upd_same]
    simp only [Fits] at hk ⊢
    subst hk
    cases hs : y.shown <;> cases hc : y.connected <;> simp [follows, follow, Peer.alone, hs]

theorem W.detach {s : S} (h : W s) (p : Nat) (y : Peer) : W (s.detach p y) :=
  h.congr _ (mute_if (mute_one (fun _ _ => rfl))) rfl (fun _ => rfl) (Nat.le_refl _)

theorem detach_mute (g : Nat) : ∀ (l : List Nat) (s : S), ∃ t, mute t ∧ (s.detachAll g l).log = s.log ++ t
  | [], s => ⟨[], mute_nil, by simp [S.detachAll]⟩
  | p :: l, s => by
    obtain ⟨t, h1, h2⟩ := detach_mute g l (s.detachIf g p)
    have h3 : ∃ t, mute t ∧ (s.detachIf g p).log = s.log ++ t := by
      unfold S.detachIf
      split
      · split
        · exact ⟨_, mute_if (mute_one (fun _ _ => rfl)), rfl⟩
        · exact ⟨[], mute_nil, by simp⟩
      · exact ⟨[], mute_nil, by simp⟩
    obtain ⟨t', h4, h5⟩ := h3
    refine ⟨t' ++ t, mute_app h4 h1, ?_⟩
    show (S.detachAll g (s.detachIf g p) l).log = _
    rw [h2, h5, List.append_assoc]

theorem V.detachIf {s : S} (h : V s) (hi : Inv0 s) (g p : Nat) : V (s.detachIf g p) := by
  unfold S.detachIf
  split
  · rename_i y hy
    split
    · exact h.detach hi hy
    · exact h
  · exact h

theorem V.detachAll (g : Nat) : ∀ (l : List Nat) {s : S}, V s → Inv0 s → V (s.detachAll g l)
  | [], _, h, _ => h
  | p :: t, _, h, hi => V.detachAll g t (h.detachIf hi g p) (hi.detachIf g p)

/-! ### Compound changes -/

theorem Good.live {s : S} (h : Good s) : ∀ p ∈ s.peers, ∃ y, s.pheap p = some y := fun p hp => (h.i.pl p).mp hp

theorem freed_pheap {s : S} (h : Inv0 s) (g : Nat) (x : Grp) (q : Nat) :
    (s.freed g x).pheap q = (s.pheap q).map (fun y => if y.g = some g then y.alone else y) := by
  simp only [S.freed, detachAll_pheap]
  show (if q ∈ s.peers then (s.pheap q).map _ else s.pheap q) = _
  split
  · rfl
  · rename_i hq
    cases e : s.pheap q with
    | none => rfl
    | some y => exact absurd ((h.pl q).mpr ⟨y, e⟩) hq

theorem freed_frame (s : S) (g : Nat) (x : Grp) : s.freed g x =
    { s with groups := s.groups.erase g, gheap := upd s.gheap g none, pheap := (s.freed g x).pheap, log := (s.freed g x).log } := by
  have := detachAll_frame g s.peers (s.killed g x)
  unfold S.freed
  simp only []
  rw [this]
  rfl

theorem Good.freed {s : S} (h : Good s) {g : Nat} {x : Grp} (hx : s.gheap g = some x) : Good (s.freed g x) := by
  have hk : Inv0 (s.killed g x) := (h.i.setGrp hx (x' := { x with dhcp := false }) rfl rfl).log _
  have hkv : V (s.killed g x) := h.v.congr ((if s.bus then [.groupRemove x.ifname] else []) ++ (if x.dhcp then [.dhcpKill g] else []))
    (quiet_app (quiet_if (quiet_remove _)) (quiet_if (quiet_kill _))) (by simp [S.killed]) rfl (Nat.le_refl _)
  have hd : Inv0 ((s.killed g x).detachAll g s.peers) := Inv0.detachAll g s.peers hk
  have hdv : V ((s.killed g x).detachAll g s.peers) := V.detachAll g s.peers hkv hk
  have hno : ∀ p y, (s.freed g x).pheap p = some y → y.g ≠ some g := by
    intro p y hy
    rw [freed_pheap h.i] at hy
    cases e : s.pheap p with
    | none => rw [e] at hy; cases hy
    | some z =>
      rw [e] at hy
      simp only [Option.map_some, Option.some.injEq] at hy
      subst hy
      split
      · simp [Peer.alone]
      · assumption
  have e : s.freed g x = { (s.killed g x).detachAll g s.peers with groups := ((s.killed g x).detachAll g s.peers).groups.erase g, gheap := upd ((s.killed g x).detachAll g s.peers).gheap g none } := by
    unfold S.freed
    rw [detachAll_frame]
    simp only [S.killed, upd_upd]
  refine ⟨?_, ?_, ?_, ?_⟩
  · rw [e]
    exact hd.freeG (fun p y hy => hno p y (by rw [e]; exact hy))
  · intro k z hz
    have hz' : upd s.gheap g none k = some z := by rw [freed_frame] at hz; exact hz
    have hne : k ≠ g := by rintro rfl; rw [upd_same] at hz'; cases hz'
    rw [upd_ne _ _ hne] at hz'
    have : memc (s.freed g x) k = memc s k := by
      apply memc_same (by rw [freed_frame])
      intro q hq
      unfold inG
      rw [freed_pheap h.i]
      cases s.pheap q with
      | none => rfl
      | some y =>
        by_cases hy : y.g = some g
        · simp [hy, Peer.alone, Ne.symm hne]
        · simp [hy]
    rw [this]
    exact h.c k z hz'
  · exact hdv.congr [] quiet_nil (by simp [S.freed]) rfl (Nat.le_refl _)
  · obtain ⟨t, ht, hl⟩ := detach_mute g s.peers (s.killed g x)
    have hl2 : (s.freed g x).log = s.log ++ ((if s.bus then [.groupRemove x.ifname] else []) ++ ((if x.dhcp then [.dhcpKill g] else []) ++ t)) := by
      show ((s.killed g x).detachAll g s.peers).log = _
      rw [hl]; simp [S.killed]
    intro k
    obtain ⟨a, h1, h2, h3⟩ := h.w k
    have hlt := h.i.gf g x hx
    rw [hl2, tends_append, h1, freed_frame]
    simp only [Option.bind_some]
    rw [tends_append, mute_if (mute_one (fun _ _ => rfl)) k a]
    simp only [Option.bind_some]
    by_cases e : k = g
    · subst e
      rw [hx] at h2
      obtain ⟨h4, h5⟩ := h2
      rw [h4, h5, upd_same]
      refine ⟨.down, ?_, by simp [Keeps], by intro h6; omega⟩
      simp [tends, tend, ht k]
    · rw [upd_ne _ _ e]
      refine ⟨a, ?_, h2, h3⟩
      have : mute t := ht
      cases x.dhcp <;> simp [tends, tend, Ne.symm e, this k a]

theorem Good.leave {s : S} (h : Good s) {p g : Nat} {y : Peer} {x : Grp} (hp : s.pheap p = some y) (hy : y.g = some g)
    (hx : s.gheap g = some x) :
    Good ((s.detach p y).setGrp g { x with users := x.users - (if x.owner = some p then 0 else 1) }) := by
  refine ⟨(h.i.detach hp).setGrp hx rfl rfl, ?_, (h.v.detach h.i hp).congr [] quiet_nil (by simp [S.setGrp]) rfl (Nat.le_refl _),
    (h.w.detach p y).congr [] mute_nil (by simp [S.setGrp]) (hel_upd hx rfl) (Nat.le_refl _)⟩
  have hin : ∀ k q, q ≠ p → inG ((s.detach p y).setGrp g { x with users := x.users - (if x.owner = some p then 0 else 1) }) k q = inG s k q := by
    intro k q hq
    simp [inG, S.detach, S.setGrp, upd_ne _ _ hq]
  intro k z hz
  by_cases e : k = g
  · subst e
    simp only [S.setGrp, S.detach, upd_same, Option.some.injEq] at hz
    subst hz
    have hm : memc s k = memc (s.detach p y) k + 1 :=
      countP_drop h.i.pn ((h.i.pl p).mpr ⟨y, hp⟩) (by simp [inG, hp, hy]) (by simp [inG, S.detach, upd_same, Peer.alone]) (hin k)
    obtain ⟨c1, c2⟩ := h.c k x hx
    refine ⟨?_, ?_⟩
    · show memc (s.detach p y) k ≤ x.users - (if x.owner = some p then 0 else 1)
      split <;> omega
    · intro ho
      have c3 := c2 ho
      show x.users - (if x.owner = some p then 0 else 1) = memc (s.detach p y) k
      rw [show x.owner = none from ho, if_neg (by simp)]
      omega
  · have hz' : s.gheap k = some z := by
      simp only [S.setGrp, S.detach, upd_ne _ _ e] at hz; exact hz
    have : memc ((s.detach p y).setGrp g { x with users := x.users - (if x.owner = some p then 0 else 1) }) k = memc s k := by
      refine memc_same (s := s) rfl ?_
      intro q hq
      by_cases hq2 : q = p
      · subst hq2
        simp [inG, S.setGrp, S.detach, upd_same, Peer.alone, hp, hy, Ne.symm e]
      · exact hin k q hq2
    rw [this]
    exact h.c k z hz'

/-- A peer that is not in a group joins one. -/
theorem Good.join {s : S} (h : Good s) {p g : Nat} {y : Peer} {x : Grp} (hp : s.pheap p = some y) (hy : y.g = none)
    (hx : s.gheap g = some x) :
    Good ((s.setPeer p { y with g := some g }).setGrp g { x with users := x.users + 1 }) := by
  refine ⟨(h.i.setPeer hp (y' := { y with g := some g }) rfl (by intro k hk; cases hk; exact ⟨x, hx⟩)).setGrp hx rfl rfl, ?_, ?_,
    h.w.congr [] mute_nil (by simp [S.setGrp, S.setPeer]) (hel_upd hx rfl) (Nat.le_refl _)⟩
  · have hin : ∀ k q, q ≠ p → inG ((s.setPeer p { y with g := some g }).setGrp g { x with users := x.users + 1 }) k q = inG s k q := by
      intro k q hq
      simp [inG, S.setPeer, S.setGrp, upd_ne _ _ hq]
    intro k z hz
    by_cases e : k = g
    · subst e
      simp only [S.setGrp, S.setPeer, upd_same, Option.some.injEq] at hz
      subst hz
      have hm : memc ((s.setPeer p { y with g := some k }).setGrp k { x with users := x.users + 1 }) k = memc s k + 1 :=
        countP_drop (f := inG ((s.setPeer p { y with g := some k }).setGrp k { x with users := x.users + 1 }) k) (f' := inG s k)
          h.i.pn ((h.i.pl p).mpr ⟨y, hp⟩) (by simp [inG, S.setGrp, S.setPeer, upd_same]) (by simp [inG, hp, hy]) (fun q hq => (hin k q hq).symm)
      obtain ⟨c1, c2⟩ := h.c k x hx
      exact ⟨by simp only []; omega, fun ho => by have c3 := c2 ho; simp only []; omega⟩
    · have hz' : s.gheap k = some z := by
        simp only [S.setGrp, S.setPeer, upd_ne _ _ e] at hz; exact hz
      have : memc ((s.setPeer p { y with g := some g }).setGrp g { x with users := x.users + 1 }) k = memc s k := by
        refine memc_same (s := s) rfl ?_
        intro q hq
        by_cases hq2 : q = p
        · subst hq2
          simp [inG, S.setGrp, S.setPeer, upd_same, hp, hy, Ne.symm e]
        · exact hin k q hq2
      rw [this]
      exact h.c k z hz'
  · refine h.v.one p [] (by simp [S.setGrp, S.setPeer]) rfl (fun q hq => upd_ne _ _ hq) (fun _ _ _ => rfl) (h.i.pf p y hp) ?_
    intro k hk
    rw [hp] at hk
    exact ⟨k, rfl, by simpa [S.setGrp, S.setPeer, upd_same, Fits] using hk⟩

/-- Members of a peer change that others do not look at. -/
theorem Good.setPeer {s : S} (h : Good s) {p : Nat} {y y' : Peer} (hp : s.pheap p = some y) (hm : y'.mac = y.mac) (hg : y'.g = y.g)
    (hs : y'.shown = y.shown) (hc : y'.connected = y.connected) : Good (s.setPeer p y') := by
  refine ⟨h.i.setPeer hp hm (by rw [hg]; exact fun k hk => h.i.pg p y k hp hk), ?_, ?_,
    h.w.congr [] mute_nil (by simp [S.setPeer]) (fun _ => rfl) (Nat.le_refl _)⟩
  · intro k z hz
    have : memc (s.setPeer p y') k = memc s k := by
      refine memc_same (s := s) rfl ?_
      intro q hq
      by_cases hq2 : q = p
      · subst hq2; simp [inG, S.setPeer, upd_same, hp, hg]
      · simp [inG, S.setPeer, upd_ne _ _ hq2]
    rw [this]
    exact h.c k z hz
  · refine h.v.one p [] (by simp [S.setPeer]) rfl (fun q hq => upd_ne _ _ hq) (fun _ _ _ => rfl) (h.i.pf p y hp) ?_
    intro k hk
    rw [hp] at hk
    exact ⟨k, rfl, by simpa [S.setPeer, upd_same, Fits, hs, hc] using hk⟩

/-- Members of a group change; the owner may be set. -/
theorem Good.setGrp {s : S} (h : Good s) {g : Nat} {x x' : Grp} (hx : s.gheap g = some x) (hu : x'.users = x.users)
    (ho : x'.owner = none → x.owner = none) (hs : x'.subnet = x.subnet) (hgo : x'.go = x.go)
    (hdh : x'.dhcp = x.dhcp) : Good (s.setGrp g x') := by
  refine ⟨h.i.setGrp hx hs hgo, ?_, h.v.congr [] quiet_nil (by simp [S.setGrp]) rfl (Nat.le_refl _),
    h.w.congr [] mute_nil (by simp [S.setGrp]) (hel_upd hx (by simp [hel, hs, hdh])) (Nat.le_refl _)⟩
  intro k z hz
  have hm : memc (s.setGrp g x') k = memc s k := rfl
  rw [hm]
  by_cases e : k = g
  · subst e
    simp only [S.setGrp, upd_same, Option.some.injEq] at hz
    subst hz
    rw [hu]
    exact ⟨(h.c k x hx).1, fun h1 => (h.c k x hx).2 (ho h1)⟩
  · simp only [S.setGrp, upd_ne _ _ e] at hz
    exact h.c k z hz

theorem Good.say {s : S} (h : Good s) {t : List Out} (ht : quiet t) (hm : mute t) : Good { s with log := s.log ++ t } :=
  ⟨h.i.log _, h.c, h.v.congr t ht rfl rfl (Nat.le_refl _), h.w.congr t hm rfl (fun _ => rfl) (Nat.le_refl _)⟩

/-- Something is said about a peer that is there and does not change it. -/
theorem Good.sayP {s : S} (h : Good s) {p : Nat} {y : Peer} (hp : s.pheap p = some y) {c : Bool} {o : Out}
    (hc : c = true → y.shown = true) (ho : ∀ q k, follow q k o = if p ≠ q then some k else match k with | .here c => some (.here c) | _ => none)
    (hm : ∀ g k, tend g k o = some k) : Good (s.emitIf c o) := by
  cases c with
  | false => exact h
  | true =>
    refine ⟨h.i.log _, h.c, ?_, h.w.congr [o] (mute_one hm) rfl (fun _ => rfl) (Nat.le_refl _)⟩
    refine h.v.one p [o] rfl rfl (fun _ _ => rfl) ?_ (h.i.pf p y hp) ?_
    · intro q hq k
      simp [follows, ho, Ne.symm hq]
    · intro k hk
      rw [hp] at hk
      refine ⟨k, ?_, by show Fits k (s.pheap p); rw [hp]; exact hk⟩
      simp only [Fits, hc rfl, if_true] at hk
      subst hk
      simp [follows, ho]

theorem Good.pending {s : S} (h : Good s) (v : Option Nat) (hv : ∀ p, v = some p → ∃ y, s.pheap p = some y) : Good { s with pending := v } :=
  ⟨⟨h.i.pn, h.i.pl, h.i.pf, h.i.gn, h.i.gl, h.i.gf, h.i.pg, hv, h.i.mac, h.i.inj, h.i.sub, h.i.dis⟩, h.c, h.v, h.w⟩

theorem Good.flags {s : S} (h : Good s) (b r : Bool) (m : Option (List Byte)) : Good { s with bus := b, running := r, p2pMac := m } :=
  ⟨⟨h.i.pn, h.i.pl, h.i.pf, h.i.gn, h.i.gl, h.i.gf, h.i.pg, h.i.pe, h.i.mac, h.i.inj, h.i.sub, h.i.dis⟩, h.c, h.v, h.w⟩

theorem Good.start (zx : Bool) : Good (start zx) := by
  refine ⟨⟨?_, ?_, ?_, ?_, ?_, ?_, ?_, ?_, ?_, ?_, ?_, ?_⟩, ?_, ?_, ?_⟩ <;> try (simp [P2p.start])
  · intro g x hx; cases hx
  · intro p; exact ⟨.unseen, rfl, by simp [Fits, P2p.start], fun _ => rfl⟩
  · intro p; exact ⟨.never, rfl, by simp [Keeps, P2p.start], fun _ => rfl⟩

end Verif.P2p
