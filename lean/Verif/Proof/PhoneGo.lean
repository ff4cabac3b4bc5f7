import Verif.Proof.PhoneAll
import Verif.Proof.P2pLines
/-! # Helper lemmas: this device owns the group -/
namespace Verif.Phone
open Verif.C Spec

/-- A line about an interface is read. -/
theorem lineOf_step (jk : Nat → Byte) (env : Event.Env) (E : Sinkctl.Env) (W : World) {i d name : List Byte} {ps : List Event.Spec.Piece} (hl : LineOf i d name ps)
    (hn : Wpas.Spec.Plain name) {o : P2p.Op} (ho : Event.Spec.Says env (some i) name ps (.op o)) {s1 : P2p.S} (hs : W.s.step o = some s1) :
    step jk env E W (.line d) = exchange jk E W s1 := by
  obtain ⟨level, hv, hsp⟩ := hl.text
  obtain ⟨m, hr, hsay, -⟩ := Event.line_means jk env d (some i) level name ps hl.short hsp hn hv hl.ok
  simp only [step, hr, (hsay _ ho).2, Option.bind_some, Event.Act.run, hs]

/-- A state with a new group of this device. -/
def host (s : P2p.S) (i : List Byte) (n : Nat) (la : Option (List Byte)) (u : Nat) (pf : Nat → Option P2p.Peer) : P2p.S :=
  { s with gheap := P2p.upd s.gheap s.next (some { users := u, owner := none, go := true, subnet := n, ifname := i, localAddr := la, dhcp := true }),
           groups := s.next :: s.groups, pheap := pf, next := s.next + 1, log := s.log ++ [.dhcpServer s.next n] }

theorem host_group (s : P2p.S) (i : List Byte) (n : Nat) (la : Option (List Byte)) (u : Nat) (pf : Nat → Option P2p.Peer) :
    (host s i n la u pf).gheap s.next = some { users := u, owner := none, go := true, subnet := n, ifname := i, localAddr := la, dhcp := true } := P2p.upd_same _ _ _

/-- The group starts. -/
theorem hosted_step {s : P2p.S} (h : P2p.Inv s) (hb : s.bus = true) {own i : List Byte} (ho : s.p2pMac = some own) (hno : ∀ p y, s.pheap p = some y → y.mac ≠ own)
    (hn : ∀ g x, s.gheap g = some x → x.ifname ≠ i) (hf : ∃ n, 50 ≤ n ∧ n < 256 ∧ ∀ g x, s.gheap g = some x → x.subnet ≠ n) :
    ∃ n, s.step (.groupStarted own i true true true) = some (host s i n none 0 s.pheap) := by
  have hfp : s.findPeer own = none := by
    unfold P2p.S.findPeer
    rw [List.find?_eq_none]
    intro p hp hc
    obtain ⟨y, hy⟩ := (h.g.i.pl p).mp hp
    rw [hy] at hc
    exact hno p y hy (by simpa using hc)
  have hfg : s.findGroup i = none := by
    cases hf : s.findGroup i with
    | none => rfl
    | some g => obtain ⟨_, x, hx, e⟩ := P2p.findGroup_some hf; exact absurd e (hn g x hx)
  have hz : s.freeSubnet ≠ 0 := by
    intro e
    obtain ⟨n, h1, h2, h3⟩ := hf
    obtain ⟨g, _, x, hx, hs⟩ := P2p.freeSubnet_zero e n h1 h2
    exact h3 g x hx hs
  refine ⟨s.freeSubnet, ?_⟩
  rcases P2p.groupNew_case h.g i true true true with ⟨t, _, _, _, hw⟩ | ⟨_, _, _, e⟩
  · simp [hz] at hw
  · simp only [P2p.S.step, P2p.Op.fromWpas, hb, Bool.not_true, Bool.and_false, Bool.false_eq_true, if_false, P2p.S.handle, hfp, hfg, e]
    rw [if_neg (by simp [ho])]
    simp [host, hb]

/-- Nobody is told. -/
theorem tell_none {s : P2p.S} {g : Nat} : ∀ {l : List Nat}, (∀ p ∈ l, ∃ y, s.pheap p = some y ∧ (y.g ≠ some g ∨ y.remote = none)) → s.tell g l = some s
  | [], _ => rfl
  | p :: t, h => by
    obtain ⟨y, hy, hc⟩ := h p (List.mem_cons_self ..)
    unfold P2p.S.tell
    simp only [hy]
    rw [if_pos hc]
    exact tell_none fun q hq => h q (List.mem_cons_of_mem _ hq)

/-- One peer is told. -/
theorem tell_one {s s' : P2p.S} {g p : Nat} {y : P2p.Peer} (hp : s.pheap p = some y) (hg : y.g = some g) (hr : y.remote ≠ none) (hc : s.connectedChanged p true = some s')
    (hk : ∀ q, q ≠ p → s'.pheap q = s.pheap q) : ∀ {l : List Nat}, l.Nodup → p ∈ l →
      (∀ q ∈ l, q ≠ p → ∃ z, s.pheap q = some z ∧ (z.g ≠ some g ∨ z.remote = none)) → s.tell g l = some s'
  | [], _, hm, _ => by simp at hm
  | q :: t, hn, hm, ho => by
    obtain ⟨hq, hn⟩ := List.nodup_cons.mp hn
    unfold P2p.S.tell
    by_cases e : q = p
    · subst e
      simp only [hp]
      rw [if_neg (by simp [hg, hr]), hc]
      dsimp only
      refine tell_none fun r hr => ?_
      have hne : r ≠ q := fun e => hq (e ▸ hr)
      rw [hk r hne]
      exact ho r (List.mem_cons_of_mem _ hr) hne
    · obtain ⟨z, hz, hzc⟩ := ho q (List.mem_cons_self ..) e
      simp only [hz]
      rw [if_pos hzc]
      refine tell_one hp hg hr hc hk hn ?_ fun r hr => ho r (List.mem_cons_of_mem _ hr)
      rcases List.mem_cons.mp hm with h | h
      · exact absurd h.symm e
      · exact h

/-- The address of the server. -/
theorem host_L {s : P2p.S} {i : List Byte} {n u : Nat} {la : Option (List Byte)} {pf : Nat → Option P2p.Peer}
    (hq : ∀ p ∈ s.peers, ∃ y, pf p = some y ∧ (y.g ≠ some s.next ∨ y.remote = none)) {l a : List Byte} (e : P2p.Spec.reads l = some (ch 'L', a)) :
    (host s i n la u pf).step (.comm s.next (.line l) true true) = some (host s i n (some a) u pf) := by
  have hg : s.next ∈ (host s i n la u pf).groups := List.mem_cons_self ..
  rw [P2p.comm_step hg, P2p.comm_line _ (host_group s i n la u pf), e]
  simp only [Bool.true_eq_false, if_false]
  unfold P2p.S.applyLine
  rw [if_pos rfl, Option.bind_some]
  have hh : (host s i n la u pf).setGrp s.next { users := u, owner := none, go := true, subnet := n, ifname := i, localAddr := some a, dhcp := true } = host s i n (some a) u pf := by
    simp [host, P2p.S.setGrp, P2p.upd_upd]
  rw [hh]
  unfold P2p.S.announce
  simp only [host_group]
  rw [if_neg (by simp)]
  exact tell_none hq

/-- The peer with its interface, in the group. -/
def guest (s : P2p.S) (y : P2p.Peer) (sta : List Byte) : P2p.Peer := { y with sta := some sta, g := some s.next }

/-- The peer joins. -/
theorem host_J {s : P2p.S} {i : List Byte} {n : Nat} {la : Option (List Byte)} {p : Nat} {y : P2p.Peer} (hI : P2p.Inv (host s i n la 0 s.pheap)) (hb : s.bus = true)
    (hp : s.pheap p = some y) (hg : y.g = none) (sta : List Byte) :
    (host s i n la 0 s.pheap).step (.staConnected y.mac sta (some i) true) = some (host s i n la 1 (P2p.upd s.pheap p (some (guest s y sta)))) := by
  have hf : (host s i n la 0 s.pheap).findPeer y.mac = some p := hI.g.findPeer hp rfl
  have hp' : (host s i n la 0 s.pheap).pheap p = some y := hp
  have hb' : (host s i n la 0 s.pheap).bus = true := hb
  simp only [P2p.S.step, P2p.Op.fromWpas, hb', Bool.not_true, Bool.and_false, Bool.false_eq_true, if_false, P2p.S.handle, hf, hp', hg, Option.isSome_none]
  rw [if_neg (by simp)]
  have hfg : ((host s i n la 0 s.pheap).setPeer p { y with g := none, sta := some sta }).findGroup i = some s.next := by
    show (s.next :: s.groups).find? _ = _
    rw [List.find?_cons_of_pos]
    show Option.any _ ((host s i n la 0 s.pheap).gheap s.next) = true
    rw [host_group]
    simp
  generalize hS : (host s i n la 0 s.pheap).setPeer p _ = S
  have hS' : S = (host s i n la 0 s.pheap).setPeer p { y with g := none, sta := some sta } := by rw [← hS]
  rw [hS', hfg]
  dsimp only
  unfold P2p.S.setGroup
  have e1 : ((host s i n la 0 s.pheap).setPeer p { y with g := none, sta := some sta }).pheap p = some { y with g := none, sta := some sta } := P2p.upd_same _ _ _
  have e2 : ((host s i n la 0 s.pheap).setPeer p { y with g := none, sta := some sta }).gheap s.next = _ := host_group s i n la 0 s.pheap
  simp only [e1, e2]
  rw [if_neg (by simp)]
  simp only [Option.isSome_none, Bool.false_eq_true, if_false, e1, e2]
  simp [host, P2p.S.setPeer, P2p.S.setGrp, P2p.upd_upd, guest]

/-- The lease for the peer. -/
theorem host_R {s : P2p.S} {i : List Byte} {n : Nat} {a : List Byte} {p : Nat} {y : P2p.Peer} {sta : List Byte}
    (hI : P2p.Inv (host s i n (some a) 1 (P2p.upd s.pheap p (some (guest s y sta))))) (h0 : P2p.Inv s) (hp : s.pheap p = some y) (hs : y.shown = true) (hc : y.connected = false)
    {bs ip : List Byte} {fs : List (List Byte)} (hb : bs.length = 6) (hw : Mac.Spec.WritesAll fs bs) (hm : y.mac = Mac.format bs ∨ sta = Mac.format bs)
    (hu : ∀ q z, s.pheap q = some z → (z.mac = Mac.format bs ∨ z.sta = some (Mac.format bs)) → q = p) (hi : ip ≠ [])
    (ht : P2p.Spec.Text (Mac.Spec.join fs ++ ch ' ' :: ip)) :
    (host s i n (some a) 1 (P2p.upd s.pheap p (some (guest s y sta)))).step (.comm s.next (.line (P2p.serverEvent (Mac.Spec.join fs) ip)) true true) =
      some ((host s i n (some a) 1 (P2p.upd s.pheap p (some { guest s y sta with remote := some ip, connected := true }))).emit (.connected p true)) := by
  generalize hH : host s i n (some a) 1 (P2p.upd s.pheap p (some (guest s y sta))) = H at hI
  have hpH : H.pheap p = some (guest s y sta) := by rw [← hH]; exact P2p.upd_same _ _ _
  have hgH : H.gheap s.next = some { users := 1, owner := none, go := true, subnet := n, ifname := i, localAddr := some a, dhcp := true } := by rw [← hH]; exact host_group ..
  have hg : s.next ∈ H.groups := by rw [← hH]; exact List.mem_cons_self ..
  have hpe : H.peers = s.peers := by rw [← hH]; rfl
  have hoth : ∀ q, q ≠ p → H.pheap q = s.pheap q := fun q hq => by rw [← hH]; exact P2p.upd_ne _ _ hq
  have hlen : fs.length = 6 := by
    have : ∀ fs bs, Mac.Spec.WritesAll fs bs → fs.length = bs.length := by
      intro fs bs h; induction h with
      | nil => rfl
      | cons _ _ ih => simp [ih]
    rw [this fs bs hw, hb]
  have hn : H.norm (Mac.Spec.join fs) = Mac.format bs := by
    unfold P2p.S.norm
    rw [← hlen, Mac.scan_join H.zx fs bs hw]
  obtain ⟨hne, hsp⟩ := P2p.join_text hw (by omega)
  have hfa : H.findAny (H.norm (Mac.Spec.join fs)) = some p := by
    rw [hn]
    refine P2p.findAny_unique hI.g hpH ?_ ?_
    · rcases hm with e | e
      · exact .inl e
      · exact .inr (congrArg some e)
    · intro q z hz hzm
      by_cases e : q = p
      · exact e
      · rw [hoth q e] at hz
        exact hu q z hz hzm
  rw [P2p.comm_step hg, P2p.comm_line H hgH, show P2p.serverEvent (Mac.Spec.join fs) ip = ch 'R' :: ch ':' :: (Mac.Spec.join fs ++ ch ' ' :: ip) from rfl, P2p.reads_text (ch 'R') ht]
  simp only [Bool.true_eq_false, if_false]
  have hall : ∀ c ∈ Mac.Spec.join fs, (decide (c ≠ ch ' ')) = true := by
    intro c hc; simp only [decide_eq_true_eq]; rintro rfl; exact hsp hc
  have h1 : (Mac.Spec.join fs ++ ch ' ' :: ip).takeWhile (· ≠ ch ' ') = Mac.Spec.join fs := by
    rw [List.takeWhile_append_of_pos hall, List.takeWhile_cons, if_neg (by simp), List.append_nil]
  have h2 : (Mac.Spec.join fs ++ ch ' ' :: ip).dropWhile (· ≠ ch ' ') = ch ' ' :: ip := by
    rw [List.dropWhile_append_of_pos hall, List.dropWhile_cons, if_neg (by simp)]
  unfold P2p.S.applyLine
  rw [if_neg (by decide), if_neg (by decide), if_pos rfl]
  simp only [h1, h2, List.drop_succ_cons, List.drop_zero]
  rw [if_neg (by simp [hne, hi]), hfa]
  simp only [Bool.true_eq_false, if_false, hpH, Option.bind_some]
  generalize hS : H.setPeer p { guest s y sta with remote := some ip } = S
  have hpS : S.pheap p = some { guest s y sta with remote := some ip } := by rw [← hS]; exact P2p.upd_same _ _ _
  have hgS : S.gheap s.next = some { users := 1, owner := none, go := true, subnet := n, ifname := i, localAddr := some a, dhcp := true } := by rw [← hS]; exact hgH
  have hcS : S.connectedChanged p true = some ((S.setPeer p { guest s y sta with remote := some ip, connected := true }).emit (.connected p true)) := by
    unfold P2p.S.connectedChanged
    rw [hpS]
    dsimp only
    rw [if_neg (by rw [show (guest s y sta).connected = false from hc]; simp)]
    simp only [P2p.S.emitIf, show (guest s y sta).shown = true from hs, if_true]
  unfold P2p.S.announce
  rw [hgS]
  dsimp only
  rw [if_neg (by simp)]
  have hpS2 : S.peers = s.peers := by rw [← hS]; exact hpe
  rw [tell_one hpS rfl (by simp) hcS (fun q hq => P2p.upd_ne _ _ hq) (hpS2 ▸ h0.g.i.pn) (hpS2 ▸ (h0.g.i.pl p).mpr ⟨y, hp⟩)]
  · congr 2
    rw [← hS, ← hH]
    simp [host, P2p.S.setPeer, P2p.upd_upd]
  · intro q hq hqp
    rw [hpS2] at hq
    obtain ⟨z, hz⟩ := (h0.g.i.pl q).mp hq
    refine ⟨z, ?_, .inl ?_⟩
    · rw [← hS]; show P2p.upd H.pheap p _ q = _; rw [P2p.upd_ne _ _ hqp, hoth q hqp, hz]
    · intro e
      obtain ⟨x, hx⟩ := h0.g.i.pg q z _ hz e
      exact absurd (h0.g.i.gf _ x hx) (Nat.lt_irrefl _)

/-- From the start of the group to the lease. -/
theorem host_lines (jk : Nat → Byte) (env : Event.Env) (E : Sinkctl.Env) {W : World} (hI : P2p.Inv W.s) (hb : W.s.bus = true) {p : Nat} {y : P2p.Peer} {q : Mirror.Peer}
    (hp : W.s.pheap p = some y) (hs : y.shown = true) (hg : y.g = none) (hc : y.connected = false) (hy : y.remote = none) (hr : Ready W y.mac q)
    {d1 d2 own i sta a ip bs : List Byte} {ps1 ps2 : List Event.Spec.Piece} {fs : List (List Byte)}
    (h1 : Line d1 (bytes "P2P-GROUP-STARTED") ps1) (a1 : Event.Spec.get (bytes "go_dev_addr") ps1 = some own) (i1 : Event.Spec.arg 0 ps1 = some i)
    (r1 : Event.Spec.arg 1 ps1 = some (bytes "GO")) (he : env.spawn = true ∧ env.watch = true ∧ env.mem = true)
    (ho : W.s.p2pMac = some own) (hno : ∀ p y, W.s.pheap p = some y → y.mac ≠ own) (hn : ∀ g x, W.s.gheap g = some x → x.ifname ≠ i)
    (hf : ∃ n, 50 ≤ n ∧ n < 256 ∧ ∀ g x, W.s.gheap g = some x → x.subnet ≠ n)
    (h2 : LineOf i d2 (bytes "AP-STA-CONNECTED") ps2) (a2 : Event.Spec.get (bytes "p2p_dev_addr") ps2 = some y.mac) (s2 : Event.Spec.arg 0 ps2 = some sta)
    (ha : P2p.Spec.Text a) (hbs : bs.length = 6) (hw : Mac.Spec.WritesAll fs bs) (hm : y.mac = Mac.format bs ∨ sta = Mac.format bs)
    (hu : ∀ q z, W.s.pheap q = some z → (z.mac = Mac.format bs ∨ z.sta = some (Mac.format bs)) → q = p) (hi : ip ≠ [])
    (ht : P2p.Spec.Text (Mac.Spec.join fs ++ ch ' ' :: ip)) {mid : List Ev}
    (hmid : mid = [.helper W.s.next (P2p.serverReady a), .line d2] ∨ mid = [.line d2, .helper W.s.next (P2p.serverReady a)]) :
    ∃ s', run jk env E W (.line d1 :: mid ++ [.helper W.s.next (P2p.serverEvent (Mac.Spec.join fs) ip)]) =
        some { idx := W.idx, s := s', w := upCtl q (W.w.putPeer (upPeer q i a ip)), sent := W.sent } ∧
      s'.pheap p = some { guest W.s y sta with remote := some ip, connected := true } ∧
      ∃ n, s' = (host W.s i n (some a) 1 (P2p.upd W.s.pheap p (some { guest W.s y sta with remote := some ip, connected := true }))).emit (.connected p true) := by
  obtain ⟨n, e1⟩ := hosted_step hI hb ho hno hn hf
  have I1 := Inv_step hI e1
  have q1 : step jk env E W (.line d1) = some { W with s := host W.s i n none 0 W.s.pheap } := by
    rw [line_step jk env E W h1 ⟨by decide, by decide +kernel⟩ (fun x => .started ps1 _ _ _ a1 i1 r1) (s1 := host W.s i n none 0 W.s.pheap)
      (by rw [he.1, he.2.1]; exact e1)]
    exact quiet_exchange jk E W (o := [.dhcpServer W.s.next n]) rfl (by simp [signal, request])
  have hfresh : ∀ r z, W.s.pheap r = some z → z.g ≠ some W.s.next := by
    intro r z hz e
    obtain ⟨x, hx⟩ := hI.g.i.pg r z _ hz e
    exact absurd (hI.g.i.gf _ x hx) (Nat.lt_irrefl _)
  have hL := P2p.reads_text (ch 'L') ha
  have ql : ∀ la u pf, (∀ p ∈ W.s.peers, ∃ y, pf p = some y ∧ (y.g ≠ some W.s.next ∨ y.remote = none)) →
      step jk env E { W with s := host W.s i n la u pf } (.helper W.s.next (P2p.serverReady a)) = some { W with s := host W.s i n (some a) u pf } := fun la u pf hq =>
    quiet_helper jk env E { W with s := host W.s i n la u pf } (host_L hq hL) rfl
  have qj : ∀ la, P2p.Inv (host W.s i n la 0 W.s.pheap) → step jk env E { W with s := host W.s i n la 0 W.s.pheap } (.line d2) =
      some { W with s := host W.s i n la 1 (P2p.upd W.s.pheap p (some (guest W.s y sta))) } := by
    intro la hla
    rw [lineOf_step jk env E { W with s := host W.s i n la 0 W.s.pheap } h2 ⟨by decide, by decide +kernel⟩ (.joined ps2 _ _ a2 s2)
      (s1 := host W.s i n la 1 (P2p.upd W.s.pheap p (some (guest W.s y sta)))) (by rw [he.2.2]; exact host_J hla hb hp hg sta)]
    exact quiet_exchange jk E { W with s := host W.s i n la 0 W.s.pheap } (o := []) (by simp [host]) (by simp)
  have c0 : ∀ p ∈ W.s.peers, ∃ y, W.s.pheap p = some y ∧ (y.g ≠ some W.s.next ∨ y.remote = none) := by
    intro r hr
    obtain ⟨z, hz⟩ := (hI.g.i.pl r).mp hr
    exact ⟨z, hz, .inl (hfresh r z hz)⟩
  have c1 : ∀ r ∈ W.s.peers, ∃ z, P2p.upd W.s.pheap p (some (guest W.s y sta)) r = some z ∧ (z.g ≠ some W.s.next ∨ z.remote = none) := by
    intro r hr
    by_cases e : r = p
    · subst e
      exact ⟨_, P2p.upd_same _ _ _, .inr hy⟩
    · obtain ⟨z, hz⟩ := (hI.g.i.pl r).mp hr
      exact ⟨z, by rw [P2p.upd_ne _ _ e, hz], .inl (hfresh r z hz)⟩
  have I2 := Inv_step I1 (host_L c0 hL)
  have I3 := Inv_step I2 (host_J I2 hb hp hg sta)
  have q3 : run jk env E W (.line d1 :: mid) = some { W with s := host W.s i n (some a) 1 (P2p.upd W.s.pheap p (some (guest W.s y sta))) } := by
    rcases hmid with rfl | rfl
    · simp only [run, q1, ql none 0 _ c0, qj (some a) I2, Option.bind_some]
    · simp only [run, q1, ql none 1 _ c1, qj none I1, Option.bind_some]
  have e4 := host_R I3 hI hp hs hc hbs hw hm hu hi ht
  refine ⟨(host W.s i n (some a) 1 (P2p.upd W.s.pheap p (some { guest W.s y sta with remote := some ip, connected := true }))).emit (.connected p true), ?_, P2p.upd_same _ _ _, n, rfl⟩
  rw [run_append, q3, Option.bind_some]
  simp only [run, step, e4, Option.bind_some]
  have := connected_exchange jk E (W := { W with s := host W.s i n (some a) 1 (P2p.upd W.s.pheap p (some (guest W.s y sta))) })
    (S := (host W.s i n (some a) 1 (P2p.upd W.s.pheap p (some { guest W.s y sta with remote := some ip, connected := true }))).emit (.connected p true))
    (g := W.s.next) (p := p) (y := { guest W.s y sta with remote := some ip, connected := true }) (q := q) (a := a) (r := ip) rfl
    (P2p.upd_same _ _ _) (P2p.upd_same _ _ _) rfl rfl rfl rfl ⟨hr.known, hr.link, hr.display, hr.idle, hr.off⟩
  rw [this]
  rfl

end Verif.Phone
