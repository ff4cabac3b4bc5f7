import Verif.Proof.PhoneGo
/-!
# C142, C143: a device asks to be connected

From the datagram of wpa_supplicant through the daemon, the bus and the sink controller to the datagram back, and on to the connection to the source.
-/
namespace Verif.Phone
open Verif.C Spec

/-! ## C142: the request is taken -/

/-- **C142 (in part).** A device that is shown asks for a group. If no other device is being connected and what it proposed can be taken, then wpa_supplicant is told once to
connect to this device and to no other, with the method and PIN of the proposal, and both programs wait for it. Missing: otherwise (`nothing_sent`). -/
theorem accepted_partial (jk : Nat → Byte) (env : Event.Env) (E : Sinkctl.Env) {W : World} {p : Nat} {y : P2p.Peer} {q : Mirror.Peer} (h : Meet W p y q) {d : List Byte}
    {ps : List Event.Spec.Piece} (hl : Line d (bytes "P2P-GO-NEG-REQUEST") ps) (ha : Event.Spec.arg 0 ps = some y.mac) (hf : W.s.pending = none ∨ W.s.pending = some p)
    (hp : PinOk y.pin) {ws : List (List Byte)} (hw : answer y.prov y.pin = some ws) :
    ∃ W' d', step jk env E W (.line d) = some W' ∧ W'.sent = W.sent ++ [d'] ∧ Ask.Spec.hear d' = .order (bytes "P2P_CONNECT") (y.mac :: ws) ∧
      W'.s.pending = some p ∧ W'.w.app.pending = some q.id := by
  obtain ⟨t, d', _, h2, h3, _⟩ := taken jk env E h hl ha hf hp hw
  exact ⟨_, d', h3, rfl, h2, rfl, rfl⟩

/-- **C142 (not so).** If another device is being connected, or the proposal cannot be taken, nothing is sent. The controller is not told: it waits for the device (it
stopped searching and has a timer) though nothing will come. -/
theorem nothing_sent (jk : Nat → Byte) (env : Event.Env) (E : Sinkctl.Env) {W : World} {p : Nat} {y : P2p.Peer} {q : Mirror.Peer} (h : Meet W p y q) {d : List Byte}
    {ps : List Event.Spec.Piece} (hl : Line d (bytes "P2P-GO-NEG-REQUEST") ps) (ha : Event.Spec.arg 0 ps = some y.mac)
    (hf : (∃ o, W.s.pending = some o ∧ o ≠ p) ∨ answer y.prov y.pin = none) :
    ∃ W', step jk env E W (.line d) = some W' ∧ W'.sent = W.sent ∧ W'.s.pending = W.s.pending ∧ W'.w.app.pending = some q.id ∧ W'.w.app.scanT = true := by
  obtain ⟨r, e⟩ := refused jk env E h hl ha hf
  exact ⟨_, e, rfl, rfl, rfl, rfl⟩

/-- **C142 (push button).** The device proposed the push button and then asks: wpa_supplicant is told to connect with the push button. -/
theorem button_accepted (jk : Nat → Byte) (env : Event.Env) (E : Sinkctl.Env) {W : World} {p : Nat} {y : P2p.Peer} {q : Mirror.Peer} (h : Meet W p y q) {d1 d2 : List Byte}
    {ps1 ps2 : List Event.Spec.Piece} (hm : env.mem = true) (h1 : Line d1 (bytes "P2P-PROV-DISC-PBC-REQ") ps1)
    (a1 : Event.Spec.get (bytes "p2p_dev_addr") ps1 = some y.mac) (h2 : Line d2 (bytes "P2P-GO-NEG-REQUEST") ps2) (a2 : Event.Spec.arg 0 ps2 = some y.mac)
    (hf : W.s.pending = none ∨ W.s.pending = some p) :
    ∃ W' d', run jk env E W [.line d1, .line d2] = some W' ∧ W'.sent = W.sent ++ [d'] ∧ Ask.Spec.hear d' = .order (bytes "P2P_CONNECT") [y.mac, bytes "pbc"] ∧
      W'.s.pending = some p ∧ W'.w.app.pending = some q.id := by
  obtain ⟨W1, e1, m1, s1, p1, _, _⟩ := heard jk env E h h1 ⟨by decide, by decide +kernel⟩ (w := bytes "pbc") (k := none) (fun x => hm ▸ .pbc ps1 _ a1)
  obtain ⟨W', d', e2, r⟩ := accepted_partial jk env E m1 h2 a2 (p1 ▸ hf) (fun k e => by cases e) (ws := [bytes "pbc"]) rfl
  exact ⟨W', d', by simp only [run, e1, e2, Option.bind_some], s1 ▸ r⟩

/-- **C142 (PIN shown here).** The device asked that this one shows a PIN, and then asks to be connected: wpa_supplicant is told that PIN. -/
theorem pin_accepted (jk : Nat → Byte) (env : Event.Env) (E : Sinkctl.Env) {W : World} {p : Nat} {y : P2p.Peer} {q : Mirror.Peer} (h : Meet W p y q) {d1 d2 pin : List Byte}
    {ps1 ps2 : List Event.Spec.Piece} (hm : env.mem = true) (h1 : Line d1 (bytes "P2P-PROV-DISC-SHOW-PIN") ps1)
    (a1 : Event.Spec.get (bytes "p2p_dev_addr") ps1 = some y.mac) (k1 : Event.Spec.arg 1 ps1 = some pin) (hne : pin ≠ []) (hu : Ask.Spec.Unquoted pin)
    (hs : pin.length ≤ 1000000000) (h2 : Line d2 (bytes "P2P-GO-NEG-REQUEST") ps2) (a2 : Event.Spec.arg 0 ps2 = some y.mac)
    (hf : W.s.pending = none ∨ W.s.pending = some p) :
    ∃ W' d', run jk env E W [.line d1, .line d2] = some W' ∧ W'.sent = W.sent ++ [d'] ∧
      Ask.Spec.hear d' = .order (bytes "P2P_CONNECT") [y.mac, pin, bytes "display"] ∧ W'.s.pending = some p ∧ W'.w.app.pending = some q.id := by
  obtain ⟨W1, e1, m1, s1, p1, _, _⟩ := heard jk env E h h1 ⟨by decide, by decide +kernel⟩ (w := bytes "display") (k := some pin) (fun x => hm ▸ .display ps1 _ _ a1 k1)
  obtain ⟨W', d', e2, r⟩ := accepted_partial jk env E m1 h2 a2 (p1 ▸ hf) (fun k e => by injection e with e; subst e; exact ⟨hu, hs⟩) (ws := [pin, bytes "display"])
    (by show answer (some (bytes "display")) (some pin) = _; unfold answer; dsimp only; rw [if_neg (by decide), if_pos (.inl rfl), if_neg hne])
  exact ⟨W', d', by simp only [run, e1, e2, Option.bind_some], s1 ▸ r⟩

/-- **C142 (not so: PIN to be entered here).** The device shows a PIN that is to be entered here, and then asks: the controller takes the request without asking for the
PIN, the daemon refuses, nothing is sent, and the controller waits. So no device that shows a PIN can be connected. -/
theorem entered_pin_never (jk : Nat → Byte) (env : Event.Env) (E : Sinkctl.Env) {W : World} {p : Nat} {y : P2p.Peer} {q : Mirror.Peer} (h : Meet W p y q) {d1 d2 : List Byte}
    {ps1 ps2 : List Event.Spec.Piece} (hm : env.mem = true) (h1 : Line d1 (bytes "P2P-PROV-DISC-ENTER-PIN") ps1)
    (a1 : Event.Spec.get (bytes "p2p_dev_addr") ps1 = some y.mac) (h2 : Line d2 (bytes "P2P-GO-NEG-REQUEST") ps2) (a2 : Event.Spec.arg 0 ps2 = some y.mac) :
    ∃ W', run jk env E W [.line d1, .line d2] = some W' ∧ W'.sent = W.sent ∧ W'.s.pending = W.s.pending ∧ W'.w.app.pending = some q.id ∧ W'.w.app.scanT = true := by
  obtain ⟨W1, e1, m1, s1, p1, _, _⟩ := heard jk env E h h1 ⟨by decide, by decide +kernel⟩ (w := bytes "pin") (k := none) (fun x => hm ▸ .enter ps1 _ a1)
  obtain ⟨W', e2, r1, r2, r3⟩ := nothing_sent jk env E m1 h2 a2 (.inr (by show answer (some (bytes "pin")) none = none; decide))
  exact ⟨W', by simp only [run, e1, e2, Option.bind_some], r1.trans s1, r2.trans p1, r3⟩

/-! ## C143: up to the connection to the source -/

/-- **C143 (in part).** The device asks, its request is taken, wpa_supplicant starts the group that the device owns, the DHCP helper of the group reports a lease with a
gateway, and the timer of the controller runs out: the controller has called `Connect` once, has noted the session with this device, and has tried to connect once, to the
first gateway of the lease; both programs have the device as connected, with the interface of the group and both addresses. Missing: a device that was
connected before (it may still have an address). -/
theorem connects_partial (jk : Nat → Byte) (env : Event.Env) (E : Sinkctl.Env) {W : World} {p : Nat} {y : P2p.Peer} {q : Mirror.Peer} (h : Meet W p y q) {d1 d2 : List Byte}
    {ps1 ps2 : List Event.Spec.Piece}
    -- the request
    (h1 : Line d1 (bytes "P2P-GO-NEG-REQUEST") ps1) (a1 : Event.Spec.arg 0 ps1 = some y.mac) (hf : W.s.pending = none ∨ W.s.pending = some p) (hp : PinOk y.pin)
    {ws : List (List Byte)} (hw : answer y.prov y.pin = some ws)
    -- the group
    (h2 : Line d2 (bytes "P2P-GROUP-STARTED") ps2) {i role : List Byte} (a2 : Event.Spec.get (bytes "go_dev_addr") ps2 = some y.mac) (i2 : Event.Spec.arg 0 ps2 = some i)
    (r2 : Event.Spec.arg 1 ps2 = some role) (hro : role ≠ bytes "GO") (he : env.spawn = true ∧ env.watch = true) (hn : ∀ g x, W.s.gheap g = some x → x.ifname ≠ i)
    -- the lease
    {old : Option (List Byte)} {a gw : List Byte} {subnet dns gateway : List (List Byte)} (ha : P2p.Spec.Text a) (hs : ∀ t ∈ subnet, P2p.Spec.Text t)
    (hd : ∀ t ∈ dns, P2p.Spec.Text t) (hg : P2p.Spec.Text gw) (hnew : old ≠ some (a ++ ch '/' :: subnet.headD (bytes "24")))
    -- before
    (hy : y.remote = none ∧ y.connected = false) (hq : q.connected = false) (hal : W.w.app.alive = true) (hop : W.w.app.isOpen = false) :
    ∃ W' d' y' q', run jk env E W ([.line d1, .line d2] ++ (P2p.clientLease old (some a) subnet dns (gw :: gateway) true true).2.1.map (.helper W.s.next) ++ [.timer]) = some W' ∧
      W'.sent = W.sent ++ [d'] ∧ Ask.Spec.hear d' = .order (bytes "P2P_CONNECT") (y.mac :: ws) ∧
      W'.w.app.log = W.w.app.log ++ [.accept (Daemon.peerLabel y.mac W.idx) (bytes "auto") [], .running q.id, .connect (some gw)] ∧
      W'.w.app.runPeer = some q.id ∧ W'.w.app.pending = none ∧ W'.w.app.isOpen = E.acc (W.w.app.log.length + 2) ∧
      W'.s.pheap p = some y' ∧ y'.mac = y.mac ∧ y'.connected = true ∧ y'.remote = some gw ∧
      Sinkctl.peerAt W'.w q.id = some q' ∧ q'.label = q.label ∧ q'.connected = true ∧ q'.iface = some i ∧ q'.loc = some a ∧ q'.rem = some gw ∧
      ∃ x, On W' p y' q' W.s.next x ∧ x.owner = some p ∧ x.ifname = i ∧ Sole W'.s W.s.next p ∧ OneName W'.s W.s.next i ∧ answer y'.prov y'.pin = some ws ∧ PinOk y'.pin ∧
        q'.id = q.id ∧ q'.l = q.l ∧ W'.s.pending = some p ∧ W'.idx = W.idx ∧ W'.w.links.map (·.id) = W.w.links.map (·.id) ∧
        (∀ k, k ≠ W.s.next → W'.s.gheap k = W.s.gheap k) ∧ W'.s.next = W.s.next + 1 ∧ Kept W.s W'.s p := by
  obtain ⟨t, d', _, hh, e1, hI⟩ := taken jk env E h h1 a1 hf hp hw
  have sm := proposal_same y
  generalize hW1 : ({ idx := W.idx, s := taking W.s p y t, w := accepting q W.w, sent := W.sent ++ [d'] } : World) = W1 at e1
  have hs1 : W1.s = taking W.s p y t := by rw [← hW1]
  have hp1 : W1.s.pheap p = some (proposal y) := by rw [hs1]; exact P2p.upd_same _ _ _
  have hb1 : W1.s.bus = true := by rw [hs1]; exact h.bus
  have hn1 : ∀ g x, W1.s.gheap g = some x → x.ifname ≠ i := by rw [hs1]; exact hn
  have hg1 : (proposal y).g = none := sm.2.2.1.trans h.alone
  have hI1 : P2p.Inv W1.s := by rw [hs1]; exact hI
  have e2 := started_line jk env E hI1 hb1 hp1 hg1 h2 (by rw [sm.1]; exact a2) i2 r2 hro he hn1
  have o2 := own_joined hI1 hb1 hp1 (sm.2.1.trans h.shown) hg1 (sm.2.2.2.2.trans hy.2) hn1
  have rd : Ready { W1 with s := joined W1.s p (proposal y) i } (proposal y).mac q := by
    rw [sm.1]
    refine ⟨?_, ?_, h.display, ?_, hq⟩
    · rw [← hW1]; exact h.known
    · rw [← hW1]; exact h.link
    · rw [← hW1]; exact h.idle
  obtain ⟨s3, e3, hp3, hs3⟩ := lease_lines jk env E (W := { W1 with s := joined W1.s p (proposal y) i }) o2 rd (sm.2.2.2.1.trans hy.1) (old := old) (gateway := gateway) ha hs hd hg hnew
  have hnx : W1.s.next = W.s.next := by rw [hs1]; rfl
  rw [hnx] at e3
  obtain ⟨w4, e4, l4, r4, o4, p4, n4, k4, rl4, al4, li4⟩ := timer_run E (w := W1.w) (path := Wifid.peerPath y.mac W.idx) (q := q) (by rw [← hW1]; exact h.known) (by rw [← hW1]; exact hal)
    (by rw [← hW1]; exact hop) i a gw
  have e12 : run jk env E W [.line d1, .line d2] = some { W1 with s := joined W1.s p (proposal y) i } := by simp only [run, e1, e2, Option.bind_some]
  have hrun : run jk env E W ([.line d1, .line d2] ++ (P2p.clientLease old (some a) subnet dns (gw :: gateway) true true).2.1.map (.helper W.s.next) ++ [.timer]) =
      some { idx := W1.idx, s := s3, w := w4, sent := W1.sent } := by
    rw [run_append, run_append, e12, Option.bind_some, e3, Option.bind_some]
    simp only [run, step]
    have : ({ W1 with s := joined W1.s p (proposal y) i } : World).w = W1.w := rfl
    rw [show (client p i).ifname = i from rfl, e4]
    rfl
  have hidx : W1.idx = W.idx := by rw [← hW1]
  have hother : ∀ r, r ≠ p → s3.pheap r = W.s.pheap r := by
    intro r hr
    rw [hs3]
    show P2p.upd (P2p.upd W1.s.pheap p _) p _ r = _
    rw [P2p.upd_ne _ _ hr, P2p.upd_ne _ _ hr, hs1]
    exact P2p.upd_ne _ _ hr
  have hgrp : s3.gheap W.s.next = some { client p i with localAddr := some a } := by
    rw [hs3, ← hnx]; exact P2p.upd_same _ _ _
  have hgoth : ∀ k, k ≠ W.s.next → s3.gheap k = W.s.gheap k := by
    intro k hk
    rw [hs3]
    show P2p.upd (P2p.upd W1.s.gheap W1.s.next _) W1.s.next _ k = _
    rw [P2p.upd_ne _ _ (by rw [hnx]; exact hk), P2p.upd_ne _ _ (by rw [hnx]; exact hk), hs1]
    rfl
  obtain ⟨zx, ops, hre⟩ := h.reach
  have hI0 := P2p.reached hre
  refine ⟨{ idx := W1.idx, s := s3, w := w4, sent := W1.sent }, d', _, _, hrun, ?_, hh, ?_, r4, n4, ?_, hp3, sm.1, rfl, rfl, p4, rfl, rfl, rfl, rfl, rfl, _,
    ⟨run_reach _ hrun h.reach, ?_, ?_, hp3, sm.2.1.trans h.shown, rfl, congrArg some hnx, hgrp, ?_, ?_, ?_, h.display, rfl, r4, al4⟩, rfl, rfl, ?_, ?_,
    (proposal_answer y).trans hw, proposal_pin hp, rfl, rfl, ?_, hidx, ?_, hgoth, ?_, hother, ?_⟩
  · rw [← hW1]
  · rw [l4, ← hW1]
    show (W.w.app.log ++ [_]) ++ _ = _
    rw [h.label]
    simp
  · rw [o4, ← hW1]
    show E.acc ((W.w.app.log ++ [_]).length + 1) = _
    rw [List.length_append]; rfl
  · show s3.bus = true
    rw [hs3]; exact hb1
  · show s3.running = true
    rw [hs3]
    show W1.s.running = true
    rw [hs1]; exact h.running
  · show w4.peerAt (Wifid.peerPath (proposal y).mac W1.idx) = _
    rw [sm.1, hidx]; exact k4
  · show q.label = Daemon.peerLabel (proposal y).mac W1.idx
    rw [sm.1, hidx]; exact h.label
  · refine rl4.trans ?_
    rw [← hW1]; exact h.link
  · intro r z hz hzg
    refine Decidable.byContradiction fun hr => ?_
    have hz' : W.s.pheap r = some z := (hother r hr).symm.trans hz
    obtain ⟨x, hx⟩ := hI0.g.i.pg r z _ hz' hzg
    exact absurd (hI0.g.i.gf _ x hx) (Nat.lt_irrefl _)
  · intro k z hz hzi
    refine Decidable.byContradiction fun hk => ?_
    exact hn k z ((hgoth k hk).symm.trans hz) hzi
  · show s3.pending = some p
    rw [hs3]
    show W1.s.pending = some p
    rw [hs1]; rfl
  · show w4.links.map _ = _
    rw [li4, ← hW1]
    simp [Mirror.W.putPeer, accepting]
  · show s3.next = _
    rw [hs3, ← hnx]; rfl
  · show s3.p2pMac = _
    rw [hs3]
    show W1.s.p2pMac = _
    rw [hs1]; rfl

/-- **C143 (in part: this device owns the group).** The same if wpa_supplicant starts a group that this device owns: the device joins it and gets a lease from the DHCP
server of the group, whose helper has reported its own address before or after the device joined. The connection is made to the address leased to the device, found by its
interface or device address however the helper writes that. Missing: as in `connects_partial`, and a lease reported before the device is seen to join. -/
theorem connects_owner_partial (jk : Nat → Byte) (env : Event.Env) (E : Sinkctl.Env) {W : World} {p : Nat} {y : P2p.Peer} {q : Mirror.Peer} (h : Meet W p y q)
    {d1 d2 d3 : List Byte} {ps1 ps2 ps3 : List Event.Spec.Piece}
    -- the request
    (h1 : Line d1 (bytes "P2P-GO-NEG-REQUEST") ps1) (a1 : Event.Spec.arg 0 ps1 = some y.mac) (hf : W.s.pending = none ∨ W.s.pending = some p) (hp : PinOk y.pin)
    {ws : List (List Byte)} (hw : answer y.prov y.pin = some ws)
    -- the group
    (h2 : Line d2 (bytes "P2P-GROUP-STARTED") ps2) {own i : List Byte} (a2 : Event.Spec.get (bytes "go_dev_addr") ps2 = some own) (i2 : Event.Spec.arg 0 ps2 = some i)
    (r2 : Event.Spec.arg 1 ps2 = some (bytes "GO")) (he : env.spawn = true ∧ env.watch = true ∧ env.mem = true) (ho : W.s.p2pMac = some own)
    (hno : ∀ p y, W.s.pheap p = some y → y.mac ≠ own) (hn : ∀ g x, W.s.gheap g = some x → x.ifname ≠ i)
    (hfree : ∃ n, 50 ≤ n ∧ n < 256 ∧ ∀ g x, W.s.gheap g = some x → x.subnet ≠ n)
    -- the device joins
    (h3 : LineOf i d3 (bytes "AP-STA-CONNECTED") ps3) (a3 : Event.Spec.get (bytes "p2p_dev_addr") ps3 = some y.mac) {sta : List Byte} (s3 : Event.Spec.arg 0 ps3 = some sta)
    -- the lease
    {a ip bs : List Byte} {fs : List (List Byte)} (ha : P2p.Spec.Text a) (hbs : bs.length = 6) (hws : Mac.Spec.WritesAll fs bs)
    (hm : y.mac = Mac.format bs ∨ sta = Mac.format bs) (hu : ∀ q z, W.s.pheap q = some z → (z.mac = Mac.format bs ∨ z.sta = some (Mac.format bs)) → q = p) (hi : ip ≠ [])
    (ht : P2p.Spec.Text (Mac.Spec.join fs ++ ch ' ' :: ip)) {mid : List Ev}
    (hmid : mid = [.helper W.s.next (P2p.serverReady a), .line d3] ∨ mid = [.line d3, .helper W.s.next (P2p.serverReady a)])
    -- before
    (hy : y.remote = none ∧ y.connected = false) (hq : q.connected = false) (hal : W.w.app.alive = true) (hop : W.w.app.isOpen = false) :
    ∃ W' d' y' q', run jk env E W ([.line d1, .line d2] ++ mid ++ [.helper W.s.next (P2p.serverEvent (Mac.Spec.join fs) ip), .timer]) = some W' ∧
      W'.sent = W.sent ++ [d'] ∧ Ask.Spec.hear d' = .order (bytes "P2P_CONNECT") (y.mac :: ws) ∧
      W'.w.app.log = W.w.app.log ++ [.accept (Daemon.peerLabel y.mac W.idx) (bytes "auto") [], .running q.id, .connect (some ip)] ∧
      W'.w.app.runPeer = some q.id ∧ W'.w.app.pending = none ∧ W'.w.app.isOpen = E.acc (W.w.app.log.length + 2) ∧
      W'.s.pheap p = some y' ∧ y'.mac = y.mac ∧ y'.connected = true ∧ y'.remote = some ip ∧
      Sinkctl.peerAt W'.w q.id = some q' ∧ q'.label = q.label ∧ q'.connected = true ∧ q'.iface = some i ∧ q'.loc = some a ∧ q'.rem = some ip ∧
      ∃ x, On W' p y' q' W.s.next x ∧ x.owner = none ∧ x.ifname = i ∧ Sole W'.s W.s.next p ∧ OneName W'.s W.s.next i ∧ answer y'.prov y'.pin = some ws ∧ PinOk y'.pin ∧
        q'.id = q.id ∧ q'.l = q.l ∧ W'.s.pending = some p ∧ W'.idx = W.idx ∧ W'.w.links.map (·.id) = W.w.links.map (·.id) ∧
        (∀ k, k ≠ W.s.next → W'.s.gheap k = W.s.gheap k) ∧ W'.s.next = W.s.next + 1 ∧ Kept W.s W'.s p := by
  obtain ⟨t, d', _, hh, e1, hI⟩ := taken jk env E h h1 a1 hf hp hw
  have sm := proposal_same y
  generalize hW1 : ({ idx := W.idx, s := taking W.s p y t, w := accepting q W.w, sent := W.sent ++ [d'] } : World) = W1 at e1
  have hs1 : W1.s = taking W.s p y t := by rw [← hW1]
  have hp1 : W1.s.pheap p = some (proposal y) := by rw [hs1]; exact P2p.upd_same _ _ _
  have hoth : ∀ r z, W1.s.pheap r = some z → ∃ z', W.s.pheap r = some z' ∧ z'.mac = z.mac ∧ z'.sta = z.sta := by
    intro r z hz
    by_cases e : r = p
    · subst e
      rw [hp1] at hz
      injection hz with hz
      subst hz
      refine ⟨y, h.peer, sm.1.symm, ?_⟩
      unfold proposal
      split <;> rfl
    · rw [hs1] at hz
      have : (taking W.s p y t).pheap r = W.s.pheap r := P2p.upd_ne _ _ e
      rw [this] at hz
      exact ⟨z, hz, rfl, rfl⟩
  have hnx : W1.s.next = W.s.next := by rw [hs1]; rfl
  have rd : Ready W1 (proposal y).mac q := by
    rw [sm.1]
    refine ⟨?_, ?_, h.display, ?_, hq⟩
    · rw [← hW1]; exact h.known
    · rw [← hW1]; exact h.link
    · rw [← hW1]; exact h.idle
  obtain ⟨s3', e3, hp3, nn, hs3⟩ := host_lines jk env E (W := W1) (hs1 ▸ hI) (by rw [hs1]; exact h.bus) hp1 (sm.2.1.trans h.shown) (sm.2.2.1.trans h.alone) (sm.2.2.2.2.trans hy.2)
    (sm.2.2.2.1.trans hy.1) rd h2 a2 i2 r2 he (by rw [hs1]; exact ho)
    (fun r z hz => by obtain ⟨z', e, m, _⟩ := hoth r z hz; rw [← m]; exact hno r z' e) (by rw [hs1]; exact hn) (by rw [hs1]; exact hfree)
    h3 (by rw [sm.1]; exact a3) s3 ha hbs hws (by rw [sm.1]; exact hm)
    (fun r z hz hc => by obtain ⟨z', e, m, k⟩ := hoth r z hz; exact hu r z' e (by rw [m, k]; exact hc)) hi ht (by rw [hnx]; exact hmid)
  rw [hnx] at e3
  obtain ⟨w4, e4, l4, r4, o4, p4, n4, k4, rl4, al4, li4⟩ := timer_run E (w := W1.w) (path := Wifid.peerPath y.mac W.idx) (q := q) (by rw [← hW1]; exact h.known) (by rw [← hW1]; exact hal)
    (by rw [← hW1]; exact hop) i a ip
  have hrun : run jk env E W ([.line d1, .line d2] ++ mid ++ [.helper W.s.next (P2p.serverEvent (Mac.Spec.join fs) ip), .timer]) = some { idx := W1.idx, s := s3', w := w4, sent := W1.sent } := by
    have : ([.line d1, .line d2] ++ mid ++ [.helper W.s.next (P2p.serverEvent (Mac.Spec.join fs) ip), .timer] : List Ev) =
        [.line d1] ++ ((.line d2 :: mid ++ [.helper W.s.next (P2p.serverEvent (Mac.Spec.join fs) ip)]) ++ [.timer]) := by simp
    have f1 : run jk env E W [.line d1] = some W1 := by simp only [run, e1, Option.bind_some]
    rw [this, run_append, f1, Option.bind_some, run_append, e3]
    simp only [Option.bind_some, run, step, e4, Option.map_some]
  have hidx : W1.idx = W.idx := by rw [← hW1]
  have hother : ∀ r, r ≠ p → s3'.pheap r = W.s.pheap r := by
    intro r hr
    rw [hs3]
    show P2p.upd W1.s.pheap p _ r = _
    rw [P2p.upd_ne _ _ hr, hs1]
    exact P2p.upd_ne _ _ hr
  have hgrp : s3'.gheap W.s.next = some { users := 1, owner := none, go := true, subnet := nn, ifname := i, localAddr := some a, dhcp := true } := by
    rw [hs3, ← hnx]; exact P2p.upd_same _ _ _
  have hgoth : ∀ k, k ≠ W.s.next → s3'.gheap k = W.s.gheap k := by
    intro k hk
    rw [hs3]
    show P2p.upd W1.s.gheap W1.s.next _ k = _
    rw [P2p.upd_ne _ _ (by rw [hnx]; exact hk), hs1]
    rfl
  obtain ⟨zx, ops, hre⟩ := h.reach
  have hI0 := P2p.reached hre
  refine ⟨{ idx := W1.idx, s := s3', w := w4, sent := W1.sent }, d', _, _, hrun, ?_, hh, ?_, r4, n4, ?_, hp3, sm.1, rfl, rfl, p4, rfl, rfl, rfl, rfl, rfl, _,
    ⟨run_reach _ hrun h.reach, ?_, ?_, hp3, sm.2.1.trans h.shown, rfl, congrArg some hnx, hgrp, ?_, ?_, ?_, h.display, rfl, r4, al4⟩, rfl, rfl, ?_, ?_,
    (proposal_answer y).trans hw, proposal_pin hp, rfl, rfl, ?_, hidx, ?_, hgoth, ?_, hother, ?_⟩
  · rw [← hW1]
  · rw [l4, ← hW1]
    show (W.w.app.log ++ [_]) ++ _ = _
    rw [h.label]
    simp
  · rw [o4, ← hW1]
    show E.acc ((W.w.app.log ++ [_]).length + 1) = _
    rw [List.length_append]; rfl
  · show s3'.bus = true
    rw [hs3]
    show W1.s.bus = true
    rw [hs1]; exact h.bus
  · show s3'.running = true
    rw [hs3]
    show W1.s.running = true
    rw [hs1]; exact h.running
  · show w4.peerAt (Wifid.peerPath (proposal y).mac W1.idx) = _
    rw [sm.1, hidx]; exact k4
  · show q.label = Daemon.peerLabel (proposal y).mac W1.idx
    rw [sm.1, hidx]; exact h.label
  · refine rl4.trans ?_
    rw [← hW1]; exact h.link
  · intro r z hz hzg
    refine Decidable.byContradiction fun hr => ?_
    have hz' : W.s.pheap r = some z := (hother r hr).symm.trans hz
    obtain ⟨x, hx⟩ := hI0.g.i.pg r z _ hz' hzg
    exact absurd (hI0.g.i.gf _ x hx) (Nat.lt_irrefl _)
  · intro k z hz hzi
    refine Decidable.byContradiction fun hk => ?_
    exact hn k z ((hgoth k hk).symm.trans hz) hzi
  · show s3'.pending = some p
    rw [hs3]
    show W1.s.pending = some p
    rw [hs1]; rfl
  · show w4.links.map _ = _
    rw [li4, ← hW1]
    simp [Mirror.W.putPeer, accepting]
  · show s3'.next = _
    rw [hs3, ← hnx]; rfl
  · show s3'.p2pMac = _
    rw [hs3]
    show W1.s.p2pMac = _
    rw [hs1]; rfl

/-! ## The whole way, on concrete bytes -/

/-- The daemon has found a phone, the controller runs on the link and knows the phone. -/
def daemon : Option P2p.S := (P2p.start false).run [.attached, .ready, .found (bytes "02:00:00:00:00:01") [0]]

/-- The phone in the controller. -/
def phone : Mirror.Peer := { id := 2, l := 1, label := bytes "02:00:00:00:00:01@3", wfd := some (bytes "000006") }

/-- The controller. -/
def controller : Sinkctl.S := { links := [{ id := 1, label := bytes "3", peers := [phone] }], next := 3, app := { runLink := some 1 } }

/-- Both. -/
def world (s : P2p.S) : World := { idx := 3, s := s, w := controller }

/-- Everything succeeds. -/
def fine : Sinkctl.Env := { bus := fun _ => true, acc := fun _ => true, fork := fun _ => none, cli := false }

/-- What can be compared of the two. -/
def look (W : World) : List (List Byte) × List Sinkctl.Act × Option Nat × Option Nat := (W.sent, W.w.app.log, W.w.app.runPeer, W.w.app.pending)

/-- The hypotheses can be met. -/
example : ∃ s y, daemon = some s ∧ Meet (world s) 0 y phone ∧ (world s).s.pending = none ∧ y.remote = none ∧ y.connected = false ∧ answer y.prov y.pin = some [bytes "pbc"] ∧
    PinOk y.pin ∧ y.mac = bytes "02:00:00:00:00:01" :=
  ⟨_, _, rfl, ⟨⟨false, [.attached, .ready, .found (bytes "02:00:00:00:00:01") [0]], rfl⟩, by decide +kernel, by decide +kernel, rfl, by decide +kernel, by decide +kernel, by decide +kernel, by decide +kernel, by decide +kernel,
    by decide +kernel, by decide +kernel⟩, by decide +kernel, by decide +kernel, by decide +kernel, by decide +kernel, (fun k e => by cases e), by decide +kernel⟩

example : Line (bytes "<3>P2P-GO-NEG-REQUEST 02:00:00:00:00:01 dev_passwd_id=4") (bytes "P2P-GO-NEG-REQUEST")
    [.word (bytes "02:00:00:00:00:01"), .pair (bytes "dev_passwd_id") (bytes "4")] :=
  ⟨by decide +kernel, ⟨none, 3, by decide, by
    rw [show Wpas.Spec.eventText 3 (bytes "P2P-GO-NEG-REQUEST") (Event.Spec.args [.word (bytes "02:00:00:00:00:01"), .pair (bytes "dev_passwd_id") (bytes "4")]) =
      bytes "<3>P2P-GO-NEG-REQUEST 02:00:00:00:00:01 dev_passwd_id=4" by decide +kernel]
    exact .plain _ (by decide +kernel)⟩, by
    intro p hp
    simp only [List.mem_cons, List.not_mem_nil, or_false] at hp
    rcases hp with rfl | rfl
    · exact ⟨by decide, by unfold Event.Spec.Simple; decide +kernel, by decide +kernel⟩
    · exact ⟨by unfold Event.Spec.Simple; decide +kernel, by decide +kernel, by unfold Event.Spec.Simple; decide +kernel⟩⟩

/-- From the request to the connection to the source. -/
example : (daemon.bind fun s => run (fun _ => 0) {} fine (world s)
    [.line (bytes "<3>P2P-PROV-DISC-PBC-REQ 02:00:00:00:00:01 p2p_dev_addr=02:00:00:00:00:01 name='phone'"),
     .line (bytes "<3>P2P-GO-NEG-REQUEST 02:00:00:00:00:01 dev_passwd_id=4"),
     .line (bytes "<3>P2P-GROUP-STARTED p2p-wlan0-0 client ssid=\"DIRECT-x\" freq=2437 go_dev_addr=02:00:00:00:00:01"),
     .helper 1 (bytes "L:192.168.49.20"), .helper 1 (bytes "S:255.255.255.0"), .helper 1 (bytes "G:192.168.49.1"), .timer]).map look =
    some ([bytes "P2P_CONNECT 02:00:00:00:00:01 pbc"], [.accept (bytes "02:00:00:00:00:01@3") (bytes "auto") [], .running 2, .connect (some (bytes "192.168.49.1"))],
      some 2, none) := by decide +kernel

/-- The same with a group of this device. -/
example : (((P2p.start false).run [.attached, .ready, .ownMac (bytes "0a:00:00:00:00:09"), .found (bytes "02:00:00:00:00:01") [0]]).bind fun s => run (fun _ => 0) {} fine (world s)
    [.line (bytes "<3>P2P-GO-NEG-REQUEST 02:00:00:00:00:01 dev_passwd_id=4"),
     .line (bytes "<3>P2P-GROUP-STARTED p2p-wlan0-0 GO ssid=\"DIRECT-x\" freq=2437 go_dev_addr=0a:00:00:00:00:09"),
     .line (bytes "IFNAME=p2p-wlan0-0 <3>AP-STA-CONNECTED 02:00:00:00:80:01 p2p_dev_addr=02:00:00:00:00:01"),
     .helper 1 (bytes "L:192.168.50.1"), .helper 1 (bytes "R:2:0:0:0:80:1 192.168.50.100"), .timer]).map look =
    some ([bytes "P2P_CONNECT 02:00:00:00:00:01 pbc"], [.accept (bytes "02:00:00:00:00:01@3") (bytes "auto") [], .running 2, .connect (some (bytes "192.168.50.100"))],
      some 2, none) := by decide +kernel

/-- The lease is reported before the device is seen to join. -/
def late : Option World := ((P2p.start false).run [.attached, .ready, .ownMac (bytes "0a:00:00:00:00:09"), .found (bytes "02:00:00:00:00:01") [0]]).bind fun s =>
    run (fun _ => 0) {} fine (world s)
    [.line (bytes "<3>P2P-GO-NEG-REQUEST 02:00:00:00:00:01 dev_passwd_id=4"),
     .line (bytes "<3>P2P-GO-NEG-SUCCESS role=GO peer_dev=02:00:00:00:00:01 peer_iface=02:00:00:00:80:01"),
     .line (bytes "<3>P2P-GROUP-STARTED p2p-wlan0-0 GO ssid=\"DIRECT-x\" freq=2437 go_dev_addr=0a:00:00:00:00:09"),
     .helper 1 (bytes "L:192.168.50.1"), .helper 1 (bytes "R:2:0:0:0:80:1 192.168.50.100"),
     .line (bytes "IFNAME=p2p-wlan0-0 <3>AP-STA-CONNECTED 02:00:00:00:80:01 p2p_dev_addr=02:00:00:00:00:01")]

/-- **C143 (not so: the lease comes first).** If the lease is reported before the device is seen to join, nobody announces it: the connection does not come up, though
the device is in the group and its address is known. -/
theorem lease_before_joining : (late.map fun W => (W.s.pheap 0).map fun y => (y.g, y.remote)) = some (some (some 1, some (bytes "192.168.50.100"))) ∧
    (late.map fun W => (W.s.pheap 0).map fun y => y.connected) = some (some false) ∧ (late.map fun W => W.w.app.runPeer) = some none := by decide +kernel

/-- A PIN shown here, and one to be entered here. -/
example : (daemon.bind fun s => run (fun _ => 0) {} fine (world s)
    [.line (bytes "<3>P2P-PROV-DISC-SHOW-PIN 02:00:00:00:00:01 12345670 p2p_dev_addr=02:00:00:00:00:01 name='phone'"),
     .line (bytes "<3>P2P-GO-NEG-REQUEST 02:00:00:00:00:01 dev_passwd_id=5")]).map look =
    some ([bytes "P2P_CONNECT 02:00:00:00:00:01 12345670 display"], [.accept (bytes "02:00:00:00:00:01@3") (bytes "auto") []], none, some 2) := by decide +kernel

example :
    (daemon.bind fun s => run (fun _ => 0) {} fine (world s)
    [.line (bytes "<3>P2P-PROV-DISC-ENTER-PIN 02:00:00:00:00:01 p2p_dev_addr=02:00:00:00:00:01 name='phone'"),
     .line (bytes "<3>P2P-GO-NEG-REQUEST 02:00:00:00:00:01 dev_passwd_id=1")]).map look =
    some ([], [.accept (bytes "02:00:00:00:00:01@3") (bytes "auto") []], none, some 2) := by decide +kernel

end Verif.Phone
