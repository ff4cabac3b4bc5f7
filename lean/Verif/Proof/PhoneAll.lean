import Verif.Proof.PhoneUp
import Verif.Props.Ask
/-! # Helper lemmas: the request of a device and what follows -/
namespace Verif.Phone
open Verif.C Spec

/-- A line with a request. -/
theorem request_line (jk : Nat → Byte) (env : Event.Env) (E : Sinkctl.Env) {W : World} {p : Nat} {y : P2p.Peer} {q : Mirror.Peer} (h : Meet W p y q) {d : List Byte}
    {ps : List Event.Spec.Piece} (hl : Line d (bytes "P2P-GO-NEG-REQUEST") ps) (ha : Event.Spec.arg 0 ps = some y.mac) :
    step jk env E W (.line d) = exchange jk E W ((proposed W.s p y).emit (.negotiation p)) := by
  obtain ⟨zx, ops, hre⟩ := h.reach
  exact line_step jk env E W hl ⟨by decide, by decide +kernel⟩ (fun x => .request ps _ ha) (negotiation_step (P2p.reached hre) h.bus h.peer h.shown h.alone)

/-- The daemon with the request on its way. -/
def taking (s : P2p.S) (p : Nat) (y : P2p.Peer) (t : List Byte) : P2p.S :=
  { proposed s p y with pending := some p, log := s.log ++ [.negotiation p, .connect y.mac t (if t = bytes "pbc" then none else (proposal y).pin), .result 0] }

/-- The daemon that refused. -/
def refusing (s : P2p.S) (p : Nat) (y : P2p.Peer) (r : Int) : P2p.S :=
  { proposed s p y with log := s.log ++ [.negotiation p, .result r] }

theorem call_step {W : World} {p : Nat} {y : P2p.Peer} {q : Mirror.Peer} (h : Meet W p y q) {t : List Byte} (ht : (proposal y).prov = some t) :
    P2p.Inv ((proposed W.s p y).emit (.negotiation p)) ∧
    ((proposed W.s p y).emit (.negotiation p)).step (.connect y.mac none none true) = some (
      if W.s.pending.isSome ∧ W.s.pending ≠ some p then refusing W.s p y (-114)
      else if answer y.prov y.pin = none then refusing W.s p y (-EINVAL)
      else taking W.s p y t) := by
  obtain ⟨zx, ops, hre⟩ := h.reach
  have hI := Inv_step (P2p.reached hre) (negotiation_step (P2p.reached hre) h.bus h.peer h.shown h.alone)
  refine ⟨hI, ?_⟩
  have hs := proposal_same y
  have := connect_step hI (y := proposal y) (p := p) h.running (P2p.upd_same _ _ _) (hs.2.1.trans h.shown) (hs.2.2.1.trans h.alone) ht
  rw [hs.1, proposal_answer] at this
  rw [this]
  have e1 : ((proposed W.s p y).emit (.negotiation p)).pending = W.s.pending := rfl
  rw [e1]
  congr 1
  split
  · simp [refusing, P2p.S.emit, proposed, P2p.S.setPeer]
  split
  · simp [refusing, P2p.S.emit, proposed, P2p.S.setPeer]
  · simp [taking, P2p.S.emit, proposed, P2p.S.setPeer]

/-- What is sent. -/
theorem sent_words (jk : Nat → Byte) {y : P2p.Peer} (hm : Wifid.Canon y.mac) (hl : y.mac.length ≤ 1000000) {t : List Byte} (ht : (proposal y).prov = some t) (hp : PinOk y.pin)
    {ws : List (List Byte)} (ha : answer y.prov y.pin = some ws) :
    ∃ d, Ask.connect jk y.mac (some t) (if t = bytes "pbc" then none else (proposal y).pin) none none = some (0, some d) ∧
      Ask.Spec.hear d = .order (bytes "P2P_CONNECT") (y.mac :: ws) := by
  have hp' := proposal_pin hp
  rw [← proposal_answer, ht] at ha
  have hu := canon_unquoted hm
  by_cases h1 : t = bytes "pbc"
  · subst h1
    have : ws = [bytes "pbc"] := by
      unfold answer at ha
      simpa using ha.symm
    subst this
    rw [if_pos rfl]
    exact Verif.Ask.Props.connect_button jk y.mac (some (bytes "pbc")) none none none hu hl rfl
  · rw [if_neg h1]
    unfold answer at ha
    simp only [if_neg h1] at ha
    split at ha
    · rename_i h2
      split at ha
      · cases ha
      · rename_i k hk
        split at ha
        · cases ha
        · rename_i hne
          injection ha with ha
          subst ha
          have := (Verif.Ask.Props.connect_pin_partial jk y.mac (some t) (some k) none none t k hu hl (hp' k hk).2 rfl h2 rfl hne).2.mpr (hp' k hk).1
          rw [hk]
          exact this
    · cases ha

theorem canon_short {m : List Byte} (h : Wifid.Canon m) : m.length ≤ 1000000 := by
  obtain ⟨bs, hb, rfl⟩ := h
  match bs, hb with
  | [a, b, c, d, e, f], _ => simp [Mac.format, Mac.hex2]

/-- A request that is taken. -/
theorem taken (jk : Nat → Byte) (env : Event.Env) (E : Sinkctl.Env) {W : World} {p : Nat} {y : P2p.Peer} {q : Mirror.Peer} (h : Meet W p y q) {d : List Byte}
    {ps : List Event.Spec.Piece} (hl : Line d (bytes "P2P-GO-NEG-REQUEST") ps) (ha : Event.Spec.arg 0 ps = some y.mac) (hf : W.s.pending = none ∨ W.s.pending = some p)
    (hp : PinOk y.pin) {ws : List (List Byte)} (hw : answer y.prov y.pin = some ws) :
    ∃ t d', (proposal y).prov = some t ∧ Ask.Spec.hear d' = .order (bytes "P2P_CONNECT") (y.mac :: ws) ∧
      step jk env E W (.line d) = some { idx := W.idx, s := taking W.s p y t, w := accepting q W.w, sent := W.sent ++ [d'] } ∧ P2p.Inv (taking W.s p y t) := by
  obtain ⟨t, ht⟩ := proposal_prov y
  obtain ⟨zx, ops, hre⟩ := h.reach
  have hm := canon_mac (P2p.reached hre) h.peer
  obtain ⟨d', h1, h2⟩ := sent_words jk hm (canon_short hm) ht hp hw
  obtain ⟨hI, hc⟩ := call_step h ht
  rw [if_neg (by rcases hf with e | e <;> simp [e]), if_neg (by rw [hw]; simp)] at hc
  refine ⟨t, d', ht, h2, ?_, Inv_step hI hc⟩
  rw [request_line jk env E h hl ha]
  refine request_exchange jk E h ht hc ?_
  have : (taking W.s p y t).log = W.s.log ++ [.negotiation p, .connect y.mac t (if t = bytes "pbc" then none else (proposal y).pin), .result 0] := rfl
  rw [this, drop_added]
  simp only [requests, request, h1, Option.map_some, Option.toList_some, Option.bind_some, List.nil_append, List.append_nil]

/-- A request that is refused. -/
theorem refused (jk : Nat → Byte) (env : Event.Env) (E : Sinkctl.Env) {W : World} {p : Nat} {y : P2p.Peer} {q : Mirror.Peer} (h : Meet W p y q) {d : List Byte}
    {ps : List Event.Spec.Piece} (hl : Line d (bytes "P2P-GO-NEG-REQUEST") ps) (ha : Event.Spec.arg 0 ps = some y.mac)
    (hf : (∃ o, W.s.pending = some o ∧ o ≠ p) ∨ answer y.prov y.pin = none) :
    ∃ r, step jk env E W (.line d) = some { idx := W.idx, s := refusing W.s p y r, w := accepting q W.w, sent := W.sent } := by
  obtain ⟨t, ht⟩ := proposal_prov y
  obtain ⟨hI, hc⟩ := call_step h ht
  have hc : ∃ r, ((proposed W.s p y).emit (.negotiation p)).step (.connect y.mac none none true) = some (refusing W.s p y r) := by
    rw [hc]
    by_cases hb : W.s.pending.isSome ∧ W.s.pending ≠ some p
    · rw [if_pos hb]; exact ⟨_, rfl⟩
    · rw [if_neg hb]
      rcases hf with ⟨o, e, hne⟩ | hf
      · exact absurd ⟨by simp [e], by simp [e, hne]⟩ hb
      · rw [if_pos hf]; exact ⟨_, rfl⟩
  obtain ⟨r, hc⟩ := hc
  refine ⟨r, ?_⟩
  rw [request_line jk env E h hl ha]
  have := request_exchange jk E h ht hc (ds := []) (by
    have : (refusing W.s p y r).log = W.s.log ++ [.negotiation p, .result r] := rfl
    rw [this, drop_added]
    rfl)
  rwa [List.append_nil] at this

/-- A proposal of a method is heard. -/
theorem heard (jk : Nat → Byte) (env : Event.Env) (E : Sinkctl.Env) {W : World} {p : Nat} {y : P2p.Peer} {q : Mirror.Peer} (h : Meet W p y q) {d name : List Byte}
    {ps : List Event.Spec.Piece} (hl : Line d name ps) (hn : Wpas.Spec.Plain name) {w : List Byte} {k : Option (List Byte)}
    (ho : ∀ x, Event.Spec.Says env x name ps (.op (.provision y.mac w k true))) :
    ∃ W1, step jk env E W (.line d) = some W1 ∧ Meet W1 p { y with prov := some w, pin := k } q ∧ W1.sent = W.sent ∧ W1.s.pending = W.s.pending ∧ W1.w = W.w ∧
      W1.idx = W.idx ∧ W1.s.gheap = W.s.gheap ∧ W1.s.next = W.s.next := by
  obtain ⟨zx, ops, hre⟩ := h.reach
  have hs := provision_step (P2p.reached hre) h.bus h.peer h.shown w k
  rw [line_step jk env E W hl hn ho hs]
  generalize hS : (W.s.setPeer p { y with prov := some w, pin := k }).emit (.provision p) = S at hs
  have hlog : S.log = W.s.log ++ [.provision p] := by rw [← hS]; rfl
  have hpp : S.pheap p = some { y with prov := some w, pin := k } := by rw [← hS]; exact P2p.upd_same _ _ _
  have h1 : told W.idx W.s S = [.msg (.prov (Wifid.peerPath y.mac W.idx) w (k.getD []))] := by
    unfold told
    rw [hlog, drop_added]
    simp only [List.filterMap_cons, signal, hpp, Option.bind_some, asks, Option.map_some, List.filterMap_nil, List.map_cons, List.map_nil]
  have h2 : calls W.idx W.w W.w = [] := by
    unfold calls
    rw [List.drop_length]
    rfl
  refine ⟨{ W with s := S }, ?_, ⟨⟨zx, ops ++ [.provision y.mac w k true], ?_⟩, ?_, ?_, hpp, h.shown, h.alone, h.known, h.label, h.link, h.display, h.idle⟩,
    rfl, by rw [← hS]; rfl, rfl, rfl, by rw [← hS]; rfl, by rw [← hS]; rfl⟩
  · unfold exchange
    rw [h1, prov_run, Option.bind_some, h2]
    simp only [P2p.S.run, Option.bind_some]
    rw [hlog, drop_added]
    simp only [requests, request, Option.map_some, Option.bind_some, List.append_nil]
  · rw [P2p.run_append, hre]
    simp [P2p.S.run, hs]
  · rw [← hS]; exact h.bus
  · rw [← hS]; exact h.running

/-- A line of the helper that is not announced. -/
theorem quiet_helper (jk : Nat → Byte) (env : Event.Env) (E : Sinkctl.Env) (W : World) {g : Nat} {l : List Byte} {s1 : P2p.S}
    (h : W.s.step (.comm g (.line l) true true) = some s1) (hl : s1.log = W.s.log) : step jk env E W (.helper g l) = some { W with s := s1 } := by
  simp only [step, h, Option.bind_some]
  exact quiet_exchange jk E W (o := []) (by rw [hl, List.append_nil]) (by simp)

/-- What the controller has to be like. -/
structure Ready (W : World) (m : List Byte) (q : Mirror.Peer) : Prop where
  known : W.w.peerAt (Wifid.peerPath m W.idx) = some q
  link : W.w.app.runLink = some q.l
  display : q.wfd.getD [] ≠ []
  idle : W.w.app.runPeer = none
  off : q.connected = false

/-- The daemon then. -/
def reached (s : P2p.S) (p : Nat) (y : P2p.Peer) (gw : List Byte) : P2p.S :=
  (s.setPeer p { y with remote := some gw, connected := true }).emit (.connected p true)

/-- The announcement reaches the controller. -/
theorem connected_exchange (jk : Nat → Byte) (E : Sinkctl.Env) {W : World} {S : P2p.S} {g p : Nat} {x : P2p.Grp} {y : P2p.Peer} {q : Mirror.Peer} {a r : List Byte}
    (hlog : S.log = W.s.log ++ [.connected p true]) (hpp : S.pheap p = some y) (hgg : S.gheap g = some x) (hi : y.g = some g) (ha : x.localAddr = some a)
    (hre : y.remote = some r) (hc : y.connected = true) (hr : Ready W y.mac q) :
    exchange jk E W S = some { idx := W.idx, s := S, w := upCtl q (W.w.putPeer (upPeer q x.ifname a r)), sent := W.sent } := by
  have h1 : told W.idx W.s S = [.msg (.changed (Wifid.peerPath y.mac W.idx) Mirror.peerIf
      [(bytes "Connected", .b true), (bytes "Interface", .s x.ifname), (bytes "LocalAddress", .s a), (bytes "RemoteAddress", .s r)])] := by
    unfold told
    rw [hlog, drop_added]
    simp only [List.filterMap_cons, signal, hpp, Option.map_some, List.filterMap_nil, List.map_cons, List.map_nil]
    rw [four_props S y hi hgg ha hre hc]
  unfold exchange
  rw [h1, conn_run E hr.known hr.link hr.display hr.idle hr.off, Option.bind_some]
  have h2 : calls W.idx W.w (upCtl q (W.w.putPeer (upPeer q x.ifname a r))) = [] := by
    unfold calls
    show ((W.w.app.log ++ [_]).drop _).filterMap _ = _
    rw [drop_added]
    rfl
  rw [h2]
  simp only [P2p.S.run, Option.bind_some]
  rw [hlog, drop_added]
  simp only [requests, request, Option.map_some, Option.bind_some, List.append_nil]

/-- The line with the gateway. -/
theorem gateway_line (jk : Nat → Byte) (env : Event.Env) (E : Sinkctl.Env) {W : World} {g p : Nat} {x : P2p.Grp} {y : P2p.Peer} {q : Mirror.Peer} (h : Own W.s g p x y)
    (hr : Ready W y.mac q) {a gw : List Byte} (ha : x.localAddr = some a) (hg : P2p.Spec.Text gw) :
    step jk env E W (.helper g (ch 'G' :: ch ':' :: gw)) =
      some { idx := W.idx, s := reached W.s p y gw, w := upCtl q (W.w.putPeer (upPeer q x.ifname a gw)), sent := W.sent } := by
  have hs := h.lineG (by rw [ha]; simp) (P2p.reads_text (ch 'G') hg)
  simp only [step, hs, Option.bind_some]
  exact connected_exchange jk E (S := reached W.s p y gw) rfl (P2p.upd_same _ _ _) h.grp h.isin ha rfl rfl hr

theorem run_append (jk : Nat → Byte) (env : Event.Env) (E : Sinkctl.Env) : ∀ (es fs : List Ev) (W : World),
    run jk env E W (es ++ fs) = (run jk env E W es).bind fun W => run jk env E W fs
  | [], _, _ => rfl
  | e :: t, fs, W => by
    simp only [List.cons_append, run]
    cases step jk env E W e with
    | none => rfl
    | some W1 => exact run_append jk env E t fs W1

/-- The daemon in it stays one that can be reached. -/
theorem step_reach {jk : Nat → Byte} {env : Event.Env} {E : Sinkctl.Env} {W W' : World} {e : Ev} (h : step jk env E W e = some W') (hr : ∃ zx ops, (P2p.start zx).run ops = some W.s) :
    ∃ zx ops, (P2p.start zx).run ops = some W'.s := by
  obtain ⟨zx, ops, hr⟩ := hr
  have more : ∀ {s1 : P2p.S} (os : List P2p.Op), W.s.run os = some s1 → ∀ {V : World}, exchange jk E W s1 = some V → ∃ zx ops, (P2p.start zx).run ops = some V.s := by
    intro s1 os hs V hx
    unfold exchange at hx
    obtain ⟨w1, -, hx⟩ := Option.bind_eq_some_iff.mp hx
    obtain ⟨s2, h2, hx⟩ := Option.bind_eq_some_iff.mp hx
    obtain ⟨ds, -, rfl⟩ := Option.map_eq_some_iff.mp hx
    refine ⟨zx, ops ++ (os ++ calls W.idx W.w w1), ?_⟩
    rw [P2p.run_append, hr, Option.bind_some, P2p.run_append, hs]
    exact h2
  have one : ∀ {s1 : P2p.S} {o : P2p.Op}, W.s.step o = some s1 → W.s.run [o] = some s1 := by
    intro s1 o hs
    simp only [P2p.S.run, hs, Option.bind_some]
  cases e with
  | line d =>
    simp only [step] at h
    split at h
    · cases h
    · cases h; exact ⟨zx, ops, hr⟩
    · obtain ⟨s1, h1, h2⟩ := Option.bind_eq_some_iff.mp h
      obtain ⟨a, -, h1⟩ := Option.bind_eq_some_iff.mp h1
      cases a with
      | nothing => cases h1; exact more [] rfl h2
      | scanStopped => cases h1; exact more [] rfl h2
      | report i => exact more _ (one h1) h2
      | found i _ => exact more _ (one h1) h2
      | op o => exact more _ (one h1) h2
  | helper g l =>
    simp only [step] at h
    obtain ⟨s1, h1, h2⟩ := Option.bind_eq_some_iff.mp h
    exact more _ (one h1) h2
  | helperGone g died =>
    simp only [step] at h
    obtain ⟨s1, h1, h2⟩ := Option.bind_eq_some_iff.mp h
    exact more _ (one h1) h2
  | timer =>
    simp only [step] at h
    obtain ⟨w, -, rfl⟩ := Option.map_eq_some_iff.mp h
    exact ⟨zx, ops, hr⟩

theorem run_reach {jk : Nat → Byte} {env : Event.Env} {E : Sinkctl.Env} : ∀ (es : List Ev) {W W' : World}, run jk env E W es = some W' →
    (∃ zx ops, (P2p.start zx).run ops = some W.s) → ∃ zx ops, (P2p.start zx).run ops = some W'.s
  | [], _, _, h, hr => by cases h; exact hr
  | e :: es, _, _, h, hr => by
    rw [run] at h
    obtain ⟨W1, h1, h2⟩ := Option.bind_eq_some_iff.mp h
    exact run_reach es h2 (step_reach h1 hr)

/-- The lines of a lease. -/
theorem lease_lines (jk : Nat → Byte) (env : Event.Env) (E : Sinkctl.Env) {W : World} {g p : Nat} {x : P2p.Grp} {y : P2p.Peer} {q : Mirror.Peer} (h : Own W.s g p x y)
    (hr : Ready W y.mac q) (hy : y.remote = none) {old : Option (List Byte)} {a gw : List Byte} {subnet dns gateway : List (List Byte)}
    (ha : P2p.Spec.Text a) (hs : ∀ t ∈ subnet, P2p.Spec.Text t) (hd : ∀ t ∈ dns, P2p.Spec.Text t) (hg : P2p.Spec.Text gw)
    (hnew : old ≠ some (a ++ ch '/' :: subnet.headD (bytes "24"))) :
    ∃ s', run jk env E W ((P2p.clientLease old (some a) subnet dns (gw :: gateway) true true).2.1.map (.helper g)) =
        some { idx := W.idx, s := s', w := upCtl q (W.w.putPeer (upPeer q x.ifname a gw)), sent := W.sent } ∧
      s'.pheap p = some { y with remote := some gw, connected := true } ∧ s' = reached (W.s.setGrp g { x with localAddr := some a }) p y gw := by
  have hm : P2p.Spec.Text (subnet.headD (bytes "24")) := by
    cases subnet with
    | nil => exact ⟨by decide, by decide, by decide⟩
    | cons m t => exact hs m List.mem_cons_self
  obtain ⟨e1, o1⟩ := h.lineL hy (P2p.reads_text (ch 'L') ha)
  have q1 := quiet_helper jk env E W e1 rfl
  have e2 := o1.lineO hy (P2p.reads_text (ch 'S') hm) (by decide)
  have q2 := quiet_helper jk env E { W with s := W.s.setGrp g { x with localAddr := some a } } e2 rfl
  have q3 : ∀ d, P2p.Spec.Text d → step jk env E { W with s := W.s.setGrp g { x with localAddr := some a } } (.helper g (ch 'D' :: ch ':' :: d)) =
      some { W with s := W.s.setGrp g { x with localAddr := some a } } := fun d hd =>
    quiet_helper jk env E { W with s := W.s.setGrp g { x with localAddr := some a } } (o1.lineO hy (P2p.reads_text (ch 'D') hd) (by decide)) rfl
  have q4 := gateway_line jk env E (W := { W with s := W.s.setGrp g { x with localAddr := some a } }) o1 ⟨hr.known, hr.link, hr.display, hr.idle, hr.off⟩ rfl hg
  refine ⟨reached (W.s.setGrp g { x with localAddr := some a }) p y gw, ?_, P2p.upd_same _ _ _, rfl⟩
  unfold P2p.clientLease
  simp only [if_neg hnew]
  rw [if_neg (by simp)]
  generalize subnet.headD (bytes "24") = m at *
  cases dns with
  | nil =>
    simp only [List.head?_nil, List.head?_cons, Option.toList_none, Option.toList_some, List.map_nil, List.map_cons, List.cons_append, List.nil_append, run, q1, q2, q4, Option.bind_some]
  | cons d dt =>
    simp only [List.head?_cons, Option.toList_some, List.map_nil, List.map_cons, List.cons_append, List.nil_append, run, q1, q2, q3 d (hd d List.mem_cons_self), q4, Option.bind_some]

/-- The group starts. -/
theorem started_line (jk : Nat → Byte) (env : Event.Env) (E : Sinkctl.Env) {W : World} (hI : P2p.Inv W.s) (hb : W.s.bus = true) {p : Nat} {y : P2p.Peer}
    (hp : W.s.pheap p = some y) (hg : y.g = none) {d i role : List Byte} {ps : List Event.Spec.Piece} (hl : Line d (bytes "P2P-GROUP-STARTED") ps)
    (ha : Event.Spec.get (bytes "go_dev_addr") ps = some y.mac) (h0 : Event.Spec.arg 0 ps = some i) (h1 : Event.Spec.arg 1 ps = some role) (hro : role ≠ bytes "GO")
    (he : env.spawn = true ∧ env.watch = true) (hn : ∀ g x, W.s.gheap g = some x → x.ifname ≠ i) :
    step jk env E W (.line d) = some { W with s := joined W.s p y i } := by
  rw [line_step jk env E W hl ⟨by decide, by decide +kernel⟩ (fun x => .started ps _ _ _ ha h0 h1)
    (s1 := joined W.s p y i) (by rw [he.1, he.2, decide_eq_false hro]; exact started_step hI hb hp hg hn)]
  exact quiet_exchange jk E W (o := [.dhcpClient W.s.next]) rfl (by simp [signal, request])

end Verif.Phone
