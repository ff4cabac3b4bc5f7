import Verif.Proof.Whole
/-!
# Visits of a device: theorems

C148, C149.
-/
namespace Verif.Whole
open Verif.C Spec
open Verif.Settings (SSet)
open Verif.Rtsp (Moves)
open Phone.Spec (dialled Turn Between Kept)
open Phone (Live)

/-- **C149 (one visit).** -/
theorem visit_partial (st : SSet) (ext : List (List Byte × List Byte)) (mv : Moves) (hp : Sink.Spec.PortOk (Show.cfg st ext)) (hext : ext.length < 1000000) (jk : Nat → Byte) (env : Event.Env)
    (E : Sinkctl.Env) (he : env.spawn = true ∧ env.watch = true ∧ env.mem = true) {V : World} {p : Nat} {y : P2p.Peer} {q : Mirror.Peer} {ws : List (List Byte)} (h : Between V.W p y q ws)
    (hR : Show.Spec.Reached st ext mv E ⟨V.W.w, V.side⟩) {v : Visit} (hv : v.turn.Ok y.mac p V.W.s) (hd : ∀ d ∈ v.during, d.Ok) :
    Overrun st mv jk env E V (v.evs V.W.s.next) ∨ ∃ V' y' q', run st mv jk env E V (v.evs V.W.s.next) = some V' ∧ Between V'.W p y' q' ws ∧ y'.mac = y.mac ∧
      Show.Spec.Reached st ext mv E ⟨V'.W.w, V'.side⟩ ∧ V'.W.s.gheap = V.W.s.gheap ∧ V'.W.s.next = V.W.s.next + 1 ∧ Kept V.W.s V'.W.s p ∧
      (∃ d d', V'.W.sent = V.W.sent ++ [d, d'] ∧ Ask.Spec.hear d = .order (bytes "P2P_CONNECT") (y.mac :: ws) ∧ Ask.Spec.hear d' = .order (bytes "P2P_GROUP_REMOVE") [v.turn.iface]) ∧
      ∃ did n, V'.W.w.app.log = V.W.w.app.log ++ did ∧ did.filterMap dialled = List.replicate (n + 1) v.turn.source := by
  obtain ⟨zx, ops, hre⟩ := h.meet.reach
  have hI := P2p.reached hre
  obtain ⟨W1, y1, q1, x, d, e1, lv, m1, -, s1, hd1, l1, gh, nx, k1, -⟩ := Phone.turn_begins jk env E h hv he
  obtain ⟨b1, g1, r1⟩ := phone_steps hp hext _ hR e1
  rcases during_all hp hext (jk := jk) (env := env) v.during (V := ⟨W1, b1⟩) lv r1 hd with ⟨w2, b2, e2, c2, lv2, r2⟩ | ho
  · right
    obtain ⟨W3, y3, q3, d', e3, bt, m3, -, s3, hd3, ⟨did3, l3, dd3⟩, g3, gh3, nx3, k3⟩ := Phone.turn_ends jk env E lv2 (s0 := V.W.s) (m1 ▸ hv)
    obtain ⟨b3, e3', r3⟩ := phone_step hp hext (V := ⟨{ W1 with w := w2 }, b2⟩) r2 e3
    obtain ⟨t, n, t1, t2⟩ := c2.log
    refine ⟨⟨W3, b3⟩, y3, q3, ?_, bt, m3.trans m1, r3, Phone.groups_again hI gh g3 gh3, nx3.trans nx, ⟨fun r hr => (k3.1 r hr).trans (k1.1 r hr), k3.2.trans k1.2⟩, ⟨d, d', ?_, hd1, hd3⟩,
      [.accept (Daemon.peerLabel y.mac V.W.idx) (bytes "auto") [], .running q.id, .connect (some v.turn.source)] ++ t ++ did3, n, ?_, ?_⟩
    · unfold Visit.evs
      rw [run_append, run_append, g1, Option.bind_some, e2, Option.bind_some, run, e3']
      rfl
    · show W3.sent = _
      rw [s3]
      show W1.sent ++ _ = _
      rw [s1]; simp
    · show W3.w.app.log = _
      rw [l3]
      show w2.app.log ++ _ = _
      rw [t1]
      show W1.w.app.log ++ _ ++ _ = _
      rw [l1]; simp
    · rw [List.filterMap_append, List.filterMap_append, t2, dd3]
      rw [List.append_nil]
      rfl
  · left
    unfold Visit.evs
    exact Overrun.before (Overrun.after g1 ho) _

/-- **C149 (in part).** A device visits any number of times, and while it is connected it does whatever it likes on its connection: closes it, refuses it, sends any messages in any order. Unless it makes the sink
overrun its memory (C54, C89), each visit is like the first: its request is taken, its own address is connected to, at least once and no other, and at the end its group is removed; after the last one there is no session, no
player, no socket, and the device can come again. Missing: what is missing in C148. -/
theorem whatever_they_do_partial (st : SSet) (ext : List (List Byte × List Byte)) (mv : Moves) (hp : Sink.Spec.PortOk (Show.cfg st ext)) (hext : ext.length < 1000000) (jk : Nat → Byte) (env : Event.Env)
    (E : Sinkctl.Env) (he : env.spawn = true ∧ env.watch = true ∧ env.mem = true) (p : Nat) (mac : List Byte) (ws : List (List Byte)) (vs : List Visit) :
    ∀ {V : World} {y : P2p.Peer} {q : Mirror.Peer}, Between V.W p y q ws → y.mac = mac → Show.Spec.Reached st ext mv E ⟨V.W.w, V.side⟩ → (∀ v ∈ vs, v.turn.Ok mac p V.W.s ∧ ∀ d ∈ v.during, d.Ok) →
      Overrun st mv jk env E V (visits vs V.W.s.next) ∨ ∃ V' y' q' ds did, run st mv jk env E V (visits vs V.W.s.next) = some V' ∧ Between V'.W p y' q' ws ∧ y'.mac = mac ∧
        Show.Spec.Reached st ext mv E ⟨V'.W.w, V'.side⟩ ∧ V'.side.sink.fd = none ∧ V'.side.sink.connected = false ∧ V'.W.w.app.pid = none ∧
        V'.W.sent = V.W.sent ++ ds ∧ ds.map Ask.Spec.hear = vs.flatMap (fun v => [.order (bytes "P2P_CONNECT") (mac :: ws), .order (bytes "P2P_GROUP_REMOVE") [v.turn.iface]]) ∧
        V'.W.w.app.log = V.W.w.app.log ++ did ∧ Dials (vs.map (·.turn)) (did.filterMap dialled) ∧ Kept V.W.s V'.W.s p ∧ V'.W.s.gheap = V.W.s.gheap := by
  induction vs with
  | nil =>
    intro V y q h hm hR _
    obtain ⟨-, -, i3, -, -⟩ := Show.in_step st ext mv E hp hext hR
    obtain ⟨f1, f2, f3⟩ := i3 h.meet.idle
    exact .inr ⟨V, y, q, [], [], rfl, h, hm, hR, f1, f2, f3, by simp, rfl, by simp, .nil, ⟨fun _ _ => rfl, rfl⟩, rfl⟩
  | cons v vs ih =>
    intro V y q h hm hR hok
    obtain ⟨hv, hd⟩ := hok v List.mem_cons_self
    rcases visit_partial st ext mv hp hext jk env E he h hR (hm ▸ hv) hd with ho | ⟨V1, y1, q1, e1, b1, m1, r1, gh1, nx1, k1, ⟨d, d', s1, hd1, hd2⟩, did, n, l1, dl1⟩
    · exact .inl (Overrun.before ho _)
    · have hok1 : ∀ v ∈ vs, v.turn.Ok mac p V1.W.s ∧ ∀ d ∈ v.during, d.Ok := fun v' hv' =>
        ⟨Phone.ok_kept h.meet.peer b1.meet.peer m1 gh1 k1 (hok v' (List.mem_cons_of_mem _ hv')).1, (hok v' (List.mem_cons_of_mem _ hv')).2⟩
      rcases ih b1 (m1.trans hm) r1 hok1 with ho | ⟨V2, y2, q2, ds2, did2, e2, b2, m2, r2, f1, f2, f3, s2, hs2, l2, dl2, k2, gh2⟩
      · rw [nx1] at ho
        exact .inl (Overrun.after e1 ho)
      · refine .inr ⟨V2, y2, q2, [d, d'] ++ ds2, did ++ did2, ?_, b2, m2, r2, f1, f2, f3, ?_, ?_, ?_, ?_, ⟨fun r hr => (k2.1 r hr).trans (k1.1 r hr), k2.2.trans k1.2⟩, gh2.trans gh1⟩
        · rw [visits, run_append, e1, Option.bind_some, ← nx1]
          exact e2
        · rw [s2, s1]; simp
        · rw [List.map_append, hs2]
          simp [hd1, hd2, hm]
        · rw [l2, l1]; simp
        · rw [List.filterMap_append, dl1]
          exact .cons v.turn n dl2

/-- **C149 (the picture).** A device that is known asks; its address is connected to and the session plays as in C145. -/
theorem turn_plays_partial (st : SSet) (ext : List (List Byte × List Byte)) (mv : Moves) (hp : Sink.Spec.PortOk (Show.cfg st ext)) (hext : ext.length < 1000000) (hpl : Sink.Spec.Plain (Show.cfg st ext))
    (hst : Show.Spec.HasPlayer st) (jk : Nat → Byte) (env : Event.Env) (E : Sinkctl.Env) (he : env.spawn = true ∧ env.watch = true ∧ env.mem = true) {V : World} {p : Nat} {y : P2p.Peer} {q : Mirror.Peer}
    {ws : List (List Byte)} (h : Between V.W p y q ws) (hR : Show.Spec.Reached st ext mv E ⟨V.W.w, V.side⟩) {r : Turn} (hr : r.Ok y.mac p V.W.s)
    (hacc : E.acc (V.W.w.app.log.length + 2) = true) {n : Nat} (hfork : E.fork (V.W.w.app.log.length + 3) = some n)
    (mvS : Moves) (renv : Rtsp.Env) (sc : Session.Spec.Script) (u w : List Byte) (f : Nat × Nat × Nat) (ck : Nat) (hsrc : Show.Spec.Source (Show.cfg st ext) renv sc u w f ck) :
    ∃ V', run st mv jk env E V ((r.begins V.W.s.next).map .phone) = some V' ∧ V'.side.players = V.side.players ∧ Show.Spec.Plays st ext mv E ⟨V'.W.w, V'.side⟩ (n + 1) r.source mvS renv sc u w f ck := by
  obtain ⟨W1, y1, q1, x, d, e1, lv, m1, qi, s1, hd1, l1, gh, nx, k1, hop⟩ := Phone.turn_begins jk env E h hr he
  obtain ⟨b1, g1, r1⟩ := phone_steps hp hext _ hR e1
  obtain ⟨ces, k', c1, c2, c3, c4⟩ := Show.phone_plays hp hext hpl hst hR h.meet.idle e1 (by rw [lv.on.session]; simp) (hop.trans hacc)
    (a := V.W.w.app.log ++ [.accept (Daemon.peerLabel y.mac V.W.idx) (bytes "auto") [], .running q.id]) (gw := r.source) (by rw [l1]; simp) (by rw [l1, List.length_append]; exact hfork) mvS renv sc u w f ck hsrc
  have hk : k' = b1 := by
    obtain ⟨t, t1, t2⟩ := ctl_tied st mv E ces (Show.reached_K hp hext hR) c1 c2
    exact t2.trans (side_of hp hext _ hR g1 t1).symm
  subst hk
  exact ⟨⟨W1, k'⟩, g1, c3, c4⟩

/-- **C149 (in part).** After any number of visits in which it did whatever it liked, a device that behaves is shown: one player is started for it, for what it and the sink agree on. -/
theorem still_shown_partial (st : SSet) (ext : List (List Byte × List Byte)) (mv : Moves) (hp : Sink.Spec.PortOk (Show.cfg st ext)) (hext : ext.length < 1000000) (hpl : Sink.Spec.Plain (Show.cfg st ext))
    (hst : Show.Spec.HasPlayer st) (jk : Nat → Byte) (env : Event.Env) (E : Sinkctl.Env) (he : env.spawn = true ∧ env.watch = true ∧ env.mem = true) {V V' : World} {p : Nat} {y : P2p.Peer} {q : Mirror.Peer}
    {ws : List (List Byte)} (h : Between V.W p y q ws) (hR : Show.Spec.Reached st ext mv E ⟨V.W.w, V.side⟩) (vs : List Visit) (hvs : ∀ v ∈ vs, v.turn.Ok y.mac p V.W.s ∧ ∀ d ∈ v.during, d.Ok)
    (hrun : run st mv jk env E V (visits vs V.W.s.next) = some V') {r : Turn} (hr : r.Ok y.mac p V.W.s)
    (hacc : E.acc (V'.W.w.app.log.length + 2) = true) {n : Nat} (hfork : E.fork (V'.W.w.app.log.length + 3) = some n)
    (mvS : Moves) (renv : Rtsp.Env) (sc : Session.Spec.Script) (u w : List Byte) (f : Nat × Nat × Nat) (ck : Nat) (hsrc : Show.Spec.Source (Show.cfg st ext) renv sc u w f ck) :
    ∃ V'', run st mv jk env E V' ((r.begins V'.W.s.next).map .phone) = some V'' ∧ V''.side.players = V'.side.players ∧ Show.Spec.Plays st ext mv E ⟨V''.W.w, V''.side⟩ (n + 1) r.source mvS renv sc u w f ck := by
  rcases whatever_they_do_partial st ext mv hp hext jk env E he p y.mac ws vs h rfl hR hvs with ⟨pre, e, post, U, e1, e2, e3⟩ | ⟨V1, y1, q1, ds, did, e1, b1, m1, r1, -, -, -, -, -, -, -, kp, gh⟩
  · exfalso
    rw [e1, run_append, e2, Option.bind_some, run] at hrun
    have : step st mv jk env E U (.sink e) = none := by
      simp only [step, Show.step]
      split
      · rename_i ho
        cases e <;> simp only [Show.own, Bool.false_eq_true] at ho
        · cases e3
        · cases e3
      · rw [e3]; rfl
    rw [this] at hrun
    cases hrun
  · rw [hrun] at e1
    cases e1
    exact turn_plays_partial st ext mv hp hext hpl hst jk env E he b1 r1 (m1.symm ▸ Phone.ok_kept h.meet.peer b1.meet.peer m1 gh kp hr) hacc hfork mvS renv sc u w f ck hsrc

/-! ## Concrete cases -/

/-- The daemon knows its own address and the phone, the controller runs on the link and has found the phone. -/
def begin_ : Option World := Phone.daemon9.bind fun s => Show.waiting.map fun U => ⟨⟨3, s, U.ctl, []⟩, U.side⟩

/-- A session as it should be. -/
def good : List During := .source (.io true false false true true) :: (Show.said Session.script).filterMap fun e => match e with
  | .sink e => some (.source e)
  | _ => none

/-- The phone visits again and again: it is shown, it closes its connection at once, it never accepts one and the timer runs out, the DHCP client ends. -/
def several : List Visit := [⟨.theirs Phone.first, good⟩, ⟨.ours Phone.second, [.source (.io true false false true true), .source .gone]⟩, ⟨.theirs Phone.first, [.source (.io true true true false false), .timer, .timer]⟩,
  ⟨.theirs { Phone.first with ending := .closed }, []⟩]

/-- What is seen after that. -/
def after : Option World := begin_.bind fun V => run Show.st0 (fun _ => true) (fun _ => 0) {} Sinkctl.fine V (visits several V.W.s.next)

example : after.map (fun V => (V.W.sent, V.W.w.app.runPeer, V.W.w.app.pid, V.side.sink.fd)) =
    some ([bytes "P2P_CONNECT 02:00:00:00:00:01 pbc", bytes "P2P_GROUP_REMOVE p2p-wlan0-0", bytes "P2P_CONNECT 02:00:00:00:00:01 pbc", bytes "P2P_GROUP_REMOVE p2p-wlan0-1",
      bytes "P2P_CONNECT 02:00:00:00:00:01 pbc", bytes "P2P_GROUP_REMOVE p2p-wlan0-0", bytes "P2P_CONNECT 02:00:00:00:00:01 pbc", bytes "P2P_GROUP_REMOVE p2p-wlan0-0"], none, none, none) := by decide +kernel

example : after.map (fun V => V.side.players.map (·.2)) = some [some (["miracle-gst", "-a", "-p", "1991", "-r", "1920x1080"].map bytes)] := by decide +kernel

example : after.map (fun V => V.W.w.app.log.filterMap dialled) = some [bytes "192.168.49.1", bytes "192.168.50.100", bytes "192.168.49.1", bytes "192.168.49.1", bytes "192.168.49.1"] := by decide +kernel

/-- The hypotheses about both programs are met. -/
example : ∃ V y q, begin_ = some V ∧ Between V.W 0 y q [bytes "pbc"] ∧ y.mac = bytes "02:00:00:00:00:01" ∧ Show.Spec.Reached Show.st0 [] (fun _ => true) Sinkctl.fine ⟨V.W.w, V.side⟩ :=
  ⟨_, _, _, rfl, ⟨⟨⟨false, [.attached, .ready, .ownMac (bytes "0a:00:00:00:00:09"), .found (bytes "02:00:00:00:00:01") [0]], rfl⟩, by decide +kernel, by decide +kernel, rfl, by decide +kernel, by decide +kernel, rfl,
      by decide +kernel, by decide +kernel, by decide +kernel, by decide +kernel⟩, .inl (by decide +kernel), (fun _ h => nomatch h), by decide +kernel, ⟨by decide +kernel, by decide +kernel⟩, by decide +kernel,
      by decide +kernel, by decide +kernel, ⟨_, List.mem_cons_self, by decide +kernel⟩⟩, by decide +kernel,
    ⟨[.ctl (Sinkctl.link3 true), .ctl (.run (bytes "wlan0")), .ctl Show.finds], (by
      intro e he
      simp only [List.mem_cons, List.not_mem_nil, or_false] at he
      rcases he with rfl | rfl | rfl <;> exact True.intro), rfl⟩⟩

end Verif.Whole
