import Verif.Proof.ShowPhone
import Verif.Props.Session
import Verif.Props.Phone
import Verif.Props.Sinkctl
/-! # The sink controller, its sink and its player (C144, C145) -/
namespace Verif.Show
open Verif.C
open Verif.Sinkctl (Act)
open Verif.Rtsp (Msg Moves REMOTE)
open Verif.Rtsp.Spec (Sendable headerCount makeAll stream)
open Verif.Settings (SSet)
open Verif.Show.Spec (Reached Tells HasPlayer)

/-! ## C144: a player for the resolution that was agreed -/

/-- **C144: the two keep in step.** Whatever happens, the controller has the sink as open exactly when it has a socket, and as connected exactly when it is; without a session there is neither a socket nor
a player; while there is a socket it belongs to the latest attempt to connect, and its address is the one kept for remote input; the players started are those the controller started. -/
theorem in_step (st : SSet) (ext : List (List Byte × List Byte)) (mv : Moves) (E : Sinkctl.Env) (hp : Sink.Spec.PortOk (cfg st ext)) (hext : ext.length < 1000000) {W : World} (h : Reached st ext mv E W) :
    (W.ctl.app.isOpen = true ↔ W.side.sink.fd ≠ none) ∧ (W.side.sink.connected = true ↔ W.ctl.app.isOpen = true ∧ W.ctl.app.conn = true) ∧
      (W.ctl.app.runPeer = none → W.side.sink.fd = none ∧ W.side.sink.connected = false ∧ W.ctl.app.pid = none) ∧
      (W.side.sink.fd ≠ none → Spec.latest W.ctl.app.log = some (.connect (some W.side.target))) ∧ W.side.players.map (·.1) = Spec.spawned W.ctl.app.log := by
  have hk := reached_K hp hext h
  obtain ⟨s, -, d1, d2, -, d3, -, -⟩ := reached_disc h
  have hfd : W.ctl.app.isOpen = true ↔ W.side.sink.fd ≠ none := by rw [hk.opn]; cases W.side.sink.fd <;> simp
  refine ⟨hfd, hk.con, ?_, fun x => hk.tgt (hfd.mpr x), hk.ids⟩
  intro hn
  have ho : ¬ W.ctl.app.isOpen = true := fun x => hk.ses x hn
  refine ⟨?_, ?_, ?_⟩
  · exact Decidable.byContradiction fun x => ho (hfd.mpr x)
  · cases hc : W.side.sink.connected with
    | false => rfl
    | true => exact absurd (hk.con.mp hc).1 ho
  · rw [← d2]
    exact Decidable.byContradiction fun x => d3 x (d1.trans hn)

/-- **C144: what a player is told.** If something starts a player, then it is a SET_PARAMETER of the source over a standing connection, with formats that name a resolution of the tables; no player was running; and exactly one
is started, whose options are the port the source is asked to send to and that resolution (and, for remote input, the address of the source). -/
theorem player_told (st : SSet) (ext : List (List Byte × List Byte)) (mv : Moves) (E : Sinkctl.Env) (hp : Sink.Spec.PortOk (cfg st ext)) (hext : ext.length < 1000000) (hst : HasPlayer st) {W W' : World}
    (h : Reached st ext mv E W) {e : Ev} (hd : Spec.Delivered e) (hs : step st mv E W e = some W') (hne : W'.side.players ≠ W.side.players) :
    ∃ m c v hh x y pid argv, e = .sink (.msg m) ∧ m.type = .request ∧ m.method = bytes "SET_PARAMETER" ∧ Sink.Spec.formats m = some (some (c, v, hh)) ∧ Wfd.Spec.Chosen c v hh x y ∧
      W.side.sink.fd ≠ none ∧ W.ctl.app.pid = none ∧ W'.ctl.app.pid = some pid ∧ W'.ctl.app.log = W.ctl.app.log ++ [.spawn pid] ∧
      W'.side.players = W.side.players ++ [(pid, some argv)] ∧ Tells argv (cfg st ext).port W'.side.target x y ∧ Spec.latest W.ctl.app.log = some (.connect (some W'.side.target)) := by
  have hk := reached_K hp hext h
  cases e with
  | ctl e => exact absurd (ctl_step hk hs).2 hne
  | sink e =>
    cases ho : own e with
    | true =>
      simp only [step, ho, if_true] at hs
      cases hs; exact absurd rfl hne
    | false =>
      have hs' := hs
      simp only [step, ho, Bool.false_eq_true, if_false] at hs'
      obtain ⟨s, h1, -⟩ := Option.bind_eq_some_iff.mp hs'
      obtain ⟨-, hh⟩ := sink_step hp hext hk hd ho h1 hs
      cases hh with
      | quiet _ q => exact absurd (by rw [q]) hne
      | up _ _ _ q => exact absurd (by rw [q]) hne
      | down _ q => exact absurd q hne
      | player m c v hh pid q1 q2 q3 q4 q5 q6 q7 q8 q9 q10 =>
        obtain ⟨argv, a1, a2⟩ := argv_tells hst s.uibcEnabled W.side.target s.uibcPort (chosen_pos q5).1 (chosen_pos q5).2
        refine ⟨m, c, v, hh, s.hres, s.vres, pid + 1, argv, by rw [q1], q2, q3, q4, q5, ?_, q7, by rw [q9], by rw [q9], ?_, by rw [q10]; exact a2, ?_⟩
        · have := hk.opn; rw [q6] at this
          intro x; rw [x] at this; cases this
        · rw [q10, ← a1]; rfl
        · rw [q10]; exact hk.tgt q6

theorem lookup_none {α : Type} (l : List (List Byte × α)) (n : List Byte) (h : n ∉ l.map (·.1)) : l.lookup n = none := by
  induction l with
  | nil => rfl
  | cons p l ih =>
    simp only [List.map_cons, List.mem_cons, not_or] at h
    rw [List.lookup_cons]
    have : (n == p.1) = false := by simpa using h.1
    rw [this]
    exact ih h.2

/-- **C144: what the source is told are the user's settings.** The masks of the formats and the port are those of the settings, unless an extension replaces them; remote input is offered exactly if it is wanted;
extensions are offered as they are. -/
theorem announces (st : SSet) (ext : List (List Byte × List Byte)) :
    (bytes "wfd_video_formats" ∉ ext.map (·.1) → Sink.Spec.supported (cfg st ext) (bytes "wfd_video_formats") =
      some (bytes "00 00 03 10 " ++ Rtsp.Spec.hex8 st.cea ++ [32] ++ Rtsp.Spec.hex8 st.vesa ++ [32] ++ Rtsp.Spec.hex8 st.hh ++ bytes " 00 0000 0000 10 none none")) ∧
    (bytes "wfd_client_rtp_ports" ∉ ext.map (·.1) → Sink.Spec.supported (cfg st ext) (bytes "wfd_client_rtp_ports") = some (bytes "RTP/AVP/UDP;unicast " ++ decInt st.port ++ bytes " 0 mode=play")) ∧
    (Sink.Spec.supported (cfg st ext) (bytes "wfd_uibc_capability") ≠ none ↔ st.uibc = true) ∧
    (∀ name v, ext.lookup name = some v → name ≠ bytes "wfd_uibc_capability" → Sink.Spec.supported (cfg st ext) name = some v) := by
  have n1 : bytes "wfd_video_formats" ≠ bytes "wfd_uibc_capability" := by decide
  have n2 : bytes "wfd_video_formats" ≠ bytes "wfd_content_protection" := by decide
  have n3 : bytes "wfd_client_rtp_ports" ≠ bytes "wfd_uibc_capability" := by decide
  have n4 : bytes "wfd_client_rtp_ports" ≠ bytes "wfd_content_protection" := by decide
  have n5 : bytes "wfd_client_rtp_ports" ≠ bytes "wfd_video_formats" := by decide
  have n6 : bytes "wfd_client_rtp_ports" ≠ bytes "wfd_audio_codecs" := by decide
  refine ⟨fun h => ?_, fun h => ?_, ?_, fun name v h hn => ?_⟩
  · simp [Sink.Spec.supported, Sink.Spec.builtin, cfg, n1, n2, lookup_none _ _ h]
  · simp [Sink.Spec.supported, Sink.Spec.builtin, cfg, n3, n4, n5, n6, lookup_none _ _ h]
  · cases hu : st.uibc with
    | false => simp [Sink.Spec.supported, cfg, hu]
    | true =>
      simp only [Sink.Spec.supported, cfg, hu, Bool.true_eq_false, and_false, if_false, iff_true]
      cases ext.lookup (bytes "wfd_uibc_capability") with
      | some v => simp
      | none =>
        have : Sink.Spec.builtin ⟨st.cea, st.vesa, st.hh, st.port, true, ext⟩ (bytes "wfd_uibc_capability") = some (bytes "input_category_list=GENERIC;generic_cap_list=Mouse,SingleTouch;hidc_cap_list=none;port=none") := by
          unfold Sink.Spec.builtin
          rw [if_neg (by decide), if_neg (by decide), if_neg (by decide), if_neg (by decide), if_pos rfl]
        simp only [this]; simp
  · simp [Sink.Spec.supported, cfg, hn, h]

example : Sink.Spec.supported (cfg { port := 7236, uibc := true } [(bytes "wfd_3d_video_formats", bytes "none")]) (bytes "wfd_video_formats") =
    some (bytes "00 00 03 10 0001ffff 1fffffff 00001fff 00 0000 0000 10 none none") := by decide +kernel

/-- What a connection that succeeds does. -/
theorem comes_up (st : SSet) (ext : List (List Byte × List Byte)) (mv : Moves) (E : Sinkctl.Env) (hp : Sink.Spec.PortOk (cfg st ext)) (hext : ext.length < 1000000) {W : World} (h : Reached st ext mv E W)
    (ho : W.ctl.app.isOpen = true) (hc : W.side.sink.connected = false) : step st mv E W (.sink (.io true false false true true)) =
      some ⟨{ W.ctl with app := { W.ctl.app with conn := true } }, { W.side with sink := { W.side.sink with bus := true, cookies := 0, setups := [], connected := true, log := W.side.sink.log ++ [.connected] } }⟩ := by
  have hk := reached_K hp hext h
  have hi := Sink.reached_inv hp hext hk.reached
  have hfd : W.side.sink.fd.isSome = true := by rw [← hk.opn]; exact ho
  have hio : Sink.step mv W.side.sink (.io true false false true true) =
      some { W.side.sink with bus := true, cookies := 0, setups := [], connected := true, log := W.side.sink.log ++ [.connected] } := by
    simp [Sink.step, hfd, hc, Sink.io, Sink.sinkConnected, hi.live.hup, Sink.finish, Sink.St.out]
  simp only [step, own, Bool.false_eq_true, if_false, hio, Option.bind_some]
  rw [List.drop_left]
  have : ([.connected] : List Sink.Out).filterMap hears = [.up] := rfl
  rw [this]
  have hrun : Sinkctl.run E W.ctl [.up] = some { W.ctl with app := { W.ctl.app with conn := true } } := by
    rw [run_one]; simp [Sinkctl.step, ho]
  exact advance_eq (W := ⟨W.ctl, _⟩) (t := []) hrun (by simp)

/-- **C144: a session is shown.** The connection to the source comes up, and the source says what C138 has it say. Then exactly one player is started, with the port that SETUP asks the source to send to and the resolution of M4,
and PLAY is requested; and nothing else is done. -/
theorem session_plays (st : SSet) (ext : List (List Byte × List Byte)) (mv : Moves) (E : Sinkctl.Env) (hp : Sink.Spec.PortOk (cfg st ext)) (hext : ext.length < 1000000) (hpl : Sink.Spec.Plain (cfg st ext))
    (hst : HasPlayer st) {W : World} (h : Reached st ext mv E W) (ho : W.ctl.app.isOpen = true) (hc : W.side.sink.connected = false) (hpid : W.ctl.app.pid = none) {n : Nat}
    (hfork : E.fork W.ctl.app.log.length = some n)
    (mvS : Moves) (env : Rtsp.Env) (k : Session.Spec.Script) (u w : List Byte) (f : Nat × Nat × Nat) (ck : Nat) (hsrc : Spec.Source (cfg st ext) env k u w f ck) :
    Spec.Plays st ext mv E W (n + 1) W.side.target mvS env k u w f ck := by
  obtain ⟨ha, hor, hf, hi, hroom, hck⟩ := hsrc
  have hup := comes_up st ext mv E hp hext h ho hc
  generalize hV : (⟨{ W.ctl with app := { W.ctl.app with conn := true } }, { W.side with sink := { W.side.sink with bus := true, cookies := 0, setups := [], connected := true, log := W.side.sink.log ++ [.connected] } }⟩ : World) = V at hup
  have hV1 : Reached st ext mv E V := reached_run h (es := [.sink (.io true false false true true)]) (by
    intro e he; rw [List.mem_singleton.mp he]; exact True.intro) (by rw [run, hup]; rfl)
  have hkV := reached_K hp hext hV1
  have v1 : V.side.sink.connected = true := by rw [← hV]
  have v2 : V.side.sink.setups = [] := by rw [← hV]
  have v3 : V.side.sink.cookies = 0 := by rw [← hV]
  obtain ⟨ms, m1, m2⟩ := Session.session_comes_up mvS env ha mv (cfg st ext) V.side.sink hkV.reached hp hext hpl v1 v2 (by rw [v3]; decide) k u w f hor hf (by rw [v3]; exact hi) (by rw [v3]; exact hroom) ck hck
  rw [v3] at m1
  refine ⟨ms, m1, fun cs hcs => ?_⟩
  obtain ⟨b, s', L, x, y, b1, b2, b3, b4, -, -, b5, b6, b7⟩ := m2 cs hcs
  rw [v3] at b7
  have hown : ∀ m : Msg, own (Session.Spec.event m) = false := by
    intro m; unfold Session.Spec.event; split <;> rfl
  obtain ⟨ub, pt, r1⟩ := player_run (st := st) (E := E) (mv := mv) hp hext (b.log.map Session.Spec.event) (W := V) hkV.reached (by
      intro e he
      obtain ⟨m, hm, rfl⟩ := List.mem_map.mp he
      exact ⟨b2 m hm, hown m⟩) b3 b7 (x := x) (y := y) rfl (by rw [← hV]; exact ho) (by rw [← hV]) (by rw [← hV]; exact hpid) (n := n) (by rw [← hV]; exact hfork)
  obtain ⟨argv, a1, a2⟩ := argv_tells hst ub V.side.target pt (chosen_pos b6).1 (chosen_pos b6).2
  rw [a1] at r1
  have hrun : run st mv E W (.sink (.io true false false true true) :: b.log.map fun m => .sink (Session.Spec.event m)) = run st mv E V ((b.log.map Session.Spec.event).map .sink) := by
    rw [run, hup, Option.bind_some, List.map_map]; rfl
  refine ⟨b, _, L, x, y, argv, b1, hrun.trans r1, ?_, b5, b6, ?_, ?_, ?_, ?_, rfl, ?_, b4⟩
  · refine reached_run hV1 ?_ r1
    intro e he
    rw [List.map_map] at he
    obtain ⟨m, hm, rfl⟩ := List.mem_map.mp he
    exact b2 m hm
  · show s'.log = _
    rw [b7, ← hV, List.append_assoc]; rfl
  · rw [← hV]
  · have : W.side.target = V.side.target := by rw [← hV]
    rw [this]; exact a2
  · rw [← hV]
  · rw [← hV]

/-- What the daemon and the timer bring about, up to an open connection. -/
theorem phone_opens {st : SSet} {ext : List (List Byte × List Byte)} {mv : Moves} {E : Sinkctl.Env} (hp : Sink.Spec.PortOk (cfg st ext)) (hext : ext.length < 1000000) {jk : Nat → Byte} {env : Event.Env}
    {W W' : Phone.World} {k : Side} (h : Reached st ext mv E ⟨W.w, k⟩) (hidle : W.w.app.runPeer = none) {evs : List Phone.Ev} (hr : Phone.run jk env E W evs = some W') (hs : W'.w.app.runPeer ≠ none)
    (ho : W'.w.app.isOpen = true) : ∃ (ces : List Sinkctl.Ev) (k' : Side), (∀ e ∈ ces, e.sink = false) ∧ run st mv E ⟨W.w, k⟩ (ces.map .ctl) = some ⟨W'.w, k'⟩ ∧ Reached st ext mv E ⟨W'.w, k'⟩ ∧
      k'.players = k.players ∧ k'.sink.connected = false ∧ W'.w.app.pid = none ∧ Spec.latest W'.w.app.log = some (.connect (some k'.target)) := by
  obtain ⟨ces, k', c1, c2⟩ := phone_run st mv jk env E evs hr k
  have hR : Reached st ext mv E ⟨W'.w, k'⟩ := reached_run h (by
    intro e he
    obtain ⟨x, -, rfl⟩ := List.mem_map.mp he
    exact True.intro) c2
  obtain ⟨k1, k2⟩ := ctl_players st mv E ces (reached_K hp hext h) c2
  obtain ⟨-, -, i3, -, -⟩ := in_step st ext mv E hp hext h
  have hc := ctl_conn st mv E ces c2 (fun x => absurd hidle x) hs
  refine ⟨ces, k', c1, c2, hR, k2, ?_, ctl_pid st mv E ces c2 (i3 hidle).2.2, k1.tgt ho⟩
  cases hx : k'.sink.connected with
  | false => rfl
  | true =>
    have := (k1.con.mp hx).2
    rw [hc] at this; cases this

/-- A phone is shown: after what the daemon and the timer did the controller and its sink are in a state from which the session plays. -/
theorem phone_plays {st : SSet} {ext : List (List Byte × List Byte)} {mv : Moves} {E : Sinkctl.Env} (hp : Sink.Spec.PortOk (cfg st ext)) (hext : ext.length < 1000000) (hpl : Sink.Spec.Plain (cfg st ext))
    (hst : HasPlayer st) {jk : Nat → Byte} {env : Event.Env} {W W' : Phone.World} {k : Side} (h : Reached st ext mv E ⟨W.w, k⟩) (hidle : W.w.app.runPeer = none) {evs : List Phone.Ev}
    (hr : Phone.run jk env E W evs = some W') (hs : W'.w.app.runPeer ≠ none) (ho : W'.w.app.isOpen = true) {a : List Act} {gw : List Byte} (hl : W'.w.app.log = a ++ [.connect (some gw)]) {n : Nat}
    (hfork : E.fork W'.w.app.log.length = some n) (mvS : Moves) (renv : Rtsp.Env) (sc : Session.Spec.Script) (u w : List Byte) (f : Nat × Nat × Nat) (ck : Nat)
    (hsrc : Spec.Source (cfg st ext) renv sc u w f ck) :
    ∃ (ces : List Sinkctl.Ev) (k' : Side), (∀ e ∈ ces, e.sink = false) ∧ run st mv E ⟨W.w, k⟩ (ces.map .ctl) = some ⟨W'.w, k'⟩ ∧ k'.players = k.players ∧
      Spec.Plays st ext mv E ⟨W'.w, k'⟩ (n + 1) gw mvS renv sc u w f ck := by
  obtain ⟨ces, k', c1, c2, hR, k2, k3, k4, k5⟩ := phone_opens hp hext h hidle hr hs ho
  have ht : k'.target = gw := by
    rw [hl, latest_connect] at k5
    injection k5 with k5; injection k5 with k5; injection k5 with k5
    exact k5.symm
  refine ⟨ces, k', c1, c2, k2, ?_⟩
  rw [← ht]
  exact session_plays st ext mv E hp hext hpl hst hR ho k3 k4 hfork mvS renv sc u w f ck hsrc

/-! ## C146: the player follows the session -/

/-- **C146 (in part): while a player is there no other is started.** Whatever happens. -/
theorem one_player (st : SSet) (ext : List (List Byte × List Byte)) (mv : Moves) (E : Sinkctl.Env) (hp : Sink.Spec.PortOk (cfg st ext)) (hext : ext.length < 1000000) {W W' : World}
    (h : Reached st ext mv E W) {e : Ev} (hd : Spec.Delivered e) (hs : step st mv E W e = some W') (hpid : W.ctl.app.pid ≠ none) : W'.side.players = W.side.players := by
  have hk := reached_K hp hext h
  cases e with
  | ctl e => exact (ctl_step hk hs).2
  | sink e =>
    cases ho : own e with
    | true =>
      simp only [step, ho, if_true] at hs
      cases hs; rfl
    | false =>
      have hs' := hs
      simp only [step, ho, Bool.false_eq_true, if_false] at hs'
      obtain ⟨s, h1, -⟩ := Option.bind_eq_some_iff.mp hs'
      obtain ⟨-, hh⟩ := sink_step hp hext hk hd ho h1 hs
      cases hh with
      | quiet _ q => rw [q]
      | up _ _ _ q => rw [q]
      | down _ q => exact q
      | player _ _ _ _ _ _ _ _ _ _ _ q _ _ _ => exact absurd q hpid

/-- **C146 (in part): a player ends with its session.** If there was a player and there is no session any more, then the player was sent SIGTERM and the connection is closed. -/
theorem ends_with_session_partial (st : SSet) (ext : List (List Byte × List Byte)) (mv : Moves) (E : Sinkctl.Env) (hp : Sink.Spec.PortOk (cfg st ext)) (hext : ext.length < 1000000) {W : World}
    (h : Reached st ext mv E W) (hn : W.ctl.app.runPeer = none) :
    W.side.sink.fd = none ∧ ∃ s, Sinkctl.Sess.all {} W.ctl.app.log = some s ∧ s.player = none ∧ s.opened = false := by
  obtain ⟨s, s1, s2, s3, s4, s5, s6, s7⟩ := reached_disc h
  obtain ⟨-, -, i3, -, -⟩ := in_step st ext mv E hp hext h
  refine ⟨(i3 hn).1, s, s1, s3.trans (i3 hn).2.2, ?_⟩
  cases hx : s.opened with
  | false => rfl
  | true => exact absurd (s2.trans hn) (s6 hx)

/-- **C146 (not so).** When the source ends the connection, the controller does nothing: whatever the state, the session stays and its player, if any, goes on; nothing connects again. -/
theorem gone_does_nothing (st : SSet) (ext : List (List Byte × List Byte)) (mv : Moves) (E : Sinkctl.Env) (hp : Sink.Spec.PortOk (cfg st ext)) (hext : ext.length < 1000000) {W : World}
    (h : Reached st ext mv E W) (hc : W.side.sink.connected = true) :
    ∃ W', step st mv E W (.sink .gone) = some W' ∧ W'.side.sink.fd = none ∧ W'.ctl.app = { W.ctl.app with isOpen := false, conn := false } ∧ W'.ctl.app.runPeer ≠ none ∧ W'.side.players = W.side.players := by
  have hk := reached_K hp hext h
  have hi := Sink.reached_inv hp hext hk.reached
  obtain ⟨c1, c2⟩ := hk.con.mp hc
  have hb : W.side.sink.bus = true := hi.live.bus.trans hc
  obtain ⟨f, hf⟩ : ∃ f, W.side.sink.fd = some f := Option.isSome_iff_exists.mp (hi.live.fd hb)
  have hg : Sink.step mv W.side.sink .gone = some { W.side.sink with fd := none, bus := false, connected := false, hup := false, cookies := 0, setups := [], log := W.side.sink.log ++ [.closed f, .closed f, .disconnected] } := by
    simp [Sink.step, hc, Sink.rtspFn, Sink.finish, Sink.close, hf, hb, Sink.St.out]
  have hrun : Sinkctl.run E W.ctl [.down] = some { W.ctl with app := { W.ctl.app with isOpen := false, conn := false } } := by
    rw [run_one]; simp [Sinkctl.step, c1, c2]
  refine ⟨⟨{ W.ctl with app := { W.ctl.app with isOpen := false, conn := false } }, { W.side with sink := { W.side.sink with fd := none, bus := false, connected := false, hup := false, cookies := 0, setups := [], log := W.side.sink.log ++ [.closed f, .closed f, .disconnected] } }⟩, ?_, rfl, rfl, hk.ses c1, rfl⟩
  · simp only [step, own, Bool.false_eq_true, if_false, hg, Option.bind_some]
    rw [List.drop_left]
    exact advance_eq (W := ⟨W.ctl, _⟩) (t := []) hrun (by simp)

/-! ## C145: from the request of a phone to its picture -/

/-- **C145 (in part).** A device asks to be connected, its request is taken, the group is started, the lease reported, the timer runs out, all as in C143; the connection is accepted, and the device says what a source says (C138).
Then one player is started that listens on the port the device is asked in SETUP to send to, in the resolution of its M4, and PLAY is requested. Missing: what is missing in C143. -/
theorem request_to_picture_partial (st : SSet) (ext : List (List Byte × List Byte)) (mv : Moves) (hp : Sink.Spec.PortOk (cfg st ext)) (hext : ext.length < 1000000) (hpl : Sink.Spec.Plain (cfg st ext)) (hst : HasPlayer st)
    (jk : Nat → Byte) (env : Event.Env) (E : Sinkctl.Env) {W : Phone.World} {p : Nat} {y : P2p.Peer} {q : Mirror.Peer} (h : Phone.Spec.Meet W p y q) {k : Side} (hR : Reached st ext mv E ⟨W.w, k⟩)
    {d1 d2 : List Byte} {ps1 ps2 : List Event.Spec.Piece}
    -- the request
    (h1 : Phone.Spec.Line d1 (bytes "P2P-GO-NEG-REQUEST") ps1) (a1 : Event.Spec.arg 0 ps1 = some y.mac) (hf : W.s.pending = none ∨ W.s.pending = some p) (hpin : Phone.Spec.PinOk y.pin)
    {ws : List (List Byte)} (hw : Phone.Spec.answer y.prov y.pin = some ws)
    -- the group
    (h2 : Phone.Spec.Line d2 (bytes "P2P-GROUP-STARTED") ps2) {i role : List Byte} (a2 : Event.Spec.get (bytes "go_dev_addr") ps2 = some y.mac) (i2 : Event.Spec.arg 0 ps2 = some i)
    (r2 : Event.Spec.arg 1 ps2 = some role) (hro : role ≠ bytes "GO") (he : env.spawn = true ∧ env.watch = true) (hn : ∀ g x, W.s.gheap g = some x → x.ifname ≠ i)
    -- the lease
    {old : Option (List Byte)} {a gw : List Byte} {subnet dns gateway : List (List Byte)} (ha : P2p.Spec.Text a) (hs : ∀ t ∈ subnet, P2p.Spec.Text t)
    (hd : ∀ t ∈ dns, P2p.Spec.Text t) (hg : P2p.Spec.Text gw) (hnew : old ≠ some (a ++ ch '/' :: subnet.headD (bytes "24")))
    -- before
    (hy : y.remote = none ∧ y.connected = false) (hq : q.connected = false) (hal : W.w.app.alive = true)
    -- the connection and the source
    (hacc : E.acc (W.w.app.log.length + 2) = true) {n : Nat} (hfork : E.fork (W.w.app.log.length + 3) = some n)
    (mvS : Moves) (renv : Rtsp.Env) (sc : Session.Spec.Script) (u w : List Byte) (f : Nat × Nat × Nat) (ck : Nat) (hsrc : Spec.Source (cfg st ext) renv sc u w f ck) :
    ∃ W' d', Phone.run jk env E W ([.line d1, .line d2] ++ (P2p.clientLease old (some a) subnet dns (gw :: gateway) true true).2.1.map (.helper W.s.next) ++ [.timer]) = some W' ∧
      W'.sent = W.sent ++ [d'] ∧ Ask.Spec.hear d' = .order (bytes "P2P_CONNECT") (y.mac :: ws) ∧ W'.w.app.runPeer = some q.id ∧
      ∃ (ces : List Sinkctl.Ev) (k' : Side), (∀ e ∈ ces, e.sink = false) ∧ run st mv E ⟨W.w, k⟩ (ces.map .ctl) = some ⟨W'.w, k'⟩ ∧ k'.players = k.players ∧
        Spec.Plays st ext mv E ⟨W'.w, k'⟩ (n + 1) gw mvS renv sc u w f ck := by
  have hop : W.w.app.isOpen = false := by
    have hk := reached_K hp hext hR
    cases hx : W.w.app.isOpen with
    | false => rfl
    | true => exact absurd h.idle (hk.ses hx)
  obtain ⟨W', d', -, -, e1, e2, e3, e4, e5, -, e6, -⟩ := Phone.connects_partial jk env E h h1 a1 hf hpin hw h2 a2 i2 r2 hro he hn (gateway := gateway) ha hs hd hg hnew hy hq hal hop
  refine ⟨W', d', e1, e2, e3, e5, ?_⟩
  exact phone_plays hp hext hpl hst hR h.idle e1 (by rw [e5]; simp) (e6.trans hacc)
    (a := W.w.app.log ++ [.accept (Daemon.peerLabel y.mac W.idx) (bytes "auto") [], .running q.id]) (by rw [e4]; simp) (by rw [e4, List.length_append]; exact hfork) mvS renv sc u w f ck hsrc

/-- **C145 (in part: this device owns the group).** The same in a group of this device. -/
theorem request_to_picture_owner_partial (st : SSet) (ext : List (List Byte × List Byte)) (mv : Moves) (hp : Sink.Spec.PortOk (cfg st ext)) (hext : ext.length < 1000000) (hpl : Sink.Spec.Plain (cfg st ext)) (hst : HasPlayer st)
    (jk : Nat → Byte) (env : Event.Env) (E : Sinkctl.Env) {W : Phone.World} {p : Nat} {y : P2p.Peer} {q : Mirror.Peer} (h : Phone.Spec.Meet W p y q) {k : Side} (hR : Reached st ext mv E ⟨W.w, k⟩)
    {d1 d2 d3 : List Byte} {ps1 ps2 ps3 : List Event.Spec.Piece}
    -- the request
    (h1 : Phone.Spec.Line d1 (bytes "P2P-GO-NEG-REQUEST") ps1) (a1 : Event.Spec.arg 0 ps1 = some y.mac) (hf : W.s.pending = none ∨ W.s.pending = some p) (hpin : Phone.Spec.PinOk y.pin)
    {ws : List (List Byte)} (hw : Phone.Spec.answer y.prov y.pin = some ws)
    -- the group
    (h2 : Phone.Spec.Line d2 (bytes "P2P-GROUP-STARTED") ps2) {own i : List Byte} (a2 : Event.Spec.get (bytes "go_dev_addr") ps2 = some own) (i2 : Event.Spec.arg 0 ps2 = some i)
    (r2 : Event.Spec.arg 1 ps2 = some (bytes "GO")) (he : env.spawn = true ∧ env.watch = true ∧ env.mem = true) (hown : W.s.p2pMac = some own)
    (hno : ∀ p y, W.s.pheap p = some y → y.mac ≠ own) (hn : ∀ g x, W.s.gheap g = some x → x.ifname ≠ i)
    (hfree : ∃ n, 50 ≤ n ∧ n < 256 ∧ ∀ g x, W.s.gheap g = some x → x.subnet ≠ n)
    -- the device joins
    (h3 : Phone.Spec.LineOf i d3 (bytes "AP-STA-CONNECTED") ps3) (a3 : Event.Spec.get (bytes "p2p_dev_addr") ps3 = some y.mac) {sta : List Byte} (s3 : Event.Spec.arg 0 ps3 = some sta)
    -- the lease
    {a ip bs : List Byte} {fs : List (List Byte)} (ha : P2p.Spec.Text a) (hbs : bs.length = 6) (hws : Mac.Spec.WritesAll fs bs)
    (hm : y.mac = Mac.format bs ∨ sta = Mac.format bs) (hu : ∀ q z, W.s.pheap q = some z → (z.mac = Mac.format bs ∨ z.sta = some (Mac.format bs)) → q = p) (hi : ip ≠ [])
    (ht : P2p.Spec.Text (Mac.Spec.join fs ++ ch ' ' :: ip)) {mid : List Phone.Ev}
    (hmid : mid = [.helper W.s.next (P2p.serverReady a), .line d3] ∨ mid = [.line d3, .helper W.s.next (P2p.serverReady a)])
    -- before
    (hy : y.remote = none ∧ y.connected = false) (hq : q.connected = false) (hal : W.w.app.alive = true)
    -- the connection and the source
    (hacc : E.acc (W.w.app.log.length + 2) = true) {n : Nat} (hfork : E.fork (W.w.app.log.length + 3) = some n)
    (mvS : Moves) (renv : Rtsp.Env) (sc : Session.Spec.Script) (u w : List Byte) (f : Nat × Nat × Nat) (ck : Nat) (hsrc : Spec.Source (cfg st ext) renv sc u w f ck) :
    ∃ W' d', Phone.run jk env E W ([.line d1, .line d2] ++ mid ++ [.helper W.s.next (P2p.serverEvent (Mac.Spec.join fs) ip), .timer]) = some W' ∧
      W'.sent = W.sent ++ [d'] ∧ Ask.Spec.hear d' = .order (bytes "P2P_CONNECT") (y.mac :: ws) ∧ W'.w.app.runPeer = some q.id ∧
      ∃ (ces : List Sinkctl.Ev) (k' : Side), (∀ e ∈ ces, e.sink = false) ∧ run st mv E ⟨W.w, k⟩ (ces.map .ctl) = some ⟨W'.w, k'⟩ ∧ k'.players = k.players ∧
        Spec.Plays st ext mv E ⟨W'.w, k'⟩ (n + 1) ip mvS renv sc u w f ck := by
  have hop : W.w.app.isOpen = false := by
    have hk := reached_K hp hext hR
    cases hx : W.w.app.isOpen with
    | false => rfl
    | true => exact absurd h.idle (hk.ses hx)
  obtain ⟨W', d', -, -, e1, e2, e3, e4, e5, -, e6, -⟩ := Phone.connects_owner_partial jk env E h h1 a1 hf hpin hw h2 a2 i2 r2 he hown hno hn hfree h3 a3 s3 ha hbs hws hm hu hi ht hmid hy hq hal hop
  refine ⟨W', d', e1, e2, e3, e5, ?_⟩
  exact phone_plays hp hext hpl hst hR h.idle e1 (by rw [e5]; simp) (e6.trans hacc)
    (a := W.w.app.log ++ [.accept (Daemon.peerLabel y.mac W.idx) (bytes "auto") [], .running q.id]) (by rw [e4]; simp) (by rw [e4, List.length_append]; exact hfork) mvS renv sc u w f ck hsrc

/-! ## Concrete cases -/

/-- Settings of a user: port 1991, no VESA and handheld formats. -/
def st0 : SSet := { vesa := 0, hh := 0, port := 1991 }

/-- The parser of the examples. -/
def renv : Rtsp.Env := ⟨fun _ => false, fun _ _ => (0, 0)⟩

/-- A link is run on, a device appears on it and is connected, the connection to it is under way. -/
def opening : List Ev := [.ctl (Sinkctl.link3 true), .ctl (.run (bytes "wlan0")), .ctl Sinkctl.peerA, .ctl Sinkctl.connA, .ctl .sinkTimer]

/-- The messages of the example of C138, as the sink gets them. -/
def said (k : Session.Spec.Script) : List Ev :=
  match (makeAll (fun _ => true) 40 (k.items 0)).bind fun ms => Rtsp.reads renv Rtsp.openBus [stream ms] with
  | some b => b.2.log.map fun m => .sink (Session.Spec.event m)
  | none => []

/-- The hypotheses of `session_plays` are met. -/
example : Sink.Spec.PortOk (cfg st0 []) ∧ Sink.Spec.Plain (cfg st0 []) ∧ HasPlayer st0 ∧
    Spec.Source (cfg st0 []) renv Session.script (bytes "rtsp://192.168.49.1/wfd1.0/streamid=0") (bytes "6B8B4567;timeout=30") (128, 0, 0) 40 ∧
    ∃ W, Reached st0 [] (fun _ => true) Sinkctl.fine W ∧ W.ctl.app.isOpen = true ∧ W.side.sink.connected = false ∧ W.ctl.app.pid = none ∧ Sinkctl.fine.fork W.ctl.app.log.length ≠ none ∧
      W.side.target = bytes "10.0.0.2" := by
  refine ⟨⟨by decide, by decide⟩, ⟨by decide, by decide, by decide⟩, (fun h => nomatch h), ⟨(fun _ _ => Int.le_refl _), ?_, ?_, by decide +kernel, ?_, by decide⟩, _, ⟨opening, ?_, rfl⟩, by decide +kernel, by decide +kernel, by decide +kernel,
    by decide +kernel, by decide +kernel⟩
  · refine ⟨by decide +kernel, by decide +kernel, ?_, by decide +kernel, by decide +kernel, by decide +kernel, by decide +kernel, by decide +kernel, by decide +kernel, by decide +kernel⟩
    rintro ⟨h, _⟩
    exact absurd (h (7, 1920, 1080) (by decide +kernel)) (by decide)
  · exact Session.script_fits
  · intro i hi; exact Or.inl ((by decide +kernel : ∀ i ∈ Session.script.items 0, headerCount i + 3 ≤ 64) i hi)
  · intro e he
    simp only [opening, List.mem_cons, List.not_mem_nil, or_false] at he
    rcases he with rfl | rfl | rfl | rfl | rfl <;> exact True.intro

/-- What is seen of the controller. -/
def look (W : World) : Option Nat × Option Nat × Bool × Nat := (W.ctl.app.runPeer, W.ctl.app.pid, W.side.sink.connected, Sink.Spec.calls "PLAY" W.side.sink.log)

/-- The session of C138, from the start of the program. -/
def playing : Option World := run st0 (fun _ => true) Sinkctl.fine (start st0 []) (opening ++ [.sink (.io true false false true true)] ++ said Session.script)

/-- Later events. -/
def andThen (es : List Ev) : Option World := playing.bind fun W => run st0 (fun _ => true) Sinkctl.fine W es

/-- The source agrees on 1280x720 later. -/
def later : Ev := .sink (.msg (Sink.req "SET_PARAMETER" 50 [("wfd_video_formats", ["00", "00", "02", "04", "00000020", "00000000", "00000000"])]))

/-- The session plays. -/
example : playing.map look = some (some 2, some 1005, true, 1) ∧ playing.map (·.side.players) = some [(1005, some (["miracle-gst", "-a", "-p", "1991", "-r", "1920x1080"].map bytes))] :=
  ⟨by decide +kernel, by decide +kernel⟩

/-- **C146 (not so).** A resolution that is agreed on later, over a standing connection, never reaches a player: the one that runs keeps the old one. -/
theorem keeps_resolution : playing.map (fun W => (W.side.sink.hres, W.side.sink.vres)) = some (1920, 1080) ∧ (andThen [later]).map (fun W => (W.side.sink.hres, W.side.sink.vres)) = some (1280, 720) ∧
    (andThen [later]).map look = playing.map look ∧ (andThen [later]).map (·.side.players) = playing.map (·.side.players) :=
  ⟨by decide +kernel, by decide +kernel, by decide +kernel, by decide +kernel⟩

/-- The source is gone, then the device: only then is the player ended. -/
example : (andThen [.sink .gone]).map (fun W => (W.ctl.app.pid, W.ctl.app.runPeer)) = some (some 1005, some 2) ∧ (andThen [.sink .gone]).map (fun W => W.side.sink.fd) = some none ∧
    (andThen [.sink .gone, .ctl Sinkctl.goneA]).map (fun W => (W.ctl.app.pid, W.ctl.app.runPeer)) = some (none, none) :=
  ⟨by decide +kernel, by decide +kernel, by decide +kernel⟩

/-- The controller finds the phone of the example of C142. -/
def finds : Sinkctl.Ev := .msg (.added (Wifid.peerPath (bytes "02:00:00:00:00:01") 3)
  [(Mirror.peerIf, [(bytes "FriendlyName", .s (bytes "phone")), (bytes "WfdSubelements", .s (bytes "000006")), (bytes "Connected", .b false)])])

/-- The program runs on the link and has found the phone. -/
def waiting : Option World := run st0 (fun _ => true) Sinkctl.fine (start st0 []) [.ctl (Sinkctl.link3 true), .ctl (.run (bytes "wlan0")), .ctl finds]

/-- The hypotheses of `request_to_picture_partial` about both programs are met. -/
example : ∃ s V y q, Phone.daemon = some s ∧ waiting = some V ∧ Reached st0 [] (fun _ => true) Sinkctl.fine V ∧ Phone.Spec.Meet ⟨3, s, V.ctl, []⟩ 0 y q ∧ y.remote = none ∧ y.connected = false ∧ q.connected = false ∧
    V.ctl.app.alive = true ∧ s.pending = none :=
  ⟨_, _, _, _, rfl, rfl, ⟨[.ctl (Sinkctl.link3 true), .ctl (.run (bytes "wlan0")), .ctl finds], (by
      intro e he
      simp only [List.mem_cons, List.not_mem_nil, or_false] at he
      rcases he with rfl | rfl | rfl <;> exact True.intro), rfl⟩,
    ⟨⟨false, [.attached, .ready, .found (bytes "02:00:00:00:00:01") [0]], rfl⟩, by decide +kernel, by decide +kernel, rfl, by decide +kernel, by decide +kernel, rfl, by decide +kernel, by decide +kernel,
      by decide +kernel, by decide +kernel⟩, by decide +kernel, by decide +kernel, by decide +kernel, by decide +kernel, by decide +kernel⟩

end Verif.Show
