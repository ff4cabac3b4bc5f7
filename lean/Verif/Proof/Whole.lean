import Verif.Spec.Whole
import Verif.Props.ShowDown
/-! # Helper lemmas: visits of a device -/
namespace Verif.Whole
open Verif.C Spec
open Verif.Settings (SSet)
open Verif.Rtsp (Moves)
open Verif.Sinkctl (Act)
open Phone.Spec (dialled Turn On Sole OneName Kept Between)
open Phone (Live)

/-! ## The controller during a session -/

/-- The controller's part stays, but for the connection, the player and the timers; only this address is connected to. -/
structure Calm (a : List Byte) (w w' : Sinkctl.S) : Prop where
  links : w'.links = w.links
  runLink : w'.app.runLink = w.app.runLink
  runPeer : w'.app.runPeer = w.app.runPeer
  alive : w'.app.alive = w.app.alive
  log : ∃ t n, w'.app.log = w.app.log ++ t ∧ t.filterMap dialled = List.replicate n a

theorem Calm.refl (a : List Byte) (w : Sinkctl.S) : Calm a w w := ⟨rfl, rfl, rfl, rfl, [], 0, by simp, rfl⟩

theorem Calm.trans {a : List Byte} {w1 w2 w3 : Sinkctl.S} (h : Calm a w1 w2) (k : Calm a w2 w3) : Calm a w1 w3 := by
  obtain ⟨t, n, h5, h6⟩ := h.log
  obtain ⟨u, m, k5, k6⟩ := k.log
  refine ⟨k.links.trans h.links, k.runLink.trans h.runLink, k.runPeer.trans h.runPeer, k.alive.trans h.alive, t ++ u, n + m, by rw [k5, h5]; simp, ?_⟩
  rw [List.filterMap_append, h6, k6, List.replicate_append_replicate]

/-- Only the log and what is not said above changes. -/
theorem calm_app {a : List Byte} {w : Sinkctl.S} {c : Sinkctl.Ctl} (h1 : c.runLink = w.app.runLink) (h2 : c.runPeer = w.app.runPeer) (h3 : c.alive = w.app.alive) {t : List Act} (h4 : c.log = w.app.log ++ t)
    {n : Nat} (h5 : t.filterMap dialled = List.replicate n a) : Calm a w { w with app := c } := ⟨rfl, h1, h2, h3, t, n, h4, h5⟩

/-- What is known of the session. -/
structure Ses (p : Mirror.Peer) (a : List Byte) (w : Sinkctl.S) : Prop where
  run : w.app.runPeer = some p.id
  at_ : Sinkctl.peerAt w p.id = some p
  alive : w.app.alive = true
  rem : p.rem = some a

theorem Ses.calm {p : Mirror.Peer} {a : List Byte} {w w' : Sinkctl.S} (h : Ses p a w) (k : Calm a w w') : Ses p a w' :=
  ⟨k.runPeer.trans h.run, by unfold Sinkctl.peerAt; rw [k.links]; exact h.at_, k.alive.trans h.alive, h.rem⟩

theorem sinkFn_calm (E : Sinkctl.Env) {p : Mirror.Peer} {a : List Byte} {w : Sinkctl.S} (h : Ses p a w) : ∃ w', Sinkctl.sinkFn E w = some w' ∧ Calm a w w' := by
  have hp : ∀ c, Sinkctl.peerAt { w with app := c } p.id = some p := fun _ => h.at_
  unfold Sinkctl.sinkFn
  simp only [h.run, hp, Option.bind_eq_bind, Option.bind_some, h.alive, Bool.not_true, Bool.false_eq_true, if_false, h.rem, Sinkctl.act]
  split
  · refine ⟨_, rfl, ?_⟩
    exact calm_app rfl h.run.symm h.alive.symm (t := []) (n := 0) (by simp) rfl
  · split
    · refine ⟨_, rfl, ?_⟩
      exact calm_app rfl h.run.symm h.alive.symm (t := []) (n := 0) (by simp) rfl
    · split
      · refine ⟨_, rfl, ?_⟩
        exact calm_app rfl h.run.symm h.alive.symm (t := [.connect (some a)]) (n := 1) rfl rfl
      · split
        · refine ⟨_, rfl, ?_⟩
          exact calm_app rfl h.run.symm h.alive.symm (t := [.connect (some a)]) (n := 1) rfl rfl
        · refine ⟨_, rfl, ?_⟩
          exact calm_app rfl h.run.symm h.alive.symm (t := [.connect (some a)]) (n := 1) rfl rfl

theorem step_calm (E : Sinkctl.Env) {p : Mirror.Peer} {a : List Byte} {w : Sinkctl.S} (h : Ses p a w) {e : Sinkctl.Ev} (he : e.sink = true ∨ e = .sinkTimer) :
    ∃ w', Sinkctl.step E w e = some w' ∧ Calm a w w' := by
  rcases he with he | rfl
  · cases e <;> simp only [Sinkctl.Ev.sink, Bool.false_eq_true] at he
    · simp only [Sinkctl.step]
      split
      · exact ⟨w, rfl, .refl _ _⟩
      · exact ⟨_, rfl, calm_app rfl rfl rfl (t := []) (n := 0) (by simp) rfl⟩
    · simp only [Sinkctl.step]
      split
      · exact ⟨w, rfl, .refl _ _⟩
      · split
        · have c1 : Calm a w { w with app := { w.app with isOpen := false } } := calm_app rfl rfl rfl (t := []) (n := 0) (by simp) rfl
          obtain ⟨w', e, c2⟩ := sinkFn_calm E (h.calm c1)
          exact ⟨w', e, c1.trans c2⟩
        · exact ⟨_, rfl, calm_app rfl rfl rfl (t := []) (n := 0) (by simp) rfl⟩
    · simp only [Sinkctl.step]
      split
      · exact ⟨w, rfl, .refl _ _⟩
      · split
        · exact ⟨w, rfl, .refl _ _⟩
        · rename_i n _
          exact ⟨_, rfl, calm_app rfl rfl rfl (t := [.spawn (n + 1)]) (n := 0) rfl rfl⟩
  · simp only [Sinkctl.step]
    split
    · exact ⟨w, rfl, .refl _ _⟩
    · exact sinkFn_calm E h

theorem run_calm (E : Sinkctl.Env) {p : Mirror.Peer} {a : List Byte} (es : List Sinkctl.Ev) : ∀ {w : Sinkctl.S}, Ses p a w → (∀ e ∈ es, e.sink = true) → ∃ w', Sinkctl.run E w es = some w' ∧ Calm a w w' := by
  induction es with
  | nil => intro w _ _; exact ⟨w, rfl, .refl _ _⟩
  | cons e es ih =>
    intro w h he
    obtain ⟨w1, e1, c1⟩ := step_calm E h (.inl (he e (by simp)))
    obtain ⟨w2, e2, c2⟩ := ih (h.calm c1) fun x hx => he x (by simp [hx])
    refine ⟨w2, ?_, c1.trans c2⟩
    rw [Sinkctl.run]
    simp only [e1, Option.bind_eq_bind, Option.bind_some, e2]

theorem hears_sink {o : Sink.Out} {e : Sinkctl.Ev} (h : Show.hears o = some e) : e.sink = true := by
  cases o <;> simp only [Show.hears, Option.some.injEq, reduceCtorEq] at h <;> subst h <;> rfl

/-! ## The session -/

/-- A session stays while the controller's part does. -/
theorem live_calm {r : Turn} {ws : List (List Byte)} {W : Phone.World} {p : Nat} {y : P2p.Peer} {q : Mirror.Peer} {g : Nat} {x : P2p.Grp} (h : Live r ws W p y q g x) {w' : Sinkctl.S}
    (c : Calm r.source W.w w') : Live r ws { W with w := w' } p y q g x := by
  refine ⟨⟨h.on.reach, h.on.bus, h.on.running, h.on.peer, h.on.shown, h.on.on, h.on.isin, h.on.grp, ?_, h.on.label, c.runLink.trans h.on.link, h.on.display, h.on.qon, c.runPeer.trans h.on.session, c.alive.trans h.on.alive⟩,
    h.owner, h.iface, h.sole, h.how, h.pin, h.pend, ?_, ?_, h.rem⟩
  · have : w'.peerAt (Wifid.peerPath y.mac W.idx) = W.w.peerAt (Wifid.peerPath y.mac W.idx) := by
      unfold Mirror.W.peerAt Mirror.W.findPeer Mirror.W.linkByPeer Mirror.W.findLink
      rw [c.links]
    exact this.trans h.on.known
  · show ∃ l ∈ w'.links, _
    rw [c.links]; exact h.link
  · show Sinkctl.peerAt w' q.id = _
    unfold Sinkctl.peerAt
    rw [c.links]; exact h.at_

theorem live_ses {r : Turn} {ws : List (List Byte)} {W : Phone.World} {p : Nat} {y : P2p.Peer} {q : Mirror.Peer} {g : Nat} {x : P2p.Grp} (h : Live r ws W p y q g x) : Ses q r.source W.w :=
  ⟨h.on.session, h.at_, h.on.alive, h.rem⟩

/-! ## The sink follows -/

/-- Events of the controller alone: the sink is what follows from what it did. -/
theorem ctl_tied (st : SSet) (mv : Moves) (E : Sinkctl.Env) {cf : Sink.Cfg} (es : List Sinkctl.Ev) : ∀ {U U' : Show.World}, Show.K mv cf U.ctl.app U.side → (∀ e ∈ es, e.sink = false) →
    Show.run st mv E U (es.map .ctl) = some U' → ∃ t, U'.ctl.app.log = U.ctl.app.log ++ t ∧ U'.side = Show.follow st E U.ctl.app.log.length U.side t := by
  induction es with
  | nil => intro U U' _ _ h; cases h; exact ⟨[], by simp, rfl⟩
  | cons e es ih =>
    intro U U' hk he h
    rw [List.map_cons, Show.run] at h
    obtain ⟨U1, h1, h2⟩ := Option.bind_eq_some_iff.mp h
    obtain ⟨hk1, -⟩ := Show.ctl_step hk h1
    have hs : e.sink = false := he e (by simp)
    simp only [Show.step, hs, Bool.false_eq_true, if_false] at h1
    have h' := h1
    unfold Show.advance at h'
    obtain ⟨w, g1, -⟩ := Option.map_eq_some_iff.mp h'
    have hst := Sinkctl.run_star (ses := false) [e] (c := U.ctl.app) (by intro x hx hy; rw [List.mem_singleton.mp hx, hs] at hy; cases hy) g1 .refl
    obtain ⟨t, t1, -, -, -⟩ := Show.star_goes (st := st) hst hk
    have hU := Show.advance_of h1 g1 t1
    obtain ⟨u, u1, u2⟩ := ih hk1 (fun x hx => he x (by simp [hx])) h2
    refine ⟨t ++ u, ?_, ?_⟩
    · rw [u1, hU, t1]; simp
    · rw [u2, hU, Show.follow_append, t1, List.length_append]

/-- An event of the daemon, or the timer. -/
theorem phone_step {st : SSet} {ext : List (List Byte × List Byte)} {mv : Moves} (hp : Sink.Spec.PortOk (Show.cfg st ext)) (hext : ext.length < 1000000) {jk : Nat → Byte} {env : Event.Env} {E : Sinkctl.Env}
    {V : World} (hR : Show.Spec.Reached st ext mv E ⟨V.W.w, V.side⟩) {e : Phone.Ev} {W' : Phone.World} (h : Phone.step jk env E V.W e = some W') :
    ∃ k', step st mv jk env E V (.phone e) = some ⟨W', k'⟩ ∧ Show.Spec.Reached st ext mv E ⟨W'.w, k'⟩ := by
  obtain ⟨ces, k', h1, h2⟩ := Show.phone_run st mv jk env E [e] (W := V.W) (W' := W') (by simp only [Phone.run, h, Option.bind_some]) V.side
  have hR' : Show.Spec.Reached st ext mv E ⟨W'.w, k'⟩ := Show.reached_run hR (by
    intro e he
    obtain ⟨_, _, rfl⟩ := List.mem_map.mp he
    trivial) h2
  obtain ⟨t, t1, t2⟩ := ctl_tied st mv E ces (Show.reached_K hp hext hR) h1 h2
  refine ⟨k', ?_, hR'⟩
  simp only [step, h, Option.map_some]
  have t1' : W'.w.app.log = V.W.w.app.log ++ t := t1
  have t2' : k' = Show.follow st E V.W.w.app.log.length V.side t := t2
  rw [t1', List.drop_left, ← t2']

theorem phone_steps {st : SSet} {ext : List (List Byte × List Byte)} {mv : Moves} (hp : Sink.Spec.PortOk (Show.cfg st ext)) (hext : ext.length < 1000000) {jk : Nat → Byte} {env : Event.Env} {E : Sinkctl.Env}
    (evs : List Phone.Ev) : ∀ {V : World}, Show.Spec.Reached st ext mv E ⟨V.W.w, V.side⟩ → ∀ {W' : Phone.World}, Phone.run jk env E V.W evs = some W' →
    ∃ k', run st mv jk env E V (evs.map .phone) = some ⟨W', k'⟩ ∧ Show.Spec.Reached st ext mv E ⟨W'.w, k'⟩ := by
  induction evs with
  | nil => intro V hR W' h; cases h; exact ⟨V.side, rfl, hR⟩
  | cons e evs ih =>
    intro V hR W' h
    rw [Phone.run] at h
    obtain ⟨W1, h1, h2⟩ := Option.bind_eq_some_iff.mp h
    obtain ⟨k1, e1, r1⟩ := phone_step hp hext hR h1
    obtain ⟨k2, e2, r2⟩ := ih (V := ⟨W1, k1⟩) r1 h2
    refine ⟨k2, ?_, r2⟩
    rw [List.map_cons, run, e1, Option.bind_some]
    exact e2

theorem run_append (st : SSet) (mv : Moves) (jk : Nat → Byte) (env : Event.Env) (E : Sinkctl.Env) (a b : List Ev) (V : World) :
    run st mv jk env E V (a ++ b) = (run st mv jk env E V a).bind fun V => run st mv jk env E V b := by
  induction a generalizing V with
  | nil => rfl
  | cons e a ih =>
    rw [List.cons_append, run, run]
    cases step st mv jk env E V e with
    | none => rfl
    | some U => exact ih U

theorem Overrun.after {st : SSet} {mv : Moves} {jk : Nat → Byte} {env : Event.Env} {E : Sinkctl.Env} {V U : World} {a b : List Ev} (h : run st mv jk env E V a = some U) (k : Overrun st mv jk env E U b) :
    Overrun st mv jk env E V (a ++ b) := by
  obtain ⟨pre, e, post, U', rfl, h2, h3⟩ := k
  exact ⟨a ++ pre, e, post, U', by simp, by rw [run_append, h]; exact h2, h3⟩

theorem Overrun.before {st : SSet} {mv : Moves} {jk : Nat → Byte} {env : Event.Env} {E : Sinkctl.Env} {V : World} {a : List Ev} (h : Overrun st mv jk env E V a) (b : List Ev) :
    Overrun st mv jk env E V (a ++ b) := by
  obtain ⟨pre, e, post, U', rfl, h2, h3⟩ := h
  exact ⟨pre, e, post ++ b, U', by simp, h2, h3⟩

theorem phone_part {st : SSet} {mv : Moves} {jk : Nat → Byte} {env : Event.Env} {E : Sinkctl.Env} (evs : List Phone.Ev) : ∀ {V V' : World}, run st mv jk env E V (evs.map .phone) = some V' →
    Phone.run jk env E V.W evs = some V'.W := by
  induction evs with
  | nil => intro V V' h; cases h; rfl
  | cons e evs ih =>
    intro V V' h
    rw [List.map_cons, run] at h
    obtain ⟨V1, h1, h2⟩ := Option.bind_eq_some_iff.mp h
    simp only [step] at h1
    obtain ⟨W1, g1, rfl⟩ := Option.map_eq_some_iff.mp h1
    rw [Phone.run, g1, Option.bind_some]
    exact ih h2

/-- The sink is what follows from what the controller did. -/
theorem side_of {st : SSet} {ext : List (List Byte × List Byte)} {mv : Moves} (hp : Sink.Spec.PortOk (Show.cfg st ext)) (hext : ext.length < 1000000) {jk : Nat → Byte} {env : Event.Env} {E : Sinkctl.Env}
    (evs : List Phone.Ev) : ∀ {V : World}, Show.Spec.Reached st ext mv E ⟨V.W.w, V.side⟩ → ∀ {V' : World}, run st mv jk env E V (evs.map .phone) = some V' → ∀ {t : List Act},
    V'.W.w.app.log = V.W.w.app.log ++ t → V'.side = Show.follow st E V.W.w.app.log.length V.side t := by
  induction evs with
  | nil =>
    intro V _ V' h t ht
    cases h
    have : t = [] := by
      have := congrArg List.length ht
      rw [List.length_append] at this
      exact List.length_eq_zero_iff.mp (by omega)
    rw [this]; rfl
  | cons e evs ih =>
    intro V hR V' h t ht
    rw [List.map_cons, run] at h
    obtain ⟨V1, h1, h2⟩ := Option.bind_eq_some_iff.mp h
    have h1' := h1
    simp only [step] at h1'
    obtain ⟨W1, g1, rfl⟩ := Option.map_eq_some_iff.mp h1'
    obtain ⟨k1, e1, r1⟩ := phone_step hp hext hR g1
    rw [h1] at e1
    injection e1 with e1
    injection e1 with _ e1
    obtain ⟨ces, k', c1, c2⟩ := Show.phone_run st mv jk env E [e] (W := V.W) (W' := W1) (by simp only [Phone.run, g1, Option.bind_some]) V.side
    obtain ⟨a, a1, -⟩ := ctl_tied st mv E ces (Show.reached_K hp hext hR) c1 c2
    have a1' : W1.w.app.log = V.W.w.app.log ++ a := a1
    have r1' : Show.Spec.Reached st ext mv E ⟨W1.w, Show.follow st E V.W.w.app.log.length V.side (W1.w.app.log.drop V.W.w.app.log.length)⟩ := by rw [e1]; exact r1
    obtain ⟨ces2, k2, d1, d2⟩ := Show.phone_run st mv jk env E evs (W := W1) (W' := V'.W) (by
      clear ih ht r1' r1 e1
      exact phone_part evs h2) (Show.follow st E V.W.w.app.log.length V.side (W1.w.app.log.drop V.W.w.app.log.length))
    obtain ⟨b, b1, -⟩ := ctl_tied st mv E ces2 (Show.reached_K hp hext r1') d1 d2
    have b1' : V'.W.w.app.log = W1.w.app.log ++ b := b1
    have := ih (V := ⟨W1, Show.follow st E V.W.w.app.log.length V.side (W1.w.app.log.drop V.W.w.app.log.length)⟩) r1' h2 b1'
    rw [this]
    show Show.follow st E W1.w.app.log.length (Show.follow st E V.W.w.app.log.length V.side (W1.w.app.log.drop V.W.w.app.log.length)) b = _
    have htt : t = a ++ b := by
      rw [b1', a1', List.append_assoc] at ht
      exact (List.append_cancel_left ht).symm
    rw [htt, Show.follow_append, a1', List.drop_left, List.length_append]

/-- One thing that can happen during a session. -/
theorem during_one {st : SSet} {ext : List (List Byte × List Byte)} {mv : Moves} (hp : Sink.Spec.PortOk (Show.cfg st ext)) (hext : ext.length < 1000000) {jk : Nat → Byte} {env : Event.Env} {E : Sinkctl.Env}
    {r : Turn} {ws : List (List Byte)} {p : Nat} {y : P2p.Peer} {q : Mirror.Peer} {g : Nat} {x : P2p.Grp} {V : World} (h : Live r ws V.W p y q g x)
    (hR : Show.Spec.Reached st ext mv E ⟨V.W.w, V.side⟩) {d : During} (hd : d.Ok) :
    (∃ w' k', step st mv jk env E V d.ev = some ⟨{ V.W with w := w' }, k'⟩ ∧ Calm r.source V.W.w w' ∧ Show.Spec.Reached st ext mv E ⟨w', k'⟩) ∨
      ∃ e, d = .source e ∧ Sink.step mv V.side.sink e = none := by
  cases d with
  | timer =>
    obtain ⟨w', e, c⟩ := step_calm E (live_ses h) (e := .sinkTimer) (.inr rfl)
    obtain ⟨k', e1, r1⟩ := phone_step hp hext hR (jk := jk) (env := env) (e := .timer) (W' := { V.W with w := w' }) (by simp only [Phone.step, e, Option.map_some])
    exact .inl ⟨w', k', e1, c, r1⟩
  | source e =>
    cases hs : Sink.step mv V.side.sink e with
    | none => exact .inr ⟨e, rfl, hs⟩
    | some s =>
      left
      cases ho : Show.own e with
      | true =>
        refine ⟨V.W.w, V.side, ?_, .refl _ _, hR⟩
        simp only [During.ev, step, Show.step, ho, if_true, Option.map_some]
      | false =>
        obtain ⟨w', e1, c⟩ := run_calm E (p := q) (a := r.source) ((s.log.drop V.side.sink.log.length).filterMap Show.hears) (live_ses h) (by
          intro e he
          obtain ⟨o, -, ho⟩ := List.mem_filterMap.mp he
          exact hears_sink ho)
        have hst : Show.step st mv E ⟨V.W.w, V.side⟩ (.sink e) = some ⟨w', Show.follow st E V.W.w.app.log.length { V.side with sink := s } (w'.app.log.drop V.W.w.app.log.length)⟩ := by
          simp only [Show.step, ho, Bool.false_eq_true, if_false, hs, Option.bind_some, Show.advance, e1, Option.map_some]
        refine ⟨w', _, ?_, c, Show.reached_run hR (es := [.sink e]) ?_ (by rw [Show.run, hst]; rfl)⟩
        · simp only [During.ev, step, hst, Option.map_some]
        · intro z hz
          rw [List.mem_singleton.mp hz]
          exact hd

/-- All that happens during a session. -/
theorem during_all {st : SSet} {ext : List (List Byte × List Byte)} {mv : Moves} (hp : Sink.Spec.PortOk (Show.cfg st ext)) (hext : ext.length < 1000000) {jk : Nat → Byte} {env : Event.Env} {E : Sinkctl.Env}
    {r : Turn} {ws : List (List Byte)} {p : Nat} {y : P2p.Peer} {q : Mirror.Peer} {g : Nat} {x : P2p.Grp} (ds : List During) : ∀ {V : World}, Live r ws V.W p y q g x →
    Show.Spec.Reached st ext mv E ⟨V.W.w, V.side⟩ → (∀ d ∈ ds, d.Ok) →
    (∃ w' k', run st mv jk env E V (ds.map During.ev) = some ⟨{ V.W with w := w' }, k'⟩ ∧ Calm r.source V.W.w w' ∧ Live r ws { V.W with w := w' } p y q g x ∧ Show.Spec.Reached st ext mv E ⟨w', k'⟩) ∨
      Overrun st mv jk env E V (ds.map During.ev) := by
  induction ds with
  | nil => intro V h hR _; exact .inl ⟨V.W.w, V.side, rfl, .refl _ _, h, hR⟩
  | cons d ds ih =>
    intro V h hR hd
    rcases during_one hp hext (jk := jk) (env := env) h hR (hd d (by simp)) with ⟨w1, k1, e1, c1, r1⟩ | ⟨e, rfl, hn⟩
    · rcases ih (V := ⟨{ V.W with w := w1 }, k1⟩) (live_calm h c1) r1 (fun z hz => hd z (by simp [hz])) with ⟨w2, k2, e2, c2, l2, r2⟩ | ho
      · refine .inl ⟨w2, k2, ?_, c1.trans c2, l2, r2⟩
        rw [List.map_cons, run, e1, Option.bind_some]
        exact e2
      · refine .inr ?_
        have := Overrun.after (a := [d.ev]) (V := V) (U := ⟨{ V.W with w := w1 }, k1⟩) (by simp only [run, e1, Option.bind_some]) ho
        simpa using this
    · exact .inr ⟨[], e, ds.map During.ev, V, rfl, rfl, hn⟩

end Verif.Whole
