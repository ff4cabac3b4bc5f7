import Verif.Proof.ShowSink
import Verif.Proof.Sinkctl
import Verif.Proof.Session
/-! # Lemmas about the sink controller with its sink and its player -/
namespace Verif.Show
open Verif.C
open Verif.Sinkctl (Act Ctl Fn Prim Star plain)
open Verif.Rtsp (Msg Moves)
open Verif.Settings (SSet)

/-! ### Following actions -/

theorem follow_append (st : SSet) (E : Sinkctl.Env) (n : Nat) (k : Side) (a b : List Act) :
    follow st E n k (a ++ b) = follow st E (n + a.length) (follow st E n k a) b := by
  induction a generalizing n k with
  | nil => rfl
  | cons x a ih =>
    rw [List.cons_append, follow, follow, ih]
    congr 1
    simp only [List.length_cons]; omega

theorem follow_plain (st : SSet) (E : Sinkctl.Env) (n : Nat) (k : Side) (t : List Act) (h : ∀ a ∈ t, plain a = true) : follow st E n k t = k := by
  induction t generalizing n with
  | nil => rfl
  | cons a t ih =>
    rw [follow]
    have ha := h a (by simp)
    have : follow1 st E n k a = k := by cases a <;> first | rfl | (simp [plain] at ha)
    rw [this]
    exact ih _ fun x hx => h x (by simp [hx])

theorem latest_append (log t : List Act) (h : ∀ a ∈ t, Sinkctl.isConnect a = false) : Spec.latest (log ++ t) = Spec.latest log := by
  unfold Spec.latest
  rw [List.reverse_append, List.find?_append]
  have : List.find? Sinkctl.isConnect t.reverse = none := by
    rw [List.find?_eq_none]
    intro x hx
    rw [h x (List.mem_reverse.mp hx)]; simp
  rw [this]; rfl

theorem latest_connect (log : List Act) (x : Option (List Byte)) : Spec.latest (log ++ [.connect x]) = some (.connect x) := by
  unfold Spec.latest
  rw [List.reverse_append]; rfl

theorem spawned_append (a b : List Act) : Spec.spawned (a ++ b) = Spec.spawned a ++ Spec.spawned b := List.filterMap_append ..

theorem plain_not (t : List Act) (h : ∀ a ∈ t, plain a = true) : (∀ a ∈ t, Sinkctl.isConnect a = false) ∧ Spec.spawned t = [] := by
  constructor
  · intro a ha
    have := h a ha
    cases a <;> first | rfl | (simp [plain] at this)
  · induction t with
    | nil => rfl
    | cons a t ih =>
      have ha := h a (by simp)
      have ih := ih fun x hx => h x (by simp [hx])
      unfold Spec.spawned at ih ⊢
      rw [List.filterMap_cons, ih]
      cases a <;> first | rfl | (simp [plain] at ha)

/-! ### The controller and the sink agree -/

/-- The controller's variables agree with the sink. -/
structure K (mv : Moves) (cf : Sink.Cfg) (c : Ctl) (k : Side) : Prop where
  opn : c.isOpen = k.sink.fd.isSome
  con : k.sink.connected = true ↔ c.isOpen = true ∧ c.conn = true
  ses : c.isOpen = true → c.runPeer ≠ none
  idle : c.runPeer ≠ none → c.isOpen = false → c.conn = false
  tgt : c.isOpen = true → Spec.latest c.log = some (.connect (some k.target))
  ids : k.players.map (·.1) = Spec.spawned c.log
  reached : Sink.Spec.Reached mv cf k.sink

/-- What the controller does next keeps that, and starts no player. -/
def Goes (st : SSet) (E : Sinkctl.Env) (mv : Moves) (cf : Sink.Cfg) (c : Ctl) (k : Side) (c' : Ctl) : Prop :=
  ∃ t, c'.log = c.log ++ t ∧ K mv cf c' (follow st E c.log.length k t) ∧ (follow st E c.log.length k t).players = k.players ∧ Spec.spawned t = []

theorem connect_no (s : Sink.St) (v : Bool) (h : s.fd = none) : (Sink.connect s v true true).2 = if v then { s with fd := some s.opened, opened := s.opened + 1 } else s := by
  unfold Sink.connect
  cases v <;> simp [h]

theorem fn_goes {st : SSet} {E : Sinkctl.Env} {mv : Moves} {cf : Sink.Cfg} {c c' : Ctl} {k : Side} (h : Fn E c c') (hk : K mv cf c k) : Goes st E mv cf c k c' := by
  -- a failed attempt
  have fail : ∀ (t : Option (List Byte)) (c'' : Ctl), c.isOpen = false → (E.acc c.log.length && t.isSome) = false → c''.log = c.log ++ [.connect t] → c''.isOpen = c.isOpen → c''.conn = c.conn →
      c''.runPeer = c.runPeer → Goes st E mv cf c k c'' := by
    intro t c'' ho hf h1 h2 h3 h4
    have hfd : k.sink.fd = none := by
      have := hk.opn; rw [ho] at this
      simpa using this.symm
    have e : follow st E c.log.length k [.connect t] = k := by
      simp only [follow, follow1, hf, connect_no k.sink _ hfd, Bool.false_eq_true, if_false]
    refine ⟨[.connect t], h1, ?_, by rw [e], rfl⟩
    rw [e]
    refine ⟨by rw [h2]; exact hk.opn, by rw [h2, h3]; exact hk.con, by rw [h2, h4]; exact hk.ses, by rw [h2, h3, h4]; exact hk.idle, ?_, ?_, hk.reached⟩
    · rw [h2, ho]; intro x; cases x
    · rw [h1, spawned_append, hk.ids]
      show _ = _ ++ []
      rw [List.append_nil]
  -- a successful one
  have good : ∀ (t : Option (List Byte)) (c'' : Ctl), c.runPeer ≠ none → c.isOpen = false → (E.acc c.log.length && t.isSome) = true → c''.log = c.log ++ [.connect t] → c''.isOpen = true → c''.conn = c.conn →
      c''.runPeer = c.runPeer → Goes st E mv cf c k c'' := by
    intro t c'' hr ho hf h1 h2 h3 h4
    have hfd : k.sink.fd = none := by
      have := hk.opn; rw [ho] at this
      simpa using this.symm
    have hc : k.sink.connected = false := by
      cases hc : k.sink.connected with
      | false => rfl
      | true => have := (hk.con.mp hc).1; rw [ho] at this; cases this
    have e : follow st E c.log.length k [.connect t] = { k with sink := { k.sink with fd := some k.sink.opened, opened := k.sink.opened + 1 }, target := t.getD [] } := by
      simp only [follow, follow1, hf, connect_no k.sink _ hfd, if_true]
    refine ⟨[.connect t], h1, ?_, by rw [e], rfl⟩
    rw [e]
    refine ⟨by rw [h2]; rfl, ?_, (by intro _; rw [h4]; exact hr), (by rw [h2]; intro _ x; cases x), ?_, ?_, ?_⟩
    · rw [h2, h3, hk.idle hr ho]
      show k.sink.connected = true ↔ _
      rw [hc]; simp
    · intro _
      rw [h1, latest_connect]
      cases t with
      | none => simp at hf
      | some t => rfl
    · show k.players.map (·.1) = _
      rw [h1, spawned_append, hk.ids]
      show _ = _ ++ []
      rw [List.append_nil]
    · refine Session.reached_step (e := .connect true true true) hk.reached True.intro ?_
      show some (Sink.connect k.sink true true true).2 = _
      rw [connect_no _ _ hfd]; rfl
  cases h with
  | skip =>
    refine ⟨[], by simp, ?_, rfl, rfl⟩
    exact ⟨hk.opn, hk.con, hk.ses, hk.idle, hk.tgt, hk.ids, hk.reached⟩
  | yes t hr ho hf => exact good t _ hr ho hf rfl rfl rfl rfl
  | giveUp t hr ho ht hf => exact fail t _ ho hf rfl rfl rfl rfl
  | again t hr ho ht hf => exact fail t _ ho hf rfl rfl rfl rfl

theorem close_same (s : Sink.St) : (Sink.close s).fd = none ∧ (s.connected = true → s.fd.isSome = true) → (Sink.close s).connected = false := by
  intro ⟨_, h⟩
  unfold Sink.close
  cases hf : s.fd with
  | none =>
    rw [hf] at h
    cases hc : s.connected with
    | false => rfl
    | true => exact nomatch h hc
  | some f => rfl

theorem close_none (s : Sink.St) : (Sink.close s).fd = none := by
  unfold Sink.close
  cases hf : s.fd with
  | none => exact hf
  | some f => rfl

theorem prim_goes {st : SSet} {E : Sinkctl.Env} {mv : Moves} {cf : Sink.Cfg} {c c' : Ctl} {k : Side} (h : Prim E false c c') (hk : K mv cf c k) : Goes st E mv cf c k c' := by
  -- the end of a session
  have ends : ∀ (t : List Act) (c'' : Ctl), (follow st E c.log.length k t) = { k with sink := Sink.close k.sink } → c''.log = c.log ++ t → c''.isOpen = false → c''.runPeer = none →
      Spec.spawned t = [] → Goes st E mv cf c k c'' := by
    intro t c'' e h1 h2 h3 h4
    refine ⟨t, h1, ?_, by rw [e], h4⟩
    rw [e]
    refine ⟨?_, ?_, ?_, ?_, ?_, ?_, ?_⟩
    · rw [h2]
      show false = (Sink.close k.sink).fd.isSome
      rw [close_none]; rfl
    · show (Sink.close k.sink).connected = true ↔ _
      rw [close_same k.sink ⟨close_none _, fun x => by rw [← hk.opn]; exact (hk.con.mp x).1⟩, h2]; simp
    · rw [h2]; intro x; cases x
    · rw [h3]; intro x; exact absurd rfl x
    · rw [h2]; intro x; cases x
    · show k.players.map (·.1) = _
      rw [h1, spawned_append, h4, List.append_nil]; exact hk.ids
    · exact Session.reached_step (e := .close) hk.reached True.intro rfl
  cases h with
  | calm hc =>
    obtain ⟨t, ht, hp⟩ := hc.log
    obtain ⟨g1, g2⟩ := plain_not t hp
    refine ⟨t, ht, ?_, by rw [follow_plain _ _ _ _ _ hp], g2⟩
    rw [follow_plain _ _ _ _ _ hp]
    refine ⟨by rw [hc.isOpen]; exact hk.opn, by rw [hc.isOpen, hc.conn]; exact hk.con, by rw [hc.isOpen, hc.runPeer]; exact hk.ses, by rw [hc.isOpen, hc.runPeer, hc.conn]; exact hk.idle, ?_, ?_, hk.reached⟩
    · rw [hc.isOpen, ht, latest_append _ _ g1]; exact hk.tgt
    · rw [ht, spawned_append, g2, List.append_nil]; exact hk.ids
  | beg i hr =>
    have ho : c.isOpen = false := by
      cases ho : c.isOpen with
      | false => rfl
      | true => exact absurd hr (hk.ses ho)
    refine ⟨[.running i], rfl, ?_, rfl, rfl⟩
    refine ⟨hk.opn, ?_, fun x => by simp, fun _ _ => rfl, ?_, ?_, hk.reached⟩
    · show k.sink.connected = true ↔ c.isOpen = true ∧ false = true
      have := hk.con
      rw [ho] at this ⊢
      rw [this]; simp
    · intro x
      have x : c.isOpen = true := x
      rw [ho] at x; cases x
    · show k.players.map (·.1) = Spec.spawned (c.log ++ [.running i])
      rw [spawned_append, hk.ids]
      show _ = _ ++ []
      rw [List.append_nil]
  | fin i hr hp => exact ends [.close, .stopped i] _ rfl rfl rfl rfl rfl
  | finKill i p hr hp => exact ends [.kill p, .close, .stopped i] _ rfl rfl rfl rfl rfl
  | timer _ hf => exact fn_goes hf hk
  | up h => cases h
  | down h => cases h
  | lost h => cases h
  | spawn _ h => cases h

theorem Goes.trans {st : SSet} {E : Sinkctl.Env} {mv : Moves} {cf : Sink.Cfg} {a b c : Ctl} {k : Side} (h : Goes st E mv cf a k b)
    (g : ∀ k', K mv cf b k' → Goes st E mv cf b k' c) : Goes st E mv cf a k c := by
  obtain ⟨t, h1, h2, h3, h4⟩ := h
  obtain ⟨u, g1, g2, g3, g4⟩ := g _ h2
  have e : follow st E a.log.length k (t ++ u) = follow st E b.log.length (follow st E a.log.length k t) u := by
    rw [follow_append, h1, List.length_append]
  refine ⟨t ++ u, by rw [g1, h1, List.append_assoc], by rw [e]; exact g2, by rw [e, g3, h3], by rw [spawned_append, h4, g4]; rfl⟩

theorem star_goes {st : SSet} {E : Sinkctl.Env} {mv : Moves} {cf : Sink.Cfg} {c c' : Ctl} {k : Side} (h : Star E false c c') (hk : K mv cf c k) : Goes st E mv cf c k c' := by
  induction h with
  | refl => exact ⟨[], by simp, hk, rfl, rfl⟩
  | tail _ p ih => exact ih.trans fun _ hk' => prim_goes p hk'

/-- What the controller does is followed by the sink. -/
theorem advance_of {st : SSet} {E : Sinkctl.Env} {W W' : World} {es : List Sinkctl.Ev} (h : advance st E W es = some W') {t : List Act} {w : Sinkctl.S} (hr : Sinkctl.run E W.ctl es = some w)
    (ht : w.app.log = W.ctl.app.log ++ t) : W' = ⟨w, follow st E W.ctl.app.log.length W.side t⟩ := by
  unfold advance at h
  rw [hr, Option.map_some, Option.some.injEq] at h
  rw [← h, ht, List.drop_left]

theorem advance_eq {st : SSet} {E : Sinkctl.Env} {W : World} {es : List Sinkctl.Ev} {t : List Act} {w : Sinkctl.S} (hr : Sinkctl.run E W.ctl es = some w)
    (ht : w.app.log = W.ctl.app.log ++ t) : advance st E W es = some ⟨w, follow st E W.ctl.app.log.length W.side t⟩ := by
  unfold advance
  rw [hr, Option.map_some, ht, List.drop_left]

/-- An event that is not caused by the sink. -/
theorem ctl_step {st : SSet} {E : Sinkctl.Env} {mv : Moves} {cf : Sink.Cfg} {W W' : World} {e : Sinkctl.Ev} (hk : K mv cf W.ctl.app W.side) (h : step st mv E W (.ctl e) = some W') :
    K mv cf W'.ctl.app W'.side ∧ W'.side.players = W.side.players := by
  simp only [step] at h
  split at h
  · cases h; exact ⟨hk, rfl⟩
  rename_i he
  have h' := h
  unfold advance at h'
  obtain ⟨w, h1, -⟩ := Option.map_eq_some_iff.mp h'
  have hs := Sinkctl.run_star (ses := false) [e] (c := W.ctl.app) (by intro x hx hy; rw [List.mem_singleton.mp hx] at hy; exact absurd hy he) h1 .refl
  obtain ⟨t, t1, t2, t3, _⟩ := star_goes (st := st) hs hk
  rw [advance_of h h1 t1]
  exact ⟨t2, t3⟩

theorem hears_reports (l : List Sink.Out) : l.filterMap hears = (Spec.reports l).filterMap hears := by
  induction l with
  | nil => rfl
  | cons o l ih =>
    unfold Spec.reports at ih ⊢
    rw [List.filterMap_cons, List.filter_cons]
    cases o <;> simp [hears, ih]

/-- What an event on the connection does. -/
inductive Happens (st : SSet) (E : Sinkctl.Env) (W : World) (s : Sink.St) (e : Sink.Ev) (W' : World) : Prop
  /-- nothing to the controller -/
  | quiet : W'.ctl = W.ctl → W'.side = { W.side with sink := s } → Happens st E W s e W'
  /-- a player is started -/
  | player (m : Msg) (c v h pid : Nat) : e = .msg m → m.type = .request → m.method = bytes "SET_PARAMETER" → Sink.Spec.formats m = some (some (c, v, h)) → Wfd.Spec.Chosen c v h s.hres s.vres →
      W.ctl.app.isOpen = true → W.ctl.app.pid = none → E.fork W.ctl.app.log.length = some pid → W'.ctl.app = { W.ctl.app with log := W.ctl.app.log ++ [.spawn (pid + 1)], pid := some (pid + 1) } →
      W'.side = { W.side with sink := s, players := W.side.players ++ [(pid + 1, Settings.playerArgv st (session { W.side with sink := s }))] } → Happens st E W s e W'
  | up : W.side.sink.connected = false → s.connected = true → W'.ctl = { W.ctl with app := { W.ctl.app with conn := true } } → W'.side = { W.side with sink := s } → Happens st E W s e W'
  | down : s.fd = none → W'.side.players = W.side.players → Happens st E W s e W'

theorem run_one {E : Sinkctl.Env} {w : Sinkctl.S} {e : Sinkctl.Ev} : Sinkctl.run E w [e] = Sinkctl.step E w e := by
  rw [Sinkctl.run]
  cases Sinkctl.step E w e <;> rfl

theorem sink_step {st : SSet} {E : Sinkctl.Env} {mv : Moves} {cf : Sink.Cfg} (hp : Sink.Spec.PortOk cf) (hext : cf.ext.length < 1000000) {W W' : World} {e : Sink.Ev} (hk : K mv cf W.ctl.app W.side)
    (hd : Sink.Spec.Delivered e) (ho : own e = false) {s : Sink.St} (hs : Sink.step mv W.side.sink e = some s) (h : step st mv E W (.sink e) = some W') :
    K mv cf W'.ctl.app W'.side ∧ Happens st E W s e W' := by
  have hi := Sink.reached_inv hp hext hk.reached
  obtain ⟨ex, hl, ht⟩ := Sink.step_told mv _ s e hi hp hext hd ho hs
  have hr := Session.reached_step hk.reached hd hs
  simp only [step, ho, hs, Bool.false_eq_true, if_false, Option.bind_some] at h
  rw [hl, List.drop_left, hears_reports] at h
  generalize hrep : Spec.reports ex = rep at h ht
  -- the connection ends
  have lost : ∀ (c : Ctl), c.isOpen = false → c.conn = false → c.log = W.ctl.app.log → s.fd = none → s.connected = false → K mv cf c { W.side with sink := s } := by
    intro c h1 h2 h3 h4 h5
    refine ⟨?_, ?_, ?_, ?_, ?_, ?_, hr⟩
    · rw [h1]; show false = s.fd.isSome; rw [h4]; rfl
    · show s.connected = true ↔ _; rw [h5, h1]; simp
    · rw [h1]; intro x; cases x
    · intro _ _; exact h2
    · rw [h1]; intro x; cases x
    · rw [h3]; exact hk.ids
  cases ht with
  | nothing h1 h2 =>
    have := advance_of (t := []) h (w := W.ctl) rfl (by simp)
    subst this
    refine ⟨⟨?_, ?_, hk.ses, hk.idle, hk.tgt, hk.ids, hr⟩, .quiet rfl rfl⟩
    · show _ = s.fd.isSome; rw [h1]; exact hk.opn
    · show s.connected = true ↔ _; rw [h2]; exact hk.con
  | resolution m c v hh h0 _ h1 h2 h3 h4 h5 h6 h7 =>
    obtain ⟨c1, c2⟩ := hk.con.mp h6
    have same : K mv cf W.ctl.app { W.side with sink := s } := by
      refine ⟨?_, ?_, hk.ses, hk.idle, hk.tgt, hk.ids, hr⟩
      · show _ = s.fd.isSome; rw [h5]; exact hk.opn
      · show s.connected = true ↔ _; rw [h7]; simp [c1, c2]
    change advance st E _ [.resolution] = _ at h
    by_cases hpid : W.ctl.app.pid = none
    · cases hf : E.fork W.ctl.app.log.length with
      | none =>
        have hrun : Sinkctl.run E W.ctl [.resolution] = some W.ctl := by
          rw [run_one]
          simp [Sinkctl.step, c1, c2, hpid, Sinkctl.steps, hf]
        have := advance_of (t := []) h (w := W.ctl) hrun (by simp)
        subst this
        exact ⟨same, .quiet rfl rfl⟩
      | some n =>
        have hrun : Sinkctl.run E W.ctl [.resolution] = some { W.ctl with app := { W.ctl.app with log := W.ctl.app.log ++ [.spawn (n + 1)], pid := some (n + 1) } } := by
          rw [run_one]
          simp [Sinkctl.step, c1, c2, hpid, Sinkctl.steps, hf, Sinkctl.act]
        have := advance_of (t := [.spawn (n + 1)]) h hrun rfl
        subst this
        refine ⟨⟨same.opn, same.con, same.ses, same.idle, ?_, ?_, hr⟩, .player m c v hh n h0 h1 h2 h3 h4 c1 hpid hf rfl rfl⟩
        · intro x
          show Spec.latest (W.ctl.app.log ++ [.spawn (n + 1)]) = _
          rw [latest_append _ _ (by intro a ha; rw [List.mem_singleton.mp ha]; rfl)]
          exact hk.tgt x
        · show (W.side.players ++ [(n + 1, Settings.playerArgv st (session { W.side with sink := s }))]).map (·.1) = Spec.spawned (W.ctl.app.log ++ [.spawn (n + 1)])
          rw [List.map_append, spawned_append]; exact congrArg (· ++ [n + 1]) hk.ids
    · have hrun : Sinkctl.run E W.ctl [.resolution] = some W.ctl := by
        rw [run_one]
        have : W.ctl.app.pid.isSome = true := by
          cases hq : W.ctl.app.pid with
          | none => exact absurd hq hpid
          | some q => rfl
        simp [Sinkctl.step, this]
      have := advance_of (t := []) h (w := W.ctl) hrun (by simp)
      subst this
      exact ⟨same, .quiet rfl rfl⟩
  | up h1 h2 h3 h4 =>
    have c1 : W.ctl.app.isOpen = true := by rw [hk.opn]; exact h2
    change advance st E _ [.up] = _ at h
    have hrun : Sinkctl.run E W.ctl [.up] = some { W.ctl with app := { W.ctl.app with conn := true } } := by
      rw [run_one]
      simp [Sinkctl.step, c1]
    have := advance_of (t := []) h hrun (by simp)
    subst this
    refine ⟨⟨?_, ?_, hk.ses, ?_, hk.tgt, hk.ids, hr⟩, .up h3 h4 rfl rfl⟩
    · show W.ctl.app.isOpen = s.fd.isSome; rw [h1]; exact hk.opn
    · show s.connected = true ↔ W.ctl.app.isOpen = true ∧ true = true
      rw [h4, c1]; simp
    · intro _ x
      have x : W.ctl.app.isOpen = false := x
      rw [c1] at x; cases x
  | down h1 h2 h3 =>
    have c1 : W.ctl.app.isOpen = true := by rw [hk.opn]; exact h1
    change advance st E _ [.down] = _ at h
    have h' := h
    unfold advance at h'
    obtain ⟨w, hrun, -⟩ := Option.map_eq_some_iff.mp h'
    have hst := hrun
    rw [run_one] at hst
    simp only [Sinkctl.step, c1, Bool.not_true, Bool.false_eq_true, if_false] at hst
    cases hc : W.ctl.app.conn with
    | false =>
      rw [hc] at hst
      simp only [Bool.not_false, if_true] at hst
      have hf := Sinkctl.sinkFn_fn hst
      obtain ⟨t, t1, t2, t3, _⟩ := fn_goes (st := st) hf (lost _ rfl rfl rfl h2 h3)
      have := advance_of h hrun t1
      subst this
      exact ⟨t2, .down h2 t3⟩
    | true =>
      rw [hc] at hst
      simp only [Bool.not_true, Bool.false_eq_true, if_false, Option.some.injEq] at hst
      have := advance_of (t := []) h hrun (by rw [← hst]; simp)
      subst this
      refine ⟨?_, .down h2 rfl⟩
      rw [← hst]
      exact lost _ rfl rfl rfl h2 h3
  | both h1 h2 h3 h4 =>
    have c1 : W.ctl.app.isOpen = true := by rw [hk.opn]; exact h1
    change advance st E _ [.up, .down] = _ at h
    have hrun : Sinkctl.run E W.ctl [.up, .down] = some { W.ctl with app := { W.ctl.app with isOpen := false, conn := false } } := by
      rw [Sinkctl.run]
      simp [Sinkctl.step, c1, Sinkctl.run]
    have := advance_of (t := []) h hrun (by simp)
    subst this
    exact ⟨lost _ rfl rfl rfl h3 h4, .down h3 rfl⟩

theorem start_K (st : SSet) (ext : List (List Byte × List Byte)) (mv : Moves) : K mv (cfg st ext) (start st ext).ctl.app (start st ext).side := by
  refine ⟨rfl, ⟨fun h => (nomatch h), fun h => (nomatch h.1)⟩, fun h => (nomatch h), fun _ _ => rfl, fun h => (nomatch h), rfl, ?_⟩
  exact ⟨[], (fun _ h => nomatch h), rfl⟩

theorem step_K {st : SSet} {E : Sinkctl.Env} {mv : Moves} {cf : Sink.Cfg} (hp : Sink.Spec.PortOk cf) (hext : cf.ext.length < 1000000) {W W' : World} {e : Ev} (hk : K mv cf W.ctl.app W.side)
    (hd : Spec.Delivered e) (h : step st mv E W e = some W') : K mv cf W'.ctl.app W'.side := by
  cases e with
  | ctl e => exact (ctl_step hk h).1
  | sink e =>
    cases ho : own e with
    | true =>
      simp only [step, ho, if_true] at h
      cases h; exact hk
    | false =>
      have h' := h
      simp only [step, ho, Bool.false_eq_true, if_false] at h'
      obtain ⟨s, hs, -⟩ := Option.bind_eq_some_iff.mp h'
      exact (sink_step hp hext hk hd ho hs h).1

theorem run_K {st : SSet} {E : Sinkctl.Env} {mv : Moves} {cf : Sink.Cfg} (hp : Sink.Spec.PortOk cf) (hext : cf.ext.length < 1000000) (es : List Ev) {W W' : World} (hk : K mv cf W.ctl.app W.side)
    (hd : ∀ e ∈ es, Spec.Delivered e) (h : run st mv E W es = some W') : K mv cf W'.ctl.app W'.side := by
  induction es generalizing W with
  | nil => cases h; exact hk
  | cons e es ih =>
    rw [run] at h
    obtain ⟨W1, h1, h2⟩ := Option.bind_eq_some_iff.mp h
    exact ih (step_K hp hext hk (hd e (by simp)) h1) (fun x hx => hd x (by simp [hx])) h2

theorem reached_K {st : SSet} {ext : List (List Byte × List Byte)} {E : Sinkctl.Env} {mv : Moves} (hp : Sink.Spec.PortOk (cfg st ext)) (hext : ext.length < 1000000) {W : World} (h : Spec.Reached st ext mv E W) :
    K mv (cfg st ext) W.ctl.app W.side := by
  obtain ⟨es, h1, h2⟩ := h
  exact run_K hp hext es (start_K st ext mv) h1 h2

/-! ### A session, event by event -/

theorem step_log {mv : Moves} {cf : Sink.Cfg} {s s' : Sink.St} (hp : Sink.Spec.PortOk cf) (hext : cf.ext.length < 1000000) (hr : Sink.Spec.Reached mv cf s) {e : Sink.Ev} (hd : Sink.Spec.Delivered e) (ho : own e = false)
    (h : Sink.step mv s e = some s') : ∃ ex, s'.log = s.log ++ ex ∧ Sink.Told s s' e (Spec.reports ex) := Sink.step_told mv s s' e (Sink.reached_inv hp hext hr) hp hext hd ho h

theorem run_log {mv : Moves} {cf : Sink.Cfg} {s s' : Sink.St} (hp : Sink.Spec.PortOk cf) (hext : cf.ext.length < 1000000) (es : List Sink.Ev) (hr : Sink.Spec.Reached mv cf s)
    (hd : ∀ e ∈ es, Sink.Spec.Delivered e ∧ own e = false) (h : Sink.run mv s es = some s') : ∃ ex, s'.log = s.log ++ ex := by
  induction es generalizing s with
  | nil => cases h; exact ⟨[], by simp⟩
  | cons e es ih =>
    rw [Sink.run] at h
    obtain ⟨s1, h1, h2⟩ := Option.bind_eq_some_iff.mp h
    obtain ⟨d1, d2⟩ := hd e (by simp)
    obtain ⟨ex, x1, _⟩ := step_log hp hext hr d1 d2 h1
    obtain ⟨ex2, x2⟩ := ih (Session.reached_step hr d1 h1) (fun x hx => hd x (by simp [hx])) h2
    exact ⟨ex ++ ex2, by rw [x2, x1, List.append_assoc]⟩

/-- An event of which the sink reports nothing. -/
theorem quiet_step {st : SSet} {E : Sinkctl.Env} {mv : Moves} {W : World} {e : Sink.Ev} (ho : own e = false) {s : Sink.St} (hs : Sink.step mv W.side.sink e = some s) {ex : List Sink.Out}
    (hl : s.log = W.side.sink.log ++ ex) (hq : Spec.reports ex = []) : step st mv E W (.sink e) = some ⟨W.ctl, { W.side with sink := s }⟩ := by
  simp only [step, ho, hs, Bool.false_eq_true, if_false, Option.bind_some]
  rw [hl, List.drop_left, hears_reports, hq]
  exact advance_eq (t := []) rfl (by simp)

theorem quiet_run {st : SSet} {E : Sinkctl.Env} {mv : Moves} {cf : Sink.Cfg} (hp : Sink.Spec.PortOk cf) (hext : cf.ext.length < 1000000) (es : List Sink.Ev) {W : World} (hr : Sink.Spec.Reached mv cf W.side.sink)
    (hd : ∀ e ∈ es, Sink.Spec.Delivered e ∧ own e = false) {s : Sink.St} (hs : Sink.run mv W.side.sink es = some s) {ex : List Sink.Out} (hl : s.log = W.side.sink.log ++ ex)
    (hq : Spec.reports ex = []) : run st mv E W (es.map .sink) = some ⟨W.ctl, { W.side with sink := s }⟩ := by
  induction es generalizing W ex with
  | nil => cases hs; rfl
  | cons e es ih =>
    rw [Sink.run] at hs
    obtain ⟨s1, h1, h2⟩ := Option.bind_eq_some_iff.mp hs
    obtain ⟨d1, d2⟩ := hd e (by simp)
    obtain ⟨ex1, x1, _⟩ := step_log hp hext hr d1 d2 h1
    have hr1 := Session.reached_step hr d1 h1
    have hd1 : ∀ e ∈ es, Sink.Spec.Delivered e ∧ own e = false := fun x hx => hd x (by simp [hx])
    obtain ⟨ex2, x2⟩ := run_log hp hext es hr1 hd1 h2
    have hx : ex = ex1 ++ ex2 := by
      rw [x2, x1, List.append_assoc] at hl
      exact (List.append_cancel_left hl).symm
    rw [hx, Sink.reports_append, List.append_eq_nil_iff] at hq
    rw [List.map_cons, run, quiet_step d2 h1 x1 hq.1, Option.bind_some]
    exact ih (W := ⟨W.ctl, { W.side with sink := s1 }⟩) hr1 hd1 h2 x2 hq.2

/-- A resolution is set while no player runs, and a process can be started. -/
theorem player_step {st : SSet} {E : Sinkctl.Env} {mv : Moves} {W : World} {e : Sink.Ev} (ho : own e = false) {s : Sink.St} (hs : Sink.step mv W.side.sink e = some s) {ex : List Sink.Out}
    (hl : s.log = W.side.sink.log ++ ex) {x y : Nat} (hq : Spec.reports ex = [.resolution x y]) (h1 : W.ctl.app.isOpen = true) (h2 : W.ctl.app.conn = true) (h3 : W.ctl.app.pid = none) {n : Nat}
    (hf : E.fork W.ctl.app.log.length = some n) : step st mv E W (.sink e) = some ⟨{ W.ctl with app := { W.ctl.app with log := W.ctl.app.log ++ [.spawn (n + 1)], pid := some (n + 1) } },
      { W.side with sink := s, players := W.side.players ++ [(n + 1, Settings.playerArgv st (session { W.side with sink := s }))] }⟩ := by
  simp only [step, ho, hs, Bool.false_eq_true, if_false, Option.bind_some]
  rw [hl, List.drop_left, hears_reports, hq]
  have hrun : Sinkctl.run E W.ctl [.resolution] = some { W.ctl with app := { W.ctl.app with log := W.ctl.app.log ++ [.spawn (n + 1)], pid := some (n + 1) } } := by
    rw [run_one]
    simp [Sinkctl.step, h1, h2, h3, Sinkctl.steps, hf, Sinkctl.act]
  exact advance_eq (t := [.spawn (n + 1)]) hrun rfl

/-- A conversation in which one resolution is set and the connection stays. -/
theorem player_run {st : SSet} {E : Sinkctl.Env} {mv : Moves} {cf : Sink.Cfg} (hp : Sink.Spec.PortOk cf) (hext : cf.ext.length < 1000000) (es : List Sink.Ev) {W : World} (hr : Sink.Spec.Reached mv cf W.side.sink)
    (hd : ∀ e ∈ es, Sink.Spec.Delivered e ∧ own e = false) {s : Sink.St} (hs : Sink.run mv W.side.sink es = some s) {ex : List Sink.Out} (hl : s.log = W.side.sink.log ++ ex) {x y : Nat}
    (hq : Spec.reports ex = [.resolution x y]) (h1 : W.ctl.app.isOpen = true) (h2 : W.ctl.app.conn = true) (h3 : W.ctl.app.pid = none) {n : Nat} (hf : E.fork W.ctl.app.log.length = some n) :
    ∃ u p, run st mv E W (es.map .sink) = some ⟨{ W.ctl with app := { W.ctl.app with log := W.ctl.app.log ++ [.spawn (n + 1)], pid := some (n + 1) } },
      { W.side with sink := s, players := W.side.players ++ [(n + 1, Settings.playerArgv st ⟨u, W.side.target, p, x, y⟩)] }⟩ := by
  induction es generalizing W ex with
  | nil =>
    cases hs
    have : ex = [] := by
      have : W.side.sink.log ++ [] = W.side.sink.log ++ ex := by simpa using hl
      exact (List.append_cancel_left this).symm
    rw [this] at hq; cases hq
  | cons e es ih =>
    rw [Sink.run] at hs
    obtain ⟨s1, g1, g2⟩ := Option.bind_eq_some_iff.mp hs
    obtain ⟨d1, d2⟩ := hd e (by simp)
    obtain ⟨ex1, x1, ht⟩ := step_log hp hext hr d1 d2 g1
    have hr1 := Session.reached_step hr d1 g1
    have hd1 : ∀ e ∈ es, Sink.Spec.Delivered e ∧ own e = false := fun x hx => hd x (by simp [hx])
    obtain ⟨ex2, x2⟩ := run_log hp hext es hr1 hd1 g2
    have hx : ex = ex1 ++ ex2 := by
      rw [x2, x1, List.append_assoc] at hl
      exact (List.append_cancel_left hl).symm
    rw [hx, Sink.reports_append] at hq
    generalize hrep : Spec.reports ex1 = rep at hq ht
    cases ht with
    | nothing _ _ =>
      rw [List.map_cons, run, quiet_step d2 g1 x1 hrep, Option.bind_some]
      exact ih (W := ⟨W.ctl, { W.side with sink := s1 }⟩) hr1 hd1 g2 x2 hq h1 h2 h3 hf
    | resolution m c v hh _ _ _ _ _ _ _ _ _ =>
      rw [List.singleton_append, List.cons.injEq] at hq
      obtain ⟨q1, q2⟩ := hq
      injection q1 with q1 q3
      rw [List.map_cons, run, player_step d2 g1 x1 hrep h1 h2 h3 hf, Option.bind_some]
      refine ⟨s1.uibcEnabled, s1.uibcPort, ?_⟩
      have := quiet_run (st := st) (E := E) (mv := mv) hp hext es (W := ⟨{ W.ctl with app := { W.ctl.app with log := W.ctl.app.log ++ [.spawn (n + 1)], pid := some (n + 1) } },
        { W.side with sink := s1, players := W.side.players ++ [(n + 1, Settings.playerArgv st (session { W.side with sink := s1 }))] }⟩) hr1 hd1 g2 x2 q2
      rw [this]
      rw [← q1, ← q3]
      rfl
    | up _ _ _ _ => cases hq
    | down _ _ _ => cases hq
    | both _ _ _ _ => cases hq

end Verif.Show
