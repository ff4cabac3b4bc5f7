import Verif.Spec.Show
import Verif.Props.Sink
/-! # What a sink reports, event by event -/
namespace Verif.Sink
open Verif.C
open Verif.Rtsp (Msg Moves isRemote local_ nextCookie)
open Verif.Rtsp.Spec (AtRest)
open Verif.Show.Spec (reports)

theorem reports_append (a b : List Out) : reports (a ++ b) = reports a ++ reports b := List.filter_append ..

theorem reports_shown (r : Option (Nat × Nat)) : reports (Spec.shown r) = Spec.shown r := by
  cases r <;> rfl

/-- What handling a message changes. -/
def Heard (s t : St) (m : Msg) : Prop :=
  Kept s t ∧ ∃ ex, t.log = s.log ++ ex ∧
    (reports ex = [] ∨
      ∃ c v h, m.type = .request ∧ m.method = bytes "SET_PARAMETER" ∧ Spec.formats m = some (some (c, v, h)) ∧ Wfd.Spec.Chosen c v h t.hres t.vres ∧
        reports ex = [.resolution t.hres t.vres])

theorem Heard.quiet {s t : St} {m : Msg} (h : Kept s t) (ex : List Out) (hl : t.log = s.log ++ ex) (he : reports ex = []) : Heard s t m := ⟨h, ex, hl, Or.inl he⟩

theorem afterFormats_res (s : St) (m : Msg) (r : Bool × St) (h : afterFormats s m = some r) :
    r.2.log = s.log ∨ ∃ c v hh, Spec.formats m = some (some (c, v, hh)) ∧ Wfd.Spec.Chosen c v hh r.2.hres r.2.vres ∧ r.2.log = s.log ++ [.resolution r.2.hres r.2.vres] := by
  unfold afterFormats at h
  cases hf : Spec.formats m with
  | none => rw [hf] at h; cases h
  | some f =>
    rw [hf] at h
    cases f with
    | none => cases h; exact Or.inl rfl
    | some q =>
      obtain ⟨c, v, hh⟩ := q
      simp only [Option.map_eq_some_iff] at h
      obtain ⟨x, hx, h⟩ := h
      subst h
      unfold setFormat at hx
      rcases Wfd.setFormat_chooses ⟨s.hres, s.vres, 0⟩ c v hh with ⟨a, b, e1, e2⟩ | ⟨e1, e2, e3, e4⟩
      · rw [e1] at hx
        simp only [Option.bind_eq_bind, Option.bind_some] at hx
        rw [if_neg (Int.lt_irrefl 0)] at hx
        cases hx
        exact Or.inr ⟨c, v, hh, rfl, e2, rfl⟩
      · rw [e1] at hx
        simp only [Option.bind_eq_bind, Option.bind_some] at hx
        rw [if_pos (by decide)] at hx
        cases hx
        exact Or.inl rfl

theorem take_heard (mv : Moves) (s s' : St) (m : Msg) (hm : AtRest m) (hp : Spec.PortOk s.cfg) (ht : m.type = .request) (hme : m.method = bytes "SET_PARAMETER")
    (h : takeParams mv s m = some s') : Heard s s' m := by
  rw [take_eq mv s m hm] at h
  simp only [Option.bind_eq_some_iff] at h
  obtain ⟨s2, h2, r, h3, h4⟩ := h
  obtain ⟨a1, a2, _⟩ := afterUrl_keeps s m
  obtain ⟨b1, b2, _⟩ := afterUibc_keeps _ _ m h2
  obtain ⟨c1, c2, _⟩ := afterSetting_keeps s2 m
  obtain ⟨f, res, _, _, d1, _⟩ := afterFormats_cases _ m r h3
  have hk : Kept s r.2 := ((a1.trans b1).trans c1).trans d1
  have hl : (afterSetting s2 m).log = s.log := by rw [c2, b2, a2]
  have fin : ∀ t : St, Kept r.2 t → t.hres = r.2.hres → t.vres = r.2.vres → (∃ e2, t.log = r.2.log ++ e2 ∧ reports e2 = []) → Heard s t m := by
    intro t k1 k2 k3 ⟨e2, k4, k5⟩
    rcases afterFormats_res _ m r h3 with g | ⟨c, v, hh, g1, g2, g3⟩
    · exact ⟨hk.trans k1, e2, by rw [k4, g, hl], Or.inl k5⟩
    · refine ⟨hk.trans k1, [.resolution r.2.hres r.2.vres] ++ e2, by rw [k4, g3, hl, List.append_assoc], Or.inr ⟨c, v, hh, ht, hme, g1, by rw [k2, k3]; exact g2, ?_⟩⟩
      rw [reports_append, k5, k2, k3]; rfl
  have same := fin r.2 (Kept.refl _) rfl rfl ⟨[], by simp, rfl⟩
  split at h4
  · cases h4; exact same
  · unfold afterTrigger at h4
    split at h4
    · cases h4; exact same
    · rename_i v hv
      obtain ⟨t, g1, g2⟩ := trigger_cases mv r.2 v (by rw [hk.cfg]; exact hp)
      rw [g1] at h4
      cases h4
      rcases g2 with g2 | g2 | ⟨_, u, _, _, g2⟩
      · rw [g2]; exact same
      · rw [g2]; exact fin _ ⟨rfl, rfl, rfl, rfl, rfl, rfl, rfl⟩ rfl rfl ⟨[], by simp, rfl⟩
      · rw [g2]; exact fin _ ⟨rfl, rfl, rfl, rfl, rfl, rfl, rfl⟩ rfl rfl ⟨_, rfl, rfl⟩

theorem handle_heard (mv : Moves) (s s' : St) (m : Msg) (hm : AtRest m) (hu : m.isUsed = true) (hb : s.bus = true) (hp : Spec.PortOk s.cfg) (hext : s.cfg.ext.length < 1000000)
    (hs : handle mv s m = some s') : Heard s s' m := by
  have same : Heard s s m := .quiet (Kept.refl s) [] (by simp) rfl
  unfold handle at hs
  split at hs
  · cases hs; exact same
  rename_i ht
  have ht' : m.type = .request := Decidable.byContradiction ht
  split at hs
  · by_cases hr : isRemote m.cookie = true
    · obtain ⟨r, s1, h1, h2⟩ := options_reply mv s m hu hr hb
      rw [hs] at h2
      cases h2
      obtain ⟨r', s2, h3, h4⟩ := request_cases mv (s.out (.sent (Spec.ok (local_ m.cookie) [bytes "Public: " ++ Spec.quoted (bytes "org.wfa.wfd1.0, GET_PARAMETER, SET_PARAMETER")] []))) (bytes "OPTIONS") (bytes "*")
        (bytes "Require") (bytes "org.wfa.wfd1.0") false (by decide) (by decide) (by unfold Rtsp.Plain; decide +kernel)
      rw [h1] at h3
      cases h3
      rcases h4 with ⟨_, h4 | h4⟩ | ⟨_, _, _, h4⟩
      · rw [h4]; exact .quiet ⟨rfl, rfl, rfl, rfl, rfl, rfl, rfl⟩ _ rfl rfl
      · rw [h4]; exact .quiet ⟨rfl, rfl, rfl, rfl, rfl, rfl, rfl⟩ _ rfl rfl
      · rw [h4]; exact .quiet ⟨rfl, rfl, rfl, rfl, rfl, rfl, rfl⟩ _ (List.append_assoc ..) rfl
    · unfold handleOptions at hs
      rw [no_reply m (Or.inr (by simpa using hr))] at hs
      cases hs; exact same
  split at hs
  · by_cases hr : isRemote m.cookie = true
    · rw [get_eq mv s m hm hu hr hb hext] at hs
      split at hs
      · cases hs
      · cases hs; exact .quiet ⟨rfl, rfl, rfl, rfl, rfl, rfl, rfl⟩ _ rfl rfl
    · unfold handleGet at hs
      rw [no_reply m (Or.inr (by simpa using hr))] at hs
      cases hs; exact same
  split at hs
  · rename_i hme
    by_cases hr : isRemote m.cookie = true
    · rw [set_reply mv s m hu hr hb] at hs
      obtain ⟨h1, ex, h2, h3⟩ := take_heard mv (s.out (.sent (Spec.ok (local_ m.cookie) [] []))) s' m hm hp ht' hme hs
      refine ⟨⟨h1.1, h1.2, h1.3, h1.4, h1.5, h1.6, h1.7⟩, _, h2.trans (List.append_assoc ..), ?_⟩
      rw [reports_append]
      exact h3
    · unfold handleSet at hs
      rw [no_reply m (Or.inr (by simpa using hr))] at hs
      cases hs; exact same
  · cases hs; exact same

theorem reports_closed (ex : List Out) (h : ∀ o ∈ ex, ∃ f, o = .closed f) : reports ex = [] := by
  unfold reports
  rw [List.filter_eq_nil_iff]
  intro o ho
  obtain ⟨f, rfl⟩ := h o ho
  simp

theorem close_shut (s : St) (hb : s.fd.isSome = true) : (close s).fd = none ∧ (close s).connected = false ∧ ∃ ex, (close s).log = s.log ++ ex ∧ reports ex = [] := by
  unfold close
  obtain ⟨f, hf⟩ := Option.isSome_iff_exists.mp hb
  rw [hf]
  dsimp only
  refine ⟨rfl, rfl, ?_⟩
  split
  · exact ⟨[.closed f, .closed f], by simp [St.out], rfl⟩
  · exact ⟨[.closed f], rfl, rfl⟩

theorem finish_shut (s : St) (hh : s.hup = true) (hb : s.fd.isSome = true) : (finish s).fd = none ∧ (finish s).connected = false ∧ ∃ ex, (finish s).log = s.log ++ ex ∧ reports ex = [.disconnected] := by
  obtain ⟨h1, h2, ex, h3, h4⟩ := close_shut s hb
  unfold finish
  rw [if_pos hh]
  refine ⟨h1, h2, ex ++ [.disconnected], ?_, by rw [reports_append, h4]; rfl⟩
  show (close s).log ++ _ = _
  rw [h3, List.append_assoc]

/-- What an event from outside changes and reports. -/
inductive Told (s s' : St) (e : Ev) : List Out → Prop
  /-- nothing that matters -/
  | nothing : s'.fd = s.fd → s'.connected = s.connected → Told s s' e []
  | resolution (m : Msg) (c v h : Nat) : e = .msg m → AtRest m → m.type = .request → m.method = bytes "SET_PARAMETER" → Spec.formats m = some (some (c, v, h)) →
      Wfd.Spec.Chosen c v h s'.hres s'.vres → s'.fd = s.fd → s.connected = true → s'.connected = true → Told s s' e [.resolution s'.hres s'.vres]
  | up : s'.fd = s.fd → s.fd.isSome = true → s.connected = false → s'.connected = true → Told s s' e [.connected]
  | down : s.fd.isSome = true → s'.fd = none → s'.connected = false → Told s s' e [.disconnected]
  | both : s.fd.isSome = true → s.connected = false → s'.fd = none → s'.connected = false → Told s s' e [.connected, .disconnected]

theorem step_told {c : Cfg} (mv : Moves) (s s' : St) (e : Ev) (h : Inv c s) (hp : Spec.PortOk c) (hext : c.ext.length < 1000000) (hd : Spec.Delivered e) (ho : Show.own e = false)
    (hs : step mv s e = some s') : ∃ ex, s'.log = s.log ++ ex ∧ Told s s' e (reports ex) := by
  obtain ⟨hc, hl, hf, hpl⟩ := h
  have same : ∃ ex, s.log = s.log ++ ex ∧ Told s s e (reports ex) := ⟨[], by simp, .nothing rfl rfl⟩
  cases e with
  | connect v k g => cases ho
  | close => cases ho
  | cookie =>
    simp only [step, Option.some.injEq] at hs
    rw [← hs]
    exact ⟨[], by simp, .nothing rfl rfl⟩
  | msg m =>
    simp only [step] at hs
    by_cases hcon : s.connected = true
    · rw [if_pos hcon] at hs
      have hb : s.bus = true := hl.bus.trans hcon
      unfold rtspFn at hs
      obtain ⟨t, ht, he⟩ := Option.map_eq_some_iff.mp hs
      obtain ⟨k, ex, g1, g2⟩ := handle_heard mv s t m hd.1 hd.2 hb (hc ▸ hp) (hc ▸ hext) ht
      have : t.hup = false := by rw [k.hup]; exact hl.hup
      unfold finish at he
      rw [if_neg (by rw [this]; simp)] at he
      subst he
      refine ⟨ex, g1, ?_⟩
      rcases g2 with g2 | ⟨c', v, hh, g2, g3, g4, g5, g6⟩
      · rw [g2]; exact .nothing k.fd k.connected
      · rw [g6]; exact .resolution m c' v hh rfl hd.1 g2 g3 g4 g5 k.fd hcon (k.connected.trans hcon)
    · rw [if_neg hcon] at hs
      cases hs; exact same
  | gone =>
    simp only [step] at hs
    by_cases hcon : s.connected = true
    · rw [if_pos hcon] at hs
      have hb : s.bus = true := hl.bus.trans hcon
      unfold rtspFn at hs
      cases hs
      obtain ⟨g1, g2, ex, g3, g4⟩ := finish_shut { s with hup := true } rfl (hl.fd hb)
      exact ⟨ex, g3, by rw [g4]; exact .down (hl.fd hb) g1 g2⟩
    · rw [if_neg hcon] at hs
      cases hs; exact same
  | reply ck m =>
    simp only [step] at hs
    by_cases hcon : s.connected = true ∧ ck ∈ s.setups
    · rw [if_pos hcon] at hs
      have hb : s.bus = true := hl.bus.trans hcon.1
      cases m with
      | none =>
        simp only [setupFn, Option.bind_eq_bind, Option.bind_some, Option.isSome_none, Bool.false_eq_true, and_false, if_false, Option.some.injEq] at hs
        rw [← hs]
        exact ⟨[], by simp, .nothing rfl rfl⟩
      | some m =>
        obtain ⟨r, t, g0, g1, g2, g3, g4, g5, g6, g7, g8⟩ := setup_cases mv { s with setups := s.setups.erase ck } m hd
        rw [g0] at hs
        simp only [Option.bind_eq_bind, Option.bind_some, Option.isSome_some, and_true] at hs
        have hex : ∃ ex, t.log = s.log ++ ex ∧ reports ex = [] := by
          rcases g8 with g8 | ⟨u, w, k, g8⟩
          · exact ⟨[], by simpa using g8, rfl⟩
          · exact ⟨_, g8, rfl⟩
        obtain ⟨ex, x1, x2⟩ := hex
        by_cases hr : r < 0
        · rw [if_pos hr] at hs
          unfold rtspFn at hs
          cases hs
          obtain ⟨q1, q2, ex2, q3, q4⟩ := finish_shut { t with hup := true } rfl (by show t.fd.isSome = true; rw [g2]; exact hl.fd hb)
          refine ⟨ex ++ ex2, ?_, ?_⟩
          · rw [q3, ← List.append_assoc, ← x1]
          · rw [reports_append, x2, q4]; exact .down (hl.fd hb) q1 q2
        · rw [if_neg hr] at hs
          cases hs
          exact ⟨ex, x1, by rw [x2]; exact .nothing g2 g4⟩
    · rw [if_neg hcon] at hs
      cases hs; exact same
  | io o er so bu ma =>
    unfold step at hs
    by_cases h1 : s.fd.isSome = true ∧ s.connected = false
    · simp only [h1, and_self, if_true, Option.some.injEq] at hs
      obtain ⟨h2, h3⟩ := h1
      rw [← hs]
      -- before hanging up
      have hpre : ∃ t, (if o = true then sinkConnected s so bu ma else s) = t ∧ t.fd = s.fd ∧
          ((t.log = s.log ∧ t.connected = false) ∨ (t.log = s.log ++ [.connected] ∧ t.connected = true)) := by
        refine ⟨_, rfl, ?_⟩
        by_cases q : o = true
        · rw [if_pos q]
          unfold sinkConnected
          rw [if_neg (by rw [h3, hl.hup]; simp)]
          by_cases q1 : so = true
          · rw [if_pos q1]; exact ⟨rfl, Or.inl ⟨rfl, h3⟩⟩
          rw [if_neg q1]
          by_cases q2 : bu = false
          · rw [if_pos q2]; exact ⟨rfl, Or.inl ⟨rfl, h3⟩⟩
          rw [if_neg q2]
          simp only
          by_cases q3 : ma = true
          · rw [if_pos q3]; exact ⟨rfl, Or.inr ⟨rfl, rfl⟩⟩
          · rw [if_neg q3]; exact ⟨rfl, Or.inl ⟨rfl, h3⟩⟩
        · rw [if_neg q]; exact ⟨rfl, Or.inl ⟨rfl, h3⟩⟩
      obtain ⟨t, t0, t1, t2⟩ := hpre
      unfold io
      simp only
      rw [t0]
      generalize hu : (if er = true then { t with hup := true } else t) = u
      have hul : u.log = t.log ∧ u.fd = t.fd ∧ u.connected = t.connected := by rw [← hu]; split <;> exact ⟨rfl, rfl, rfl⟩
      obtain ⟨u1, u2, u3⟩ := hul
      by_cases hh : u.hup = true
      · obtain ⟨q1, q2, ex2, q3, q4⟩ := finish_shut u hh (by rw [u2, t1]; exact h2)
        rcases t2 with ⟨t2, t3⟩ | ⟨t2, t3⟩
        · exact ⟨ex2, by rw [q3, u1, t2], by rw [q4]; exact .down h2 q1 q2⟩
        · refine ⟨[.connected] ++ ex2, by rw [q3, u1, t2, List.append_assoc], ?_⟩
          rw [reports_append, q4]
          exact .both h2 h3 q1 q2
      · have : finish u = u := by unfold finish; rw [if_neg hh]
        rw [this]
        rcases t2 with ⟨t2, t3⟩ | ⟨t2, t3⟩
        · exact ⟨[], by rw [u1, t2]; simp, .nothing (u2.trans t1) (by rw [u3, t3, h3])⟩
        · exact ⟨[.connected], by rw [u1, t2], .up (u2.trans t1) h2 h3 (u3.trans t3)⟩
    · simp only [h1, if_false, Option.some.injEq] at hs
      rw [← hs]; exact same

end Verif.Sink
