import Verif.Proof.SinkSet
/-! Helper lemmas about the handlers and runs of the sink. -/
namespace Verif.Sink
open Verif.C
open Verif.Rtsp (Msg Rd Val Arg Moves REMOTE isRemote remote local_ nextCookie Open LinesAre flat)
open Verif.Rtsp.Spec (AtRest SameText named)

/-! ### Counting -/

theorem calls_append (n : String) (a b : List Out) : Spec.calls n (a ++ b) = Spec.calls n a + Spec.calls n b := by
  simp [Spec.calls, Spec.sent, List.filterMap_append, List.filter_append]

theorem isCall_self (n : String) (rest : List Byte) : Spec.isCall n (bytes n ++ bytes " " ++ rest) = true := by
  unfold Spec.isCall
  have : bytes " " = [32] := by decide
  rw [this]
  simp only [List.take_left, decide_true]

theorem isCall_head (n : String) (t : List Byte) (c d : Byte) (hn : (bytes n).head? = some c) (ht : t.head? = some d) (h : c ≠ d) : Spec.isCall n t = false := by
  unfold Spec.isCall
  cases hb : bytes n with
  | nil => rw [hb] at hn; cases hn
  | cons x xs =>
    rw [hb] at hn
    cases t with
    | nil => cases ht
    | cons y ys =>
      simp only [List.head?_cons, Option.some.injEq] at hn ht
      subst hn; subst ht
      simp only [List.cons_append, List.length_cons, List.take_succ_cons, List.cons.injEq, decide_eq_false_iff_not]
      exact fun e => h e.1.symm

theorem call_call (n : String) (uri head : List Byte) (k : Nat) : Spec.isCall n (Spec.call (bytes n) uri head k) = true := by
  unfold Spec.call Spec.message
  simp only [List.append_assoc]
  rw [← List.append_assoc]
  exact isCall_self n _

theorem head_append {α : Type} (a b : List α) (x : α) (h : a.head? = some x) : (a ++ b).head? = some x := by
  cases a with
  | nil => cases h
  | cons y ys => exact h

theorem call_other (n n' : String) (uri head : List Byte) (k : Nat) (c d : Byte) (hn : (bytes n).head? = some c) (hn' : (bytes n').head? = some d) (h : c ≠ d) :
    Spec.isCall n (Spec.call (bytes n') uri head k) = false := by
  apply isCall_head n _ c d hn _ h
  unfold Spec.call Spec.message
  simp only [List.append_assoc]
  exact head_append _ _ _ hn'

theorem call_ok (n : String) (k : Nat) (a b : List (List Byte)) (c : Byte) (hn : (bytes n).head? = some c) (h : c ≠ 82) : Spec.isCall n (Spec.ok k a b) = false := by
  apply isCall_head n _ c 82 hn _ h
  unfold Spec.ok Spec.message
  simp only [List.append_assoc]
  exact head_append _ _ _ (by decide)

theorem reply_ok (k : Nat) (a b : List (List Byte)) : Spec.isReply (Spec.ok k a b) = true := by
  unfold Spec.isReply Spec.ok Spec.message
  simp only [List.append_assoc]
  have : bytes "RTSP/1.0 200 OK" = bytes "RTSP/" ++ bytes "1.0 200 OK" := by decide
  rw [this, List.append_assoc]
  have h5 : 5 = (bytes "RTSP/").length := by decide
  rw [h5, List.take_left]
  simp

theorem reply_call (n : String) (uri head : List Byte) (k : Nat) (c : Byte) (hn : (bytes n).head? = some c) (h : c ≠ 82) : Spec.isReply (Spec.call (bytes n) uri head k) = false := by
  unfold Spec.isReply Spec.call Spec.message
  rw [decide_eq_false_iff_not]
  simp only [List.append_assoc]
  cases hb : bytes n with
  | nil => rw [hb] at hn; cases hn
  | cons x xs =>
    rw [hb] at hn
    simp only [List.head?_cons, Option.some.injEq] at hn
    subst hn
    simp only [List.cons_append, List.take_succ_cons]
    have : bytes "RTSP/" = 82 :: bytes "TSP/" := by decide
    rw [this]
    intro e
    exact h (List.cons.inj e).1

theorem calls_one (n : String) (t : List Byte) : Spec.calls n [.sent t] = if Spec.isCall n t then 1 else 0 := by
  simp only [Spec.calls, Spec.sent, List.filterMap_cons, List.filterMap_nil, List.filter_cons, List.filter_nil]
  split <;> rfl

theorem calls_shown (n : String) (r : Option (Nat × Nat)) : Spec.calls n (Spec.shown r) = 0 := by
  cases r with
  | none => rfl
  | some q => rfl

/-! ### The handlers -/

theorem quoted_plain (w : List Byte) (h : ∀ c ∈ w, c ≠ ch '\\' ∧ c ≠ ch '"' ∧ c ≠ 32 ∧ c ≠ 9 ∧ c ≠ 10 ∧ c ≠ 11) : Spec.quoted w = w := by
  unfold Spec.quoted
  have e : (w.flatMap fun c => if c = ch '\\' ∨ c = ch '"' then [ch '\\', c] else [c]) = w := by
    induction w with
    | nil => rfl
    | cons a w ih =>
      obtain ⟨h1, h2, _⟩ := h a (by simp)
      rw [List.flatMap_cons, if_neg (fun h => h.elim h1 h2), ih (fun c hc => h c (by simp [hc]))]
      rfl
  rw [e]
  simp only
  rw [if_neg]
  rintro ⟨c, hc, h4⟩
  obtain ⟨_, _, h5, h6, h7, h8⟩ := h c hc
  rcases h4 with h | h | h | h
  · exact h5 h
  · exact h6 h
  · exact h7 h
  · exact h8 h

theorem decInt_byte (i : Int) : ∀ c ∈ decInt i, c = ch '-' ∨ (48 ≤ c.toNat ∧ c.toNat ≤ 57) := by
  intro c hc
  have hd : ∀ n, c ∈ dec n → 48 ≤ c.toNat ∧ c.toNat ≤ 57 := by
    intro n hn
    have := dec_digits n c hn
    exact ⟨this.1, this.2.1⟩
  unfold decInt at hc
  split at hc
  · rcases List.mem_cons.mp hc with h | h
    · exact Or.inl h
    · exact Or.inr (hd _ h)
  · exact Or.inr (hd _ hc)

/-- The text of Transport. -/
def transport (s : St) : List Byte := bytes "RTP/AVP/UDP;unicast;client_port=" ++ decInt s.cfg.port

theorem transport_plain (s : St) : Spec.quoted (transport s) = transport s := by
  apply quoted_plain
  intro c hc
  unfold transport at hc
  rcases List.mem_append.mp hc with h | h
  · clear hc; revert c; decide +kernel
  · rcases decInt_byte _ c h with h | ⟨h1, h2⟩
    · subst h; decide
    · refine ⟨?_, ?_, ?_, ?_, ?_, ?_⟩ <;> (intro e; subst e; revert h1 h2; decide)

theorem transport_fits (s : St) (h : Spec.PortOk s.cfg) : ¬ 128 < (transport s).length + 1 := by
  have := decInt_length s.cfg.port h.1 h.2
  unfold transport
  have h2 : (bytes "RTP/AVP/UDP;unicast;client_port=").length = 32 := by decide +kernel
  rw [List.length_append, h2]
  omega

theorem trigger_url (mv : Moves) (s : St) (u : List Byte) (h : s.url = some u) :
    trigger mv s (bytes "SETUP") = (if Rtsp.newRequest (bytes "SETUP") u = none then some s
      else if 128 < (transport s).length + 1 then none
      else (request mv s (bytes "SETUP") u (bytes "Transport") (transport s) true).bind fun r => some r.2) := by
  unfold trigger
  rw [if_neg (fun h => h rfl), h]
  rfl

theorem trigger_none (mv : Moves) (s : St) (t : List Byte) (h : s.url = none ∨ t ≠ bytes "SETUP") : trigger mv s t = some s := by
  unfold trigger
  by_cases ht : t = bytes "SETUP"
  · rcases h with h | h
    · rw [if_neg (fun h => h ht), h]
    · exact absurd ht h
  · rw [if_pos ht]

theorem trigger_cases (mv : Moves) (s : St) (t : List Byte) (hp : Spec.PortOk s.cfg) :
    ∃ s', trigger mv s t = some s' ∧ (s' = s ∨ s' = { s with cookies := nextCookie s.cookies } ∨
      (t = bytes "SETUP" ∧ ∃ u, s.url = some u ∧ u ≠ [] ∧ s' = { s with
        cookies := nextCookie s.cookies
        log := s.log ++ [.sent (Spec.call (bytes "SETUP") u (bytes "Transport: " ++ transport s) (local_ (nextCookie s.cookies)))]
        setups := s.setups ++ [nextCookie s.cookies] })) := by
  by_cases ht : s.url = none ∨ t ≠ bytes "SETUP"
  · rw [trigger_none mv s t ht]
    exact ⟨_, rfl, Or.inl rfl⟩
  have ht2 : t = bytes "SETUP" := Decidable.byContradiction fun h => ht (Or.inr h)
  obtain ⟨u, hu⟩ : ∃ u, s.url = some u := Option.ne_none_iff_exists'.mp fun h => ht (Or.inl h)
  rw [ht2, trigger_url mv s u hu]
  by_cases hn : Rtsp.newRequest (bytes "SETUP") u = none
  · rw [if_pos hn]; exact ⟨_, rfl, Or.inl rfl⟩
  rw [if_neg hn, if_neg (transport_fits s hp)]
  obtain ⟨r, s', h1, h2⟩ := request_cases mv s (bytes "SETUP") u (bytes "Transport") (transport s) true (by decide) (by decide) (by unfold Rtsp.Plain; decide +kernel)
  rw [h1]
  refine ⟨s', rfl, ?_⟩
  rcases h2 with ⟨_, h2 | h2⟩ | ⟨_, h3, _, h4⟩
  · exact Or.inl h2
  · exact Or.inr (Or.inl h2)
  · refine Or.inr (Or.inr ⟨rfl, u, hu, h3, ?_⟩)
    rw [h4, transport_plain]
    have : bytes "Transport" ++ bytes ": " = bytes "Transport: " := by decide +kernel
    rw [this]
    rfl

theorem trigger_eq (mv : Moves) (s : St) (t : List Byte) (hp : Spec.PortOk s.cfg) (hb : s.bus = true) (hk : s.cookies + 1 < REMOTE) :
    ∃ s', trigger mv s t = some s' ∧ Kept s s' ∧ s'.url = s.url ∧ s'.uibcEnabled = s.uibcEnabled ∧ s'.uibcPort = s.uibcPort ∧
      s'.log = s.log ++ (if t = bytes "SETUP" ∧ s.url.getD [] ≠ [] then
        [.sent (Spec.call (bytes "SETUP") (s.url.getD []) (bytes "Transport: " ++ transport s) (s.cookies + 1))] else []) ∧
      s'.setups = s.setups ++ (if t = bytes "SETUP" ∧ s.url.getD [] ≠ [] then [s.cookies + 1] else []) ∧
      s'.cookies = s.cookies + (if t = bytes "SETUP" ∧ s.url.getD [] ≠ [] then 1 else 0) := by
  by_cases ht : s.url = none ∨ t ≠ bytes "SETUP"
  · rw [trigger_none mv s t ht]
    have : ¬ (t = bytes "SETUP" ∧ s.url.getD [] ≠ []) := by
      rintro ⟨a, b⟩
      rcases ht with h | h
      · rw [h] at b; exact b rfl
      · exact h a
    exact ⟨s, rfl, Kept.refl s, rfl, rfl, rfl, by rw [if_neg this]; simp, by rw [if_neg this]; simp, by rw [if_neg this]; simp⟩
  have ht2 : t = bytes "SETUP" := Decidable.byContradiction fun h => ht (Or.inr h)
  obtain ⟨u, hu⟩ : ∃ u, s.url = some u := Option.ne_none_iff_exists'.mp fun h => ht (Or.inl h)
  have hg : s.url.getD [] = u := by rw [hu]; rfl
  rw [ht2, trigger_url mv s u hu, hg]
  by_cases hn : u = []
  · have : Rtsp.newRequest (bytes "SETUP") u = none := by
      unfold Rtsp.newRequest
      rw [if_pos (Or.inr hn)]
    rw [if_pos this]; exact ⟨s, rfl, Kept.refl s, rfl, rfl, rfl, by simp [hn], by simp [hn], by simp [hn]⟩
  have : ¬ Rtsp.newRequest (bytes "SETUP") u = none := by
    unfold Rtsp.newRequest
    rw [if_neg (fun h => h.elim (by decide) hn)]
    simp
  rw [if_neg this, if_neg (transport_fits s hp)]
  have h1 := request_ok mv s (bytes "SETUP") u (bytes "Transport") (transport s) true (by decide) hn (by decide) (by unfold Rtsp.Plain; decide +kernel) hb hk
  rw [transport_plain] at h1
  have e : bytes "Transport" ++ bytes ": " = bytes "Transport: " := by decide +kernel
  rw [e] at h1
  rw [h1]
  refine ⟨_, rfl, ⟨rfl, rfl, rfl, rfl, rfl, rfl, rfl⟩, rfl, rfl, rfl, ?_, ?_, ?_⟩
  · rw [if_pos (show bytes "SETUP" = bytes "SETUP" ∧ u ≠ [] from ⟨rfl, hn⟩)]
  · rw [if_pos (show bytes "SETUP" = bytes "SETUP" ∧ u ≠ [] from ⟨rfl, hn⟩)]; rfl
  · rw [if_pos (show bytes "SETUP" = bytes "SETUP" ∧ u ≠ [] from ⟨rfl, hn⟩)]

theorem set_reply (mv : Moves) (s : St) (m : Msg) (hu : m.isUsed = true) (hr : isRemote m.cookie = true) (hb : s.bus = true) :
    handleSet mv s m = takeParams mv (s.out (.sent (Spec.ok (local_ m.cookie) [] []))) m := by
  obtain ⟨rep, h1, h2, h3, h4, h5, h6⟩ := reply_for m hu hr
  unfold handleSet
  simp only [h1]
  rw [send_reply mv s rep _ _ _ h2 h3 m.cookie h4 hb]
  rfl

theorem options_reply (mv : Moves) (s : St) (m : Msg) (hu : m.isUsed = true) (hr : isRemote m.cookie = true) (hb : s.bus = true) :
    ∃ r s', request mv (s.out (.sent (Spec.ok (local_ m.cookie) [bytes "Public: " ++ Spec.quoted (bytes "org.wfa.wfd1.0, GET_PARAMETER, SET_PARAMETER")] []))) (bytes "OPTIONS") (bytes "*")
      (bytes "Require") (bytes "org.wfa.wfd1.0") false = some (r, s') ∧ handleOptions mv s m = some s' := by
  obtain ⟨rep, h1, h2, h3, h4, h5, h6⟩ := reply_for m hu hr
  obtain ⟨m', a1, a2, a3, a4⟩ := hdr_ok mv rep _ h2 (Or.inr h3) (bytes "Public") (bytes "org.wfa.wfd1.0, GET_PARAMETER, SET_PARAMETER") (by decide) (by unfold Rtsp.Plain; decide +kernel) h5
  have e : bytes "Public" ++ bytes ": " = bytes "Public: " := by decide +kernel
  rw [e] at a2
  have hs := send_reply mv s m' _ _ _ a2 (a3.trans h3) m.cookie (a4.trans h4) hb
  obtain ⟨r, s', q1, _⟩ := request_cases mv (s.out (.sent (Spec.ok (local_ m.cookie) [bytes "Public: " ++ Spec.quoted (bytes "org.wfa.wfd1.0, GET_PARAMETER, SET_PARAMETER")] []))) (bytes "OPTIONS") (bytes "*")
      (bytes "Require") (bytes "org.wfa.wfd1.0") false (by decide) (by decide) (by unfold Rtsp.Plain; decide +kernel)
  refine ⟨r, s', q1, ?_⟩
  unfold handleOptions
  simp only [h1, a1, Option.bind_eq_bind, Option.bind_some]
  rw [if_neg (Int.lt_irrefl 0)]
  simp only [hs, Option.bind_some]
  rw [if_neg (Int.lt_irrefl 0)]
  have q1' : request mv (s.out (.sent (Spec.message (bytes "RTSP/1.0 200 OK") [bytes "Public: " ++ Spec.quoted (bytes "org.wfa.wfd1.0, GET_PARAMETER, SET_PARAMETER")] (local_ m.cookie) []))) (bytes "OPTIONS") (bytes "*")
      (bytes "Require") (bytes "org.wfa.wfd1.0") false = some (r, s') := q1
  rw [q1']
  rfl

/-! ### What an event adds -/

theorem replies_append (a b : List Out) : Spec.replies (a ++ b) = Spec.replies a + Spec.replies b := by
  simp [Spec.replies, Spec.sent, List.filterMap_append, List.countP_append]

/-- From `s` to `t` there were `k` SETUP requests and `r` Spec.replies, and no PLAY. -/
def Eff (s t : St) (k r : Nat) : Prop :=
  Kept s t ∧ t.setups.length = s.setups.length + k ∧
  ∃ ex, t.log = s.log ++ ex ∧ (∀ f, Out.closed f ∉ ex) ∧ Spec.calls "PLAY" ex = 0 ∧ Spec.calls "SETUP" ex = k ∧ Spec.replies ex = r

theorem Eff.refl (s : St) : Eff s s 0 0 := ⟨Kept.refl s, rfl, [], by simp, by simp, rfl, rfl, rfl⟩

theorem Eff.trans {a b c : St} {k k' r r' : Nat} (h : Eff a b k r) (h' : Eff b c k' r') : Eff a c (k + k') (r + r') := by
  obtain ⟨h1, h2, ex, h3, h4, h5, h6, h7⟩ := h
  obtain ⟨g1, g2, ex', g3, g4, g5, g6, g7⟩ := h'
  refine ⟨h1.trans g1, by omega, ex ++ ex', by rw [g3, h3, List.append_assoc], ?_, ?_, ?_, ?_⟩
  · intro f hf
    rcases List.mem_append.mp hf with h | h
    · exact h4 f h
    · exact g4 f h
  · rw [calls_append, h5, g5]
  · rw [calls_append, h6, g6]
  · rw [replies_append, h7, g7]

theorem Eff.quiet {s t : St} (h : Kept s t) (h2 : t.log = s.log) (h3 : t.setups = s.setups) : Eff s t 0 0 :=
  ⟨h, by rw [h3]; rfl, [], by simp [h2], by simp, rfl, rfl, rfl⟩

theorem reply_eff (s : St) (n : Nat) (a b : List (List Byte)) : Eff s (s.out (.sent (Spec.ok n a b))) 0 1 := by
  refine ⟨⟨rfl, rfl, rfl, rfl, rfl, rfl, rfl⟩, rfl, [.sent (Spec.ok n a b)], rfl, by simp, ?_, ?_, ?_⟩
  · rw [calls_one, call_ok "PLAY" n a b 80 (by decide) (by decide)]; rfl
  · rw [calls_one, call_ok "SETUP" n a b 83 (by decide) (by decide)]; rfl
  · simp only [Spec.replies, Spec.sent, List.filterMap_cons, List.filterMap_nil, List.countP_cons, List.countP_nil, reply_ok, if_true]

theorem trigger_eff (mv : Moves) (s : St) (t : List Byte) (hp : Spec.PortOk s.cfg) :
    ∃ s' k, trigger mv s t = some s' ∧ Eff s s' k 0 ∧ k ≤ 1 ∧ (k = 1 → t = bytes "SETUP") := by
  obtain ⟨s', h1, h2⟩ := trigger_cases mv s t hp
  rcases h2 with h2 | h2 | ⟨h2, u, _, _, h3⟩
  · exact ⟨s', 0, h1, h2 ▸ Eff.refl s, by omega, by omega⟩
  · exact ⟨s', 0, h1, h2 ▸ Eff.quiet ⟨rfl, rfl, rfl, rfl, rfl, rfl, rfl⟩ rfl rfl, by omega, by omega⟩
  · refine ⟨s', 1, h1, ?_, by omega, fun _ => h2⟩
    rw [h3]
    refine ⟨⟨rfl, rfl, rfl, rfl, rfl, rfl, rfl⟩, by simp, _, rfl, by simp, ?_, ?_, ?_⟩
    · rw [calls_one, call_other "PLAY" "SETUP" _ _ _ 80 83 (by decide) (by decide) (by decide)]; rfl
    · rw [calls_one, call_call "SETUP"]; rfl
    · simp only [Spec.replies, Spec.sent, List.filterMap_cons, List.filterMap_nil, List.countP_cons, List.countP_nil,
        reply_call "SETUP" _ _ _ 83 (by decide) (by decide), Bool.false_eq_true, if_false]

theorem shown_eff (l : Option (Nat × Nat)) : (∀ f, Out.closed f ∉ Spec.shown l) ∧ Spec.calls "PLAY" (Spec.shown l) = 0 ∧ Spec.calls "SETUP" (Spec.shown l) = 0 ∧ Spec.replies (Spec.shown l) = 0 := by
  cases l with
  | none => exact ⟨by simp [Spec.shown], rfl, rfl, rfl⟩
  | some q => exact ⟨by simp [Spec.shown], rfl, rfl, rfl⟩

theorem take_eff (mv : Moves) (s s' : St) (m : Msg) (hm : AtRest m) (hp : Spec.PortOk s.cfg) (h : takeParams mv s m = some s') :
    ∃ k, Eff s s' k 0 ∧ k ≤ 1 ∧ (k = 1 → Spec.word m "wfd_trigger_method" = some (bytes "SETUP")) := by
  rw [take_eq mv s m hm] at h
  simp only [Option.bind_eq_some_iff] at h
  obtain ⟨s2, h2, r, h3, h4⟩ := h
  obtain ⟨a1, a2, a3, _⟩ := afterUrl_keeps s m
  obtain ⟨b1, b2, b3, _⟩ := afterUibc_keeps _ _ m h2
  obtain ⟨c1, c2, c3, _⟩ := afterSetting_keeps s2 m
  obtain ⟨f, res, _, _, d1, d2, d3, _⟩ := afterFormats_cases _ m r h3
  have e1 := Eff.quiet a1 a2 a3
  have e2 := Eff.quiet b1 b2 b3
  have e3 := Eff.quiet c1 c2 c3
  have e4 : Eff (afterSetting s2 m) r.2 0 0 := by
    obtain ⟨g1, g2, g3, g4⟩ := shown_eff res
    exact ⟨d1, by rw [d3]; rfl, Spec.shown res, d2, g1, g2, g3, g4⟩
  have e5 := ((e1.trans e2).trans e3).trans e4
  split at h4
  · cases h4
    exact ⟨0, e5, by omega, by omega⟩
  · unfold afterTrigger at h4
    have hp' : Spec.PortOk r.2.cfg := by
      rw [e5.1.cfg]; exact hp
    split at h4
    · cases h4
      exact ⟨0, e5, by omega, by omega⟩
    · rename_i v hv
      obtain ⟨t, k, g1, g2, g3, g4⟩ := trigger_eff mv r.2 v hp'
      rw [g1] at h4
      cases h4
      exact ⟨_, e5.trans g2, by omega, fun hk => by rw [hv, g4 (by omega)]⟩

theorem set_eff (mv : Moves) (s s' : St) (m : Msg) (hm : AtRest m) (hu : m.isUsed = true) (hb : s.bus = true) (hp : Spec.PortOk s.cfg)
    (hs : handleSet mv s m = some s') :
    ∃ k, Eff s s' k (if isRemote m.cookie = true then 1 else 0) ∧ k ≤ 1 ∧ (k = 1 → Spec.word m "wfd_trigger_method" = some (bytes "SETUP")) := by
  by_cases hr : isRemote m.cookie = true
  · rw [set_reply mv s m hu hr hb] at hs
    obtain ⟨k, h1, h2, h3⟩ := take_eff mv (s.out (.sent (Spec.ok (local_ m.cookie) [] []))) s' m hm hp hs
    rw [if_pos hr]
    have := (reply_eff s (local_ m.cookie) [] []).trans h1
    exact ⟨_, this, by omega, fun hk => h3 (by omega)⟩
  · unfold handleSet at hs
    rw [no_reply m (Or.inr (by simpa using hr))] at hs
    cases hs
    rw [if_neg hr]
    exact ⟨0, Eff.refl s, by omega, by omega⟩

theorem get_eff (mv : Moves) (s s' : St) (m : Msg) (hm : AtRest m) (hu : m.isUsed = true) (hb : s.bus = true) (hext : s.cfg.ext.length < 1000000)
    (hs : handleGet mv s m = some s') : Eff s s' 0 (if isRemote m.cookie = true then 1 else 0) := by
  by_cases hr : isRemote m.cookie = true
  · rw [get_eq mv s m hm hu hr hb hext] at hs
    split at hs
    · cases hs
    · cases hs
      rw [if_pos hr]
      exact reply_eff s _ _ _
  · unfold handleGet at hs
    rw [no_reply m (Or.inr (by simpa using hr))] at hs
    cases hs
    rw [if_neg hr]
    exact Eff.refl s

theorem options_eff (mv : Moves) (s s' : St) (m : Msg) (hu : m.isUsed = true) (hb : s.bus = true)
    (hs : handleOptions mv s m = some s') : Eff s s' 0 (if isRemote m.cookie = true then 1 else 0) := by
  by_cases hr : isRemote m.cookie = true
  · obtain ⟨r, s1, h1, h2⟩ := options_reply mv s m hu hr hb
    rw [hs] at h2
    cases h2
    rw [if_pos hr]
    obtain ⟨r', s2, h3, h4⟩ := request_cases mv (s.out (.sent (Spec.ok (local_ m.cookie) [bytes "Public: " ++ Spec.quoted (bytes "org.wfa.wfd1.0, GET_PARAMETER, SET_PARAMETER")] []))) (bytes "OPTIONS") (bytes "*")
      (bytes "Require") (bytes "org.wfa.wfd1.0") false (by decide) (by decide) (by unfold Rtsp.Plain; decide +kernel)
    rw [h1] at h3
    cases h3
    have e1 := reply_eff s (local_ m.cookie) [bytes "Public: " ++ Spec.quoted (bytes "org.wfa.wfd1.0, GET_PARAMETER, SET_PARAMETER")] []
    refine e1.trans (k' := 0) (r' := 0) ?_
    rcases h4 with ⟨_, h4 | h4⟩ | ⟨_, _, _, h4⟩
    · rw [h4]; exact Eff.refl _
    · rw [h4]; exact Eff.quiet ⟨rfl, rfl, rfl, rfl, rfl, rfl, rfl⟩ rfl rfl
    · rw [h4]
      refine ⟨⟨rfl, rfl, rfl, rfl, rfl, rfl, rfl⟩, rfl, _, rfl, by simp, ?_, ?_, ?_⟩
      · rw [calls_one, call_other "PLAY" "OPTIONS" _ _ _ 80 79 (by decide) (by decide) (by decide)]; rfl
      · rw [calls_one, call_other "SETUP" "OPTIONS" _ _ _ 83 79 (by decide) (by decide) (by decide)]; rfl
      · simp only [Spec.replies, Spec.sent, List.filterMap_cons, List.filterMap_nil, List.countP_cons, List.countP_nil,
          reply_call "OPTIONS" _ _ _ 79 (by decide) (by decide), Bool.false_eq_true, if_false]
  · unfold handleOptions at hs
    rw [no_reply m (Or.inr (by simpa using hr))] at hs
    cases hs
    rw [if_neg hr]
    exact Eff.refl s

open Classical in
theorem handle_eff (mv : Moves) (s s' : St) (m : Msg) (hm : AtRest m) (hu : m.isUsed = true) (hb : s.bus = true) (hp : Spec.PortOk s.cfg) (hext : s.cfg.ext.length < 1000000)
    (hs : handle mv s m = some s') :
    ∃ k, Eff s s' k (if m.type = .request ∧ Spec.Known m ∧ isRemote m.cookie = true then 1 else 0) ∧ k ≤ 1 ∧ (k = 1 → Spec.triggers m = true) := by
  unfold handle at hs
  by_cases ht : m.type ≠ .request
  · rw [if_pos ht] at hs
    cases hs
    rw [if_neg (fun h => ht h.1)]
    exact ⟨0, Eff.refl s, by omega, by omega⟩
  rw [if_neg ht] at hs
  have ht' : m.type = .request := Decidable.byContradiction ht
  have fix : ∀ {k r}, Spec.Known m → r = (if isRemote m.cookie = true then 1 else 0) → Eff s s' k r →
      Eff s s' k (if m.type = .request ∧ Spec.Known m ∧ isRemote m.cookie = true then 1 else 0) := by
    intro k r hk hr h
    have : (if m.type = .request ∧ Spec.Known m ∧ isRemote m.cookie = true then 1 else 0) = r := by
      rw [hr]
      by_cases hq : isRemote m.cookie = true
      · rw [if_pos ⟨ht', hk, hq⟩, if_pos hq]
      · rw [if_neg (fun h => hq h.2.2), if_neg hq]
    rw [this]; exact h
  by_cases h1 : m.method = bytes "OPTIONS"
  · rw [if_pos h1] at hs
    exact ⟨0, fix (Or.inl h1) rfl (options_eff mv s s' m hu hb hs), by omega, by omega⟩
  rw [if_neg h1] at hs
  by_cases h2 : m.method = bytes "GET_PARAMETER"
  · rw [if_pos h2] at hs
    exact ⟨0, fix (Or.inr (Or.inl h2)) rfl (get_eff mv s s' m hm hu hb hext hs), by omega, by omega⟩
  rw [if_neg h2] at hs
  by_cases h3 : m.method = bytes "SET_PARAMETER"
  · rw [if_pos h3] at hs
    obtain ⟨k, e1, e2, e3⟩ := set_eff mv s s' m hm hu hb hp hs
    exact ⟨k, fix (Or.inr (Or.inr h3)) rfl e1, e2, fun hk => by
      unfold Spec.triggers
      rw [decide_eq_true_eq]
      exact ⟨ht', h3, e3 hk⟩⟩
  · rw [if_neg h3] at hs
    cases hs
    rw [if_neg (fun h => by rcases h.2.1 with h | h | h; · exact h1 h
                            · exact h2 h
                            · exact h3 h)]
    exact ⟨0, Eff.refl s, by omega, by omega⟩

/-! ### The reply to SETUP -/

theorem session_read (m : Msg) (hm : AtRest m) : ∃ r m' vs, Rtsp.read m [.headerStart (bytes "Session"), .str, .headerEnd] = some (r, m', vs) ∧
    (r < 0 ↔ Spec.session m = none) ∧ ∀ w, Spec.session m = some w → untilSemicolon (text vs) = w := by
  obtain ⟨h1, _⟩ := Rtsp.header_exact m hm (bytes "Session") (by decide) [.str]
  simp only [List.map_cons, List.map_nil, List.singleton_append, Rtsp.Spec.Conv.rd] at h1
  unfold Rtsp.Spec.line at h1
  unfold Spec.session
  cases hx : named m.headers (bytes "Session") with
  | none =>
    rw [hx] at h1
    obtain ⟨⟨r, m', vs⟩, h2, h3⟩ := Option.map_eq_some_iff.mp h1
    simp only [Prod.mk.injEq] at h3
    exact ⟨r, m', vs, h2, by rw [h3.1]; simp [ENOENT], by simp⟩
  | some h =>
    rw [hx] at h1
    cases ht : h.tokens with
    | nil =>
      simp only [ht, Rtsp.Spec.values] at h1
      obtain ⟨⟨r, m', vs⟩, h2, h3⟩ := Option.map_eq_some_iff.mp h1
      simp only [Prod.mk.injEq] at h3
      exact ⟨r, m', vs, h2, by rw [h3.1]; simp [ENOENT, ht], by simp [ht]⟩
    | cons t ts =>
      simp only [ht, Rtsp.Spec.values, Rtsp.Spec.Conv.value] at h1
      obtain ⟨⟨r, m', vs⟩, h2, h3⟩ := Option.map_eq_some_iff.mp h1
      simp only [Prod.mk.injEq] at h3
      refine ⟨r, m', vs, h2, by rw [h3.1]; simp [ht], ?_⟩
      intro w hw
      simp only [Option.bind_some, ht, List.head?_cons, Option.map_some, Option.some.injEq] at hw
      rw [h3.2, ← hw]
      rfl

theorem setup_cases (mv : Moves) (s : St) (m : Msg) (hm : AtRest m) : ∃ r s', setupFn mv s (some m) = some (r, s') ∧
    s'.cfg = s.cfg ∧ s'.fd = s.fd ∧ s'.bus = s.bus ∧ s'.connected = s.connected ∧ s'.hup = s.hup ∧ s'.opened = s.opened ∧ s'.setups = s.setups ∧
    (s'.log = s.log ∨ ∃ u w k, s'.log = s.log ++ [.sent (Spec.call (bytes "PLAY") u w k)]) := by
  obtain ⟨r, m', vs, h1, h2, h3⟩ := session_read m hm
  unfold setupFn
  simp only [h1, Option.bind_eq_bind, Option.bind_some]
  by_cases hr : r < 0
  · rw [if_pos hr]
    exact ⟨r, s, rfl, rfl, rfl, rfl, rfl, rfl, rfl, rfl, Or.inl rfl⟩
  · rw [if_neg hr]
    obtain ⟨r', s', g1, g2⟩ := request_cases mv { s with session := some (untilSemicolon (text vs)) } (bytes "PLAY") (s.url.getD []) (bytes "Session") (untilSemicolon (text vs)) false
      (by decide) (by decide) (by unfold Rtsp.Plain; decide +kernel)
    refine ⟨r', s', g1, ?_⟩
    rcases g2 with ⟨_, g2 | g2⟩ | ⟨_, _, _, g2⟩
    · rw [g2]; exact ⟨rfl, rfl, rfl, rfl, rfl, rfl, rfl, Or.inl rfl⟩
    · rw [g2]; exact ⟨rfl, rfl, rfl, rfl, rfl, rfl, rfl, Or.inl rfl⟩
    · rw [g2]; exact ⟨rfl, rfl, rfl, rfl, rfl, rfl, rfl, Or.inr ⟨_, _, _, rfl⟩⟩

/-! ### Runs -/

/-- The flags between events. -/
structure Live (s : St) : Prop where
  fd : s.bus = true → s.fd.isSome = true
  bus : s.bus = s.connected
  hup : s.hup = false
  setups : s.bus = false → s.setups = []

/-- The descriptors. -/
structure Fds (s : St) : Prop where
  fresh : ∀ f, s.opened ≤ f → Spec.closes f s.log = 0
  current : ∀ f, s.fd = some f → f < s.opened ∧ Spec.closes f s.log = 0
  past : ∀ f, f < s.opened → s.fd ≠ some f → 1 ≤ Spec.closes f s.log ∧ Spec.closes f s.log ≤ 2

theorem closes_append (f : Nat) (a b : List Out) : Spec.closes f (a ++ b) = Spec.closes f a + Spec.closes f b := List.countP_append ..

theorem closes_none (f : Nat) (a : List Out) (h : ∀ f, Out.closed f ∉ a) : Spec.closes f a = 0 := by
  unfold Spec.closes
  rw [List.countP_eq_zero]
  intro x hx hc
  simp only [decide_eq_true_eq] at hc
  subst hc
  exact h f hx

theorem Fds.same {s t : St} (h : Fds s) (ho : t.opened = s.opened) (hf : t.fd = s.fd) (hl : ∀ f, Spec.closes f t.log = Spec.closes f s.log) : Fds t := by
  obtain ⟨a, b, c⟩ := h
  refine ⟨?_, ?_, ?_⟩
  · intro f hq; rw [hl]; exact a f (by omega)
  · intro f hq; rw [hl, ho]; exact b f (by rw [← hf]; exact hq)
  · intro f hq hq'; rw [hl]; exact c f (by omega) (by rw [← hf]; exact hq')

/-- Closing, by cases. -/
theorem close_fd (s : St) (h : Fds s) (hb : s.bus = true → s.fd.isSome = true) (hs : s.bus = false → s.setups = []) (hc : s.connected = true → s.fd.isSome = true) (hh : s.hup = true → s.fd.isSome = true) :
    Fds (close s) ∧ Live (close s) ∧ (close s).cfg = s.cfg ∧ (close s).fd = none ∧ (close s).opened = s.opened ∧ (close s).setups.length ≤ s.setups.length ∧
      ∃ ex, (close s).log = s.log ++ ex ∧ ∀ o ∈ ex, ∃ f, o = .closed f := by
  unfold close
  cases hf : s.fd with
  | none =>
    rw [hf] at hb hc hh
    have e1 : s.bus = false := by cases h : s.bus; rfl; exact absurd (hb h) (by decide)
    have e2 : s.connected = false := by cases h : s.connected; rfl; exact absurd (hc h) (by decide)
    have e3 : s.hup = false := by cases h : s.hup; rfl; exact absurd (hh h) (by decide)
    exact ⟨h, ⟨fun hx => absurd hx (by rw [e1]; decide), by rw [e1, e2], e3, hs⟩, rfl, hf, rfl, Nat.le_refl _, [], by simp, by simp⟩
  | some f =>
    simp only
    obtain ⟨a, b, c⟩ := h
    obtain ⟨b1, b2⟩ := b f hf
    have hcl : ∀ g, Spec.closes g [Out.closed f] = if f = g then 1 else 0 := by
      intro g
      unfold Spec.closes
      by_cases e : f = g <;> simp [e]
    by_cases hbus : s.bus = true
    · rw [if_pos hbus]
      refine ⟨⟨?_, ?_, ?_⟩, ⟨(fun hx => nomatch hx), rfl, rfl, fun _ => rfl⟩, by first | rfl | trivial, by first | rfl | trivial, by first | rfl | trivial, by simp, [.closed f, .closed f], by simp [St.out], by simp⟩
      · intro g hg
        show Spec.closes g (s.log ++ [.closed f] ++ [.closed f]) = 0
        have : f ≠ g := by
          have hg' : s.opened ≤ g := hg
          omega
        rw [closes_append, closes_append, hcl, if_neg this, a g hg]
      · intro g hg; cases hg
      · intro g hg _
        show 1 ≤ Spec.closes g (s.log ++ [.closed f] ++ [.closed f]) ∧ Spec.closes g (s.log ++ [.closed f] ++ [.closed f]) ≤ 2
        rw [closes_append, closes_append, hcl]
        by_cases e : f = g
        · subst e; rw [if_pos rfl, b2]; omega
        · rw [if_neg e]
          exact c g hg (by rw [hf]; simpa using e)
    · rw [if_neg hbus]
      refine ⟨⟨?_, ?_, ?_⟩, ⟨(fun hx => nomatch hx), rfl, rfl, fun _ => rfl⟩, by first | rfl | trivial, by first | rfl | trivial, by first | rfl | trivial, by simp, [.closed f], by simp [St.out], by simp⟩
      · intro g hg
        show Spec.closes g (s.log ++ [.closed f]) = 0
        have : f ≠ g := by
          have hg' : s.opened ≤ g := hg
          omega
        rw [closes_append, hcl, if_neg this, a g hg]
      · intro g hg; cases hg
      · intro g hg _
        show 1 ≤ Spec.closes g (s.log ++ [.closed f]) ∧ Spec.closes g (s.log ++ [.closed f]) ≤ 2
        rw [closes_append, hcl]
        by_cases e : f = g
        · subst e; rw [if_pos rfl, b2]; omega
        · rw [if_neg e]
          exact c g hg (by rw [hf]; simpa using e)

theorem calls_closed (n : String) (ex : List Out) (h : ∀ o ∈ ex, ∃ f, o = .closed f) : Spec.calls n ex = 0 := by
  induction ex with
  | nil => rfl
  | cons o ex ih =>
    obtain ⟨f, rfl⟩ := h o (by simp)
    exact ih fun o ho => h o (by simp [ho])

/-- What holds after every event. -/
structure Inv (c : Cfg) (s : St) : Prop where
  cfg : s.cfg = c
  live : Live s
  fds : Fds s
  plays : Spec.calls "PLAY" s.log + s.setups.length ≤ Spec.calls "SETUP" s.log

/-- Hanging up. -/
theorem finish_inv {c : Cfg} (s : St) (hc : s.cfg = c) (hl : Fds s) (hb : s.bus = true → s.fd.isSome = true) (hs : s.bus = false → s.setups = [])
    (hcon : s.connected = true → s.fd.isSome = true) (hh : s.hup = true → s.fd.isSome = true) (hn : s.hup = false → s.bus = s.connected)
    (hp : Spec.calls "PLAY" s.log + s.setups.length ≤ Spec.calls "SETUP" s.log) :
    Inv c (finish s) ∧ Spec.calls "SETUP" (finish s).log = Spec.calls "SETUP" s.log ∧ Spec.calls "PLAY" (finish s).log = Spec.calls "PLAY" s.log := by
  unfold finish
  by_cases h : s.hup = true
  · rw [if_pos h]
    obtain ⟨a1, a2, a3, a4, a5, a6, ex, a7, a8⟩ := close_fd s hl hb hs hcon hh
    have e : ((close s).out .disconnected).log = s.log ++ ex ++ [.disconnected] := by
      show (close s).log ++ _ = _
      rw [a7]
    have hS : ∀ n, Spec.calls n ((close s).out .disconnected).log = Spec.calls n s.log := by
      intro n
      rw [e, calls_append, calls_append, calls_closed n ex a8]
      rfl
    refine ⟨⟨a3.trans hc, ⟨a2.fd, a2.bus, a2.hup, a2.setups⟩, ?_, ?_⟩, hS _, hS _⟩
    · refine a1.same rfl rfl ?_
      intro f
      show Spec.closes f ((close s).log ++ [.disconnected]) = _
      rw [closes_append]
      have : Spec.closes f [Out.disconnected] = 0 := by simp [Spec.closes]
      omega
    · rw [hS, hS]
      show _ + (close s).setups.length ≤ _
      omega
  · rw [if_neg h]
    have h' : s.hup = false := by simpa using h
    exact ⟨⟨hc, ⟨hb, hn h', h', hs⟩, hl, hp⟩, rfl, rfl⟩

theorem msg_inv {c : Cfg} (mv : Moves) (s s' : St) (m : Msg) (h : Inv c s) (hp : Spec.PortOk c) (hext : c.ext.length < 1000000) (hm : AtRest m) (hu : m.isUsed = true)
    (hcon : s.connected = true) (hs : rtspFn mv s (some m) = some s') :
    Inv c s' ∧ Spec.calls "SETUP" s'.log ≤ Spec.calls "SETUP" s.log + (if Spec.triggers m then 1 else 0) := by
  obtain ⟨hc, hl, hf, hpl⟩ := h
  have hb : s.bus = true := hl.bus.trans hcon
  unfold rtspFn at hs
  obtain ⟨t, ht, he⟩ := Option.map_eq_some_iff.mp hs
  obtain ⟨k, ⟨e1, e2, ex, e3, e4, e5, e6, _⟩, e7, e8⟩ := handle_eff mv s t m hm hu hb (hc ▸ hp) (hc ▸ hext) ht
  have hF : Fds t := hf.same e1.opened e1.fd (fun f => by rw [e3, closes_append, closes_none f ex e4]; rfl)
  have hS : Spec.calls "SETUP" t.log = Spec.calls "SETUP" s.log + k := by rw [e3, calls_append, e6]
  have hP : Spec.calls "PLAY" t.log = Spec.calls "PLAY" s.log := by rw [e3, calls_append, e5]; rfl
  obtain ⟨g1, g2, g3⟩ := finish_inv (c := c) t (e1.cfg.trans hc) hF (by rw [e1.bus, e1.fd]; exact hl.fd) (by rw [e1.bus, hb]; intro x; cases x)
    (by rw [e1.fd]; intro _; exact hl.fd hb) (by rw [e1.fd]; intro _; exact hl.fd hb) (by rw [e1.bus, e1.connected]; intro _; exact hl.bus) (by omega)
  rw [he] at g1 g2
  refine ⟨g1, ?_⟩
  rw [g2, hS]
  by_cases hk : k = 1
  · rw [e8 hk, if_pos rfl]; omega
  · omega

theorem gone_inv {c : Cfg} (mv : Moves) (s s' : St) (h : Inv c s) (hcon : s.connected = true) (hs : rtspFn mv s none = some s') :
    Inv c s' ∧ Spec.calls "SETUP" s'.log = Spec.calls "SETUP" s.log := by
  obtain ⟨hc, hl, hf, hpl⟩ := h
  have hb : s.bus = true := hl.bus.trans hcon
  unfold rtspFn at hs
  cases hs
  obtain ⟨g1, g2, g3⟩ := finish_inv (c := c) { s with hup := true } hc ⟨hf.fresh, hf.current, hf.past⟩ hl.fd hl.setups (fun _ => hl.fd hb) (fun _ => hl.fd hb) (fun x => nomatch x) hpl
  exact ⟨g1, g2⟩

theorem erase_len (l : List Nat) (a : Nat) (h : a ∈ l) : (l.erase a).length + 1 = l.length := by
  rw [List.length_erase_of_mem h]
  have : 0 < l.length := List.length_pos_of_mem h
  omega

theorem step_inv {c : Cfg} (mv : Moves) (s s' : St) (e : Ev) (h : Inv c s) (hp : Spec.PortOk c) (hext : c.ext.length < 1000000) (hd : Spec.Delivered e) (hs : step mv s e = some s') :
    Inv c s' ∧ Spec.calls "SETUP" s'.log ≤ Spec.calls "SETUP" s.log + (if Spec.asksSetup e then 1 else 0) := by
  have hsame : Inv c s ∧ Spec.calls "SETUP" s.log ≤ Spec.calls "SETUP" s.log + (if Spec.asksSetup e then 1 else 0) := ⟨h, by omega⟩
  cases e with
  | connect v k g =>
    simp only [step, connect, Option.some.injEq] at hs
    by_cases h1 : s.fd.isSome = true
    · rw [if_pos h1] at hs; rw [← hs]; exact hsame
    rw [if_neg h1] at hs
    by_cases h2 : v = false
    · rw [if_pos h2] at hs; rw [← hs]; exact hsame
    rw [if_neg h2] at hs
    by_cases h3 : k = false
    · rw [if_pos h3] at hs; rw [← hs]; exact hsame
    rw [if_neg h3] at hs
    obtain ⟨hc, hl, hf, hpl⟩ := h
    have hfd : s.fd = none := by simpa using h1
    have hbus : s.bus = false := by
      cases hb : s.bus with
      | false => rfl
      | true => exact absurd (hl.fd hb) h1
    by_cases h4 : g = true
    · rw [if_pos h4] at hs
      rw [← hs]
      refine ⟨⟨hc, ⟨fun _ => rfl, hl.bus, hl.hup, hl.setups⟩, ⟨?_, ?_, ?_⟩, hpl⟩, Nat.le_add_right _ _⟩
      · intro f hq
        have hq' : s.opened + 1 ≤ f := hq
        exact hf.fresh f (by omega)
      · intro f hq
        cases hq
        exact ⟨Nat.lt_succ_self _, hf.fresh _ (Nat.le_refl _)⟩
      · intro f hq hq'
        have h5 : f < s.opened + 1 := hq
        have h6 : f ≠ s.opened := fun e => hq' (by rw [e])
        exact hf.past f (by omega) (by rw [hfd]; simp)
    · rw [if_neg h4] at hs
      rw [← hs]
      have hcl : ∀ g, Spec.closes g [Out.closed s.opened] = if s.opened = g then 1 else 0 := by
        intro g
        unfold Spec.closes
        by_cases e : s.opened = g <;> simp [e]
      have hS : ∀ n, Spec.calls n (s.log ++ [.closed s.opened]) = Spec.calls n s.log := by
        intro n; rw [calls_append]; rfl
      refine ⟨⟨hc, ⟨hl.fd, hl.bus, hl.hup, hl.setups⟩, ⟨?_, ?_, ?_⟩, ?_⟩, ?_⟩
      · intro f hq
        have hq' : s.opened + 1 ≤ f := hq
        show Spec.closes f (s.log ++ [.closed s.opened]) = 0
        rw [closes_append, hcl, if_neg (by omega), hf.fresh f (by omega)]
      · intro f hq
        have hq : s.fd = some f := hq
        rw [hfd] at hq; cases hq
      · intro f hq _
        have h5 : f < s.opened + 1 := hq
        show 1 ≤ Spec.closes f (s.log ++ [.closed s.opened]) ∧ Spec.closes f (s.log ++ [.closed s.opened]) ≤ 2
        rw [closes_append, hcl]
        by_cases e : s.opened = f
        · subst e
          rw [if_pos rfl, hf.fresh _ (Nat.le_refl _)]
          omega
        · rw [if_neg e]
          exact hf.past f (by omega) (by rw [hfd]; simp)
      · show Spec.calls "PLAY" (s.log ++ _) + _ ≤ Spec.calls "SETUP" (s.log ++ _)
        rw [hS, hS]; exact hpl
      · show Spec.calls "SETUP" (s.log ++ _) ≤ _
        rw [hS]; exact Nat.le_add_right _ _
  | close =>
    simp only [step, Option.some.injEq] at hs
    obtain ⟨hc, hl, hf, hpl⟩ := h
    obtain ⟨a1, a2, a3, a4, a5, a6, ex, a7, a8⟩ := close_fd s hf hl.fd hl.setups (fun x => hl.fd (hl.bus.trans x)) (fun x => by rw [hl.hup] at x; cases x)
    rw [← hs]
    have hS : ∀ n, Spec.calls n (close s).log = Spec.calls n s.log := by
      intro n; rw [a7, calls_append, calls_closed n ex a8]; rfl
    refine ⟨⟨a3.trans hc, a2, a1, ?_⟩, ?_⟩
    · rw [hS, hS]; omega
    · rw [hS]; exact Nat.le_add_right _ _
  | io o er so bu ma =>
    unfold step at hs
    by_cases h1 : s.fd.isSome = true ∧ s.connected = false
    · simp only [h1, and_self, if_true, Option.some.injEq] at hs
      obtain ⟨hc, hl, hf, hpl⟩ := h
      obtain ⟨h2, h3⟩ := h1
      have hb : s.bus = false := hl.bus.trans h3
      rw [← hs]
      unfold io
      simp only
      -- the state before hanging up
      have key : ∀ t : St, t.cfg = s.cfg → t.fd = s.fd → t.opened = s.opened → t.setups = [] → (t.log = s.log ∨ t.log = s.log ++ [.connected]) →
          (t.hup = false → t.bus = t.connected) → Inv c (finish t) ∧ Spec.calls "SETUP" (finish t).log ≤ Spec.calls "SETUP" s.log + (if Spec.asksSetup (.io o er so bu ma) then 1 else 0) := by
        intro t k1 k2 k3 k4 k5 k6
        have hS : ∀ n, Spec.calls n t.log = Spec.calls n s.log := by
          intro n
          rcases k5 with k5 | k5
          · rw [k5]
          · rw [k5, calls_append]; rfl
        have hC : ∀ f, Spec.closes f t.log = Spec.closes f s.log := by
          intro f
          rcases k5 with k5 | k5
          · rw [k5]
          · rw [k5, closes_append]
            have : Spec.closes f [Out.connected] = 0 := by simp [Spec.closes]
            omega
        obtain ⟨g1, g2, g3⟩ := finish_inv (c := c) t (k1.trans hc) (hf.same k3 k2 hC) (fun _ => by rw [k2]; exact h2) (fun _ => k4)
          (fun _ => by rw [k2]; exact h2) (fun _ => by rw [k2]; exact h2) k6 (by rw [hS, hS, k4]; simp only [List.length_nil]; omega)
        exact ⟨g1, by rw [g2, hS]; exact Nat.le_add_right _ _⟩
      have hsc : ∃ t, sinkConnected s so bu ma = t ∧ t.cfg = s.cfg ∧ t.fd = s.fd ∧ t.opened = s.opened ∧ t.setups = [] ∧ (t.log = s.log ∨ t.log = s.log ++ [.connected]) ∧
          (t.hup = false → t.bus = t.connected) := by
        refine ⟨_, rfl, ?_⟩
        unfold sinkConnected
        rw [if_neg (by rw [h3, hl.hup]; simp)]
        by_cases q1 : so = true
        · rw [if_pos q1]; exact ⟨rfl, rfl, rfl, hl.setups hb, Or.inl rfl, fun x => nomatch x⟩
        rw [if_neg q1]
        by_cases q2 : bu = false
        · rw [if_pos q2]; exact ⟨rfl, rfl, rfl, hl.setups hb, Or.inl rfl, fun x => nomatch x⟩
        rw [if_neg q2]
        simp only
        by_cases q3 : ma = true
        · rw [if_pos q3]; exact ⟨rfl, rfl, rfl, rfl, Or.inr rfl, fun _ => rfl⟩
        · rw [if_neg q3]; exact ⟨rfl, rfl, rfl, rfl, Or.inl rfl, fun x => nomatch x⟩
      have hpre : ∃ t, (if o = true then sinkConnected s so bu ma else s) = t ∧ t.cfg = s.cfg ∧ t.fd = s.fd ∧ t.opened = s.opened ∧ t.setups = [] ∧
          (t.log = s.log ∨ t.log = s.log ++ [.connected]) ∧ (t.hup = false → t.bus = t.connected) := by
        by_cases q : o = true
        · rw [if_pos q]; exact hsc
        · rw [if_neg q]; exact ⟨s, rfl, rfl, rfl, rfl, hl.setups hb, Or.inl rfl, fun _ => hl.bus⟩
      obtain ⟨t, t0, t1, t2, t3, t4, t5, t6⟩ := hpre
      rw [t0]
      by_cases q : er = true
      · rw [if_pos q]
        exact key { t with hup := true } t1 t2 t3 t4 t5 (fun x => nomatch x)
      · rw [if_neg q]
        exact key t t1 t2 t3 t4 t5 t6
    · simp only [h1, if_false, Option.some.injEq] at hs
      rw [← hs]; exact hsame
  | msg m =>
    simp only [step] at hs
    by_cases hc : s.connected = true
    · rw [if_pos hc] at hs
      exact msg_inv mv s s' m h hp hext hd.1 hd.2 hc hs
    · rw [if_neg hc] at hs
      cases hs; exact hsame
  | gone =>
    simp only [step] at hs
    by_cases hc : s.connected = true
    · rw [if_pos hc] at hs
      obtain ⟨a, b⟩ := gone_inv mv s s' h hc hs
      exact ⟨a, by rw [b]; exact Nat.le_add_right _ _⟩
    · rw [if_neg hc] at hs
      cases hs; exact hsame
  | reply ck m =>
    simp only [step] at hs
    by_cases hc : s.connected = true ∧ ck ∈ s.setups
    · rw [if_pos hc] at hs
      obtain ⟨hcf, hl, hf, hpl⟩ := h
      have hlen := erase_len s.setups ck hc.2
      have hb : s.bus = true := hl.bus.trans hc.1
      cases m with
      | none =>
        simp only [setupFn, Option.bind_eq_bind, Option.bind_some, Option.isSome_none, Bool.false_eq_true, and_false, if_false, Option.some.injEq] at hs
        rw [← hs]
        refine ⟨⟨hcf, ⟨hl.fd, hl.bus, hl.hup, fun x => by have x : s.bus = false := x; rw [hb] at x; cases x⟩, ⟨hf.fresh, hf.current, hf.past⟩, ?_⟩, Nat.le_add_right _ _⟩
        show Spec.calls "PLAY" s.log + (s.setups.erase ck).length ≤ Spec.calls "SETUP" s.log
        omega
      | some m =>
        obtain ⟨r, t, g0, g1, g2, g3, g4, g5, g6, g7, g8⟩ := setup_cases mv { s with setups := s.setups.erase ck } m hd
        rw [g0] at hs
        simp only [Option.bind_eq_bind, Option.bind_some, Option.isSome_some, and_true] at hs
        have hS : Spec.calls "SETUP" t.log = Spec.calls "SETUP" s.log := by
          rcases g8 with g8 | ⟨u, w, k, g8⟩
          · rw [g8]
          · rw [g8, calls_append, calls_one, call_other "SETUP" "PLAY" _ _ _ 83 80 (by decide) (by decide) (by decide)]; rfl
        have hP : Spec.calls "PLAY" t.log ≤ Spec.calls "PLAY" s.log + 1 := by
          rcases g8 with g8 | ⟨u, w, k, g8⟩
          · rw [g8]; exact Nat.le_succ _
          · rw [g8, calls_append, calls_one]
            show Spec.calls "PLAY" s.log + _ ≤ _
            split <;> omega
        have hC : ∀ f, Spec.closes f t.log = Spec.closes f s.log := by
          intro f
          rcases g8 with g8 | ⟨u, w, k, g8⟩
          · rw [g8]
          · rw [g8, closes_append]
            show Spec.closes f s.log + _ = _
            have : Spec.closes f [Out.sent (Spec.call (bytes "PLAY") u w k)] = 0 := by simp [Spec.closes]
            omega
        have hI : Inv c t := by
          refine ⟨g1.trans hcf, ⟨?_, ?_, ?_, ?_⟩, hf.same g6 g2 hC, ?_⟩
          · rw [g2]; exact fun _ => hl.fd hb
          · rw [g3, g4]; exact hl.bus
          · rw [g5]; exact hl.hup
          · rw [g3]; intro x; have x : s.bus = false := x; rw [hb] at x; cases x
          · rw [hS, g7]
            show _ + (s.setups.erase ck).length ≤ _
            omega
        by_cases hr : r < 0
        · rw [if_pos hr] at hs
          obtain ⟨a, b⟩ := gone_inv mv t s' hI (g4.trans hc.1) hs
          exact ⟨a, by rw [b, hS]; exact Nat.le_add_right _ _⟩
        · rw [if_neg hr] at hs
          cases hs
          exact ⟨hI, by rw [hS]; exact Nat.le_add_right _ _⟩
    · rw [if_neg hc] at hs
      cases hs; exact hsame
  | cookie =>
    simp only [step, Option.some.injEq] at hs
    rw [← hs]
    exact ⟨⟨h.cfg, ⟨h.live.fd, h.live.bus, h.live.hup, h.live.setups⟩, ⟨h.fds.fresh, h.fds.current, h.fds.past⟩, h.plays⟩, Nat.le_add_right _ _⟩

theorem new_inv (c : Cfg) : Inv c (new c) := by
  refine ⟨rfl, ⟨(fun x => nomatch x), rfl, rfl, fun _ => rfl⟩, ⟨fun _ _ => rfl, (fun _ x => nomatch x), ?_⟩, Nat.le_refl 0⟩
  intro f hf
  exact absurd hf (Nat.not_lt_zero f)

theorem run_inv {c : Cfg} (mv : Moves) (es : List Ev) (s s' : St) (h : Inv c s) (hp : Spec.PortOk c) (hext : c.ext.length < 1000000) (hd : ∀ e ∈ es, Spec.Delivered e) (hs : run mv s es = some s') :
    Inv c s' ∧ Spec.calls "SETUP" s'.log ≤ Spec.calls "SETUP" s.log + es.countP Spec.asksSetup := by
  induction es generalizing s with
  | nil => cases hs; exact ⟨h, Nat.le_add_right _ _⟩
  | cons e es ih =>
    simp only [run, Option.bind_eq_some_iff] at hs
    obtain ⟨t, h1, h2⟩ := hs
    obtain ⟨a1, a2⟩ := step_inv mv s t e h hp hext (hd e (by simp)) h1
    obtain ⟨b1, b2⟩ := ih t a1 (fun e he => hd e (by simp [he])) h2
    refine ⟨b1, ?_⟩
    rw [List.countP_cons]
    omega

end Verif.Sink
