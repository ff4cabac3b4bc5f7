import Verif.Proof.SinkUibc
/-!
# Properties of the RTSP session of the sink (C54, C89–C92)
-/
namespace Verif.Sink
open Verif.C
open Verif.Rtsp (Msg Moves REMOTE)
open Verif.Rtsp.Spec (AtRest named)

/-! ### Messages for the examples -/

/-- A configuration. -/
def cfg0 : Cfg := ⟨0x1ffff, 0, 0, 1991, false, []⟩

/-- A request with some parameters, given as name and words. -/
def req (method : String) (n : Nat) (ps : List (String × List String)) : Msg :=
  { Rtsp.newMsg with
    type := .request, method := bytes method, uri := bytes "rtsp://localhost/wfd1.0", isSealed := true, isUsed := true, cookie := Rtsp.remote n
    bodyHeaders := ps.map fun p => ⟨bytes p.1, some (bytes (" ".intercalate p.2)), p.2.map bytes, none⟩ }

/-- A reply. -/
def rep (code : Nat) (session : Option String) : Msg :=
  { Rtsp.newMsg with
    type := .reply, code := code, isSealed := true, isUsed := true, cookie := 1
    headers := match session with
      | some w => [⟨bytes "Session", some (bytes w), [bytes w], none⟩]
      | none => [] }

/-- The events that make a connection. -/
def up : List Ev := [.connect true true true, .io true false false true true]

/-- The parameters of M4. -/
def m4 : List (String × List String) :=
  [("wfd_video_formats", ["00", "00", "02", "04", "00000080", "00000000", "00000000", "00", "0000", "0000", "00", "none", "none"]),
   ("wfd_presentation_URL", ["rtsp://192.168.49.1/wfd1.0/streamid=0", "none"])]

theorem reached_inv {mv : Moves} {c : Cfg} {s : St} (hp : Spec.PortOk c) (hext : c.ext.length < 1000000) (h : Spec.Reached mv c s) : Inv c s := by
  obtain ⟨es, h1, h2⟩ := h
  exact (run_inv mv es (new c) s (new_inv c) hp hext h1 h2).1

theorem step_msg {mv : Moves} {c : Cfg} {s : St} (hi : Inv c s) (hcon : s.connected = true) (m : Msg) (hm : Spec.Request m) :
    step mv s (.msg m) = (if m.method = bytes "OPTIONS" then handleOptions mv s m else if m.method = bytes "GET_PARAMETER" then handleGet mv s m
      else if m.method = bytes "SET_PARAMETER" then handleSet mv s m else some s).map finish := by
  unfold step
  simp only [hcon, if_true]
  show (handle mv s m).map finish = _
  unfold handle
  rw [if_neg (show ¬ m.type ≠ .request from fun h => h hm.2.2)]

theorem finish_live (s : St) (h : s.hup = false) : finish s = s := by
  unfold finish
  rw [if_neg (by rw [h]; decide)]

/-! ### Requests -/

/-- **C54 (OPTIONS).** Over a connection, an OPTIONS request with a number is answered first, under its own number, with the method list, and then the sink sends its own OPTIONS with the
next number of the connection. -/
theorem options_exact (mv : Moves) (c : Cfg) (s : St) (hr : Spec.Reached mv c s) (hp : Spec.PortOk c) (hext : c.ext.length < 1000000) (hcon : s.connected = true)
    (m : Msg) (hm : Spec.Request m) (hn : Spec.numbered m) (hme : m.method = bytes "OPTIONS") (hk : s.cookies + 1 < REMOTE) :
    ∃ s', step mv s (.msg m) = some s' ∧ s'.connected = true ∧ s'.url = s.url ∧ s'.cookies = s.cookies + 1 ∧ s'.setups = s.setups ∧
      s'.log = s.log ++ [.sent (Spec.ok (Spec.cseq m) [bytes "Public: " ++ Spec.quoted (bytes "org.wfa.wfd1.0, GET_PARAMETER, SET_PARAMETER")] []),
        .sent (Spec.call (bytes "OPTIONS") (bytes "*") (bytes "Require: org.wfa.wfd1.0") (s.cookies + 1))] := by
  have hi := reached_inv hp hext hr
  have hb : s.bus = true := hi.live.bus.trans hcon
  rw [step_msg hi hcon m hm, if_pos hme]
  obtain ⟨r, s', h1, h2⟩ := options_reply mv s m hm.2.1 hn.1 hb
  rw [request_ok mv (s.out _) (bytes "OPTIONS") (bytes "*") (bytes "Require") (bytes "org.wfa.wfd1.0") false (by decide) (by decide) (by decide) (by unfold Rtsp.Plain; decide +kernel) hb hk] at h1
  rw [h2]
  cases h1
  have e : bytes "Require" ++ bytes ": " ++ Spec.quoted (bytes "org.wfa.wfd1.0") = bytes "Require: org.wfa.wfd1.0" := by decide +kernel
  rw [e]
  refine ⟨_, congrArg some (finish_live _ hi.live.hup), hcon, rfl, rfl, rfl, ?_⟩
  show s.log ++ [_] ++ [_] = _
  rw [List.append_assoc]
  rfl

/-- The list of methods is sent in quotes, which no reader of the header expects: the blanks make the writer of words quote it. -/
theorem public_is_quoted : Spec.quoted (bytes "org.wfa.wfd1.0, GET_PARAMETER, SET_PARAMETER") = bytes "\"org.wfa.wfd1.0, GET_PARAMETER, SET_PARAMETER\"" := by decide +kernel

example : (run (fun _ => true) (new cfg0) (up ++ [.msg (req "OPTIONS" 1 [])])).map (fun s => (s.connected, Spec.sent s.log)) =
    some (true, [bytes "RTSP/1.0 200 OK\r\nPublic: \"org.wfa.wfd1.0, GET_PARAMETER, SET_PARAMETER\"\r\nCSeq: 1\r\n\r\n",
      bytes "OPTIONS * RTSP/1.0\r\nRequire: org.wfa.wfd1.0\r\nCSeq: 1\r\n\r\n"]) := by decide +kernel

/-- **C54 (GET_PARAMETER).** If the configuration sets no name twice and none of the two the sink decides alone, then a GET_PARAMETER request with a number gets one reply whose lines are,
for each name asked for that the sink supports, exactly one line with its value, and nothing else; it is undefined exactly if such a line has 512 bytes or more. -/
theorem get_exact (mv : Moves) (c : Cfg) (s : St) (hr : Spec.Reached mv c s) (hp : Spec.PortOk c) (hext : c.ext.length < 1000000) (hcon : s.connected = true)
    (hpl : Spec.Plain c) (m : Msg) (hm : Spec.Request m) (hn : Spec.numbered m) (hme : m.method = bytes "GET_PARAMETER") :
    (step mv s (.msg m) = none ↔ ∃ name v, Spec.mentions m name = true ∧ Spec.supported c name = some v ∧ 512 ≤ (name ++ bytes ": " ++ v).length) ∧
    ∀ s', step mv s (.msg m) = some s' → ∃ L : List (List Byte × List Byte),
      s' = { s with log := s.log ++ [.sent (Spec.ok (Spec.cseq m) [] (L.map fun p => p.1 ++ bytes ": " ++ p.2))] } ∧
      ∀ name, L.filter (fun p => decide (p.1 = name)) = (if Spec.mentions m name then ((Spec.supported c name).map fun v => (name, v)).toList else []) := by
  have hi := reached_inv hp hext hr
  have hb : s.bus = true := hi.live.bus.trans hcon
  have hc := hi.cfg
  rw [step_msg hi hcon m hm, if_neg (by rw [hme]; decide), if_pos hme, get_eq mv s m hm.1 hm.2.1 hn.1 hb (by rw [hc]; exact hext), show options s.cfg = options c from by rw [hc]]
  have hmem : ∀ p, p ∈ answers m (options c) ↔ Spec.mentions m p.1 = true ∧ Spec.supported c p.1 = some p.2 := by
    intro p
    have h1 := options_filter c hpl p.1
    unfold answers
    rw [List.mem_filter]
    have h2 : p ∈ options c ↔ Spec.supported c p.1 = some p.2 := by
      have h3 : p ∈ options c ↔ p ∈ (options c).filter (fun q => decide (q.1 = p.1)) := by
        rw [List.mem_filter]; simp
      rw [h3, h1]
      cases Spec.supported c p.1 with
      | none => simp
      | some v =>
        simp only [Option.map_some, Option.toList_some, List.mem_singleton, Option.some.injEq]
        constructor
        · intro h; rw [h]
        · intro h; rw [h]
    rw [h2]
    exact And.comm
  by_cases hx : ∃ p ∈ answers m (options c), 512 ≤ (answer p).length
  · rw [if_pos hx]
    obtain ⟨p, h1, h2⟩ := hx
    obtain ⟨h3, h4⟩ := (hmem p).mp h1
    exact ⟨⟨fun _ => ⟨p.1, p.2, h3, h4, h2⟩, fun _ => rfl⟩, fun s' h => by cases h⟩
  · rw [if_neg hx]
    refine ⟨⟨(fun h => nomatch h), ?_⟩, ?_⟩
    · rintro ⟨n, v, h1, h2, h3⟩
      exact absurd ⟨(n, v), (hmem (n, v)).mpr ⟨h1, h2⟩, h3⟩ hx
    · intro s' h
      simp only [Option.map_some, Option.some.injEq] at h
      rw [finish_live _ (show (s.out _).hup = false from hi.live.hup)] at h
      refine ⟨answers m (options c), h.symm, ?_⟩
      intro name
      have h1 := options_filter c hpl name
      rw [← h1]
      unfold answers
      rw [List.filter_filter]
      by_cases hq : Spec.mentions m name = true
      · rw [if_pos hq]
        apply List.filter_congr
        intro p _
        by_cases e : p.1 = name
        · simp [e, hq]
        · simp [e]
      · rw [if_neg hq]
        rw [List.filter_eq_nil_iff]
        intro p _ h
        simp only [Bool.and_eq_true, decide_eq_true_eq] at h
        exact hq (h.1 ▸ h.2)

example : Spec.Plain { cfg0 with ext := [(bytes "wfd_3d_formats", bytes "none")] } ∧
    (run (fun _ => true) (new { cfg0 with ext := [(bytes "wfd_3d_formats", bytes "none")] })
      (up ++ [.msg (req "GET_PARAMETER" 2 [("wfd_audio_codecs", []), ("wfd_3D_formats", []), ("wfd_Content_protection", []), ("wfd_uibc_capability", [])])])).map (fun s => Spec.sent s.log) =
    some [bytes "RTSP/1.0 200 OK\r\nContent-Length: 87\r\nContent-Type: text/parameters\r\nCSeq: 2\r\n\r\nwfd_content_protection: none\r\nwfd_audio_codecs: AAC 00000007 00\r\nwfd_3d_formats: none\r\n"] := by
  refine ⟨?_, by decide +kernel⟩
  unfold Spec.Plain
  decide +kernel

/-- If the configuration sets `wfd_content_protection`, the name is answered twice, with different values. -/
theorem twice_answered : (run (fun _ => true) (new { cfg0 with ext := [(bytes "wfd_content_protection", bytes "HDCP2.1 port=1189")] })
      (up ++ [.msg (req "GET_PARAMETER" 2 [("wfd_content_protection", [])])])).map (fun s => Spec.sent s.log) =
    some [bytes "RTSP/1.0 200 OK\r\nContent-Length: 73\r\nContent-Type: text/parameters\r\nCSeq: 2\r\n\r\nwfd_content_protection: none\r\nwfd_content_protection: HDCP2.1 port=1189\r\n"] := by decide +kernel

/-- A configured value of 500 bytes overruns the buffer of the reply as soon as the source asks for it. -/
theorem long_value_undefined (mv : Moves) : step mv { new { cfg0 with ext := [(bytes "wfd_3d_formats", List.replicate 500 48)] } with fd := some 0, bus := true, connected := true, opened := 1, log := [.connected] }
      (.msg (req "GET_PARAMETER" 2 [("wfd_3d_formats", [])])) = none := by
  have hr : Spec.Reached mv { cfg0 with ext := [(bytes "wfd_3d_formats", List.replicate 500 48)] }
      { new { cfg0 with ext := [(bytes "wfd_3d_formats", List.replicate 500 48)] } with fd := some 0, bus := true, connected := true, opened := 1, log := [.connected] } := by
    refine ⟨up, ?_, rfl⟩
    intro e he
    unfold up at he
    simp only [List.mem_cons, List.not_mem_nil, or_false] at he
    rcases he with rfl | rfl <;> exact True.intro
  refine (get_exact mv _ _ hr ⟨by decide, by decide⟩ (by decide) rfl ⟨by decide, by decide +kernel, by decide +kernel⟩ _ ⟨⟨rfl, by decide, rfl, rfl⟩, rfl, rfl⟩ ⟨by decide, by decide⟩ rfl).1.mpr ?_
  refine ⟨bytes "wfd_3d_formats", List.replicate 500 48, by decide +kernel, by decide +kernel, by decide +kernel⟩

/-- **C54 (SET_PARAMETER).** Over a connection, a SET_PARAMETER request with a number is answered first, with an empty reply. Then a presentation URL replaces the one known; the formats select a
resolution (or nothing); and if the trigger is SETUP, the formats were not refused and a URL is known, then a SETUP request for it goes out, with the port of the configuration. -/
theorem set_exact (mv : Moves) (c : Cfg) (s s' : St) (hr : Spec.Reached mv c s) (hp : Spec.PortOk c) (hext : c.ext.length < 1000000) (hcon : s.connected = true)
    (m : Msg) (hm : Spec.Request m) (hn : Spec.numbered m) (hme : m.method = bytes "SET_PARAMETER") (hk : s.cookies + 1 < REMOTE) (hs : step mv s (.msg m) = some s') :
    ∃ f res go, Spec.formats m = some f ∧ Spec.Choice f res go ∧ s'.connected = true ∧
      s'.url = (Spec.word m "wfd_presentation_URL").or s.url ∧
      s'.log = s.log ++ [.sent (Spec.ok (Spec.cseq m) [] [])] ++ Spec.shown res ++
        (if go = true ∧ Spec.word m "wfd_trigger_method" = some (bytes "SETUP") ∧ s'.url.getD [] ≠ [] then
          [.sent (Spec.call (bytes "SETUP") (s'.url.getD []) (bytes "Transport: RTP/AVP/UDP;unicast;client_port=" ++ decInt c.port) (s.cookies + 1))] else []) ∧
      s'.setups = s.setups ++ (if go = true ∧ Spec.word m "wfd_trigger_method" = some (bytes "SETUP") ∧ s'.url.getD [] ≠ [] then [s.cookies + 1] else []) ∧
      s'.cookies = s.cookies + (if go = true ∧ Spec.word m "wfd_trigger_method" = some (bytes "SETUP") ∧ s'.url.getD [] ≠ [] then 1 else 0) := by
  have hi := reached_inv hp hext hr
  have hb : s.bus = true := hi.live.bus.trans hcon
  rw [step_msg hi hcon m hm, if_neg (by rw [hme]; decide), if_neg (by rw [hme]; decide), if_pos hme, set_reply mv s m hm.2.1 hn.1 hb, take_eq mv _ m hm.1] at hs
  obtain ⟨t, ht, hf⟩ := Option.map_eq_some_iff.mp hs
  simp only [Option.bind_eq_some_iff] at ht
  obtain ⟨s2, h2, r, h3, h4⟩ := ht
  generalize hs0 : s.out (.sent (Spec.ok (Rtsp.local_ m.cookie) [] [])) = s0 at h2
  have z1 : s0.log = s.log ++ [.sent (Spec.ok (Spec.cseq m) [] [])] := by rw [← hs0]; rfl
  have z2 : Kept s s0 := by rw [← hs0]; exact ⟨rfl, rfl, rfl, rfl, rfl, rfl, rfl⟩
  have z3 : s0.url = s.url := by rw [← hs0]; rfl
  have z4 : s0.cookies = s.cookies := by rw [← hs0]; rfl
  have z5 : s0.setups = s.setups := by rw [← hs0]; rfl
  obtain ⟨a1, a2, a3, a4, a5, _⟩ := afterUrl_keeps s0 m
  obtain ⟨b1, b2, b3, b4, b5⟩ := afterUibc_keeps _ _ m h2
  obtain ⟨c1, c2, c3, c4, c5, _⟩ := afterSetting_keeps s2 m
  obtain ⟨f, res, d0, d1, d2, d3, d4, d5, d6, _⟩ := afterFormats_cases _ m r h3
  have hkept : Kept s r.2 := (((z2.trans a1).trans b1).trans c1).trans d2
  have hlog : r.2.log = s.log ++ [.sent (Spec.ok (Spec.cseq m) [] [])] ++ Spec.shown res := by rw [d3, c2, b2, a2, z1]
  have hurl : r.2.url = (Spec.word m "wfd_presentation_URL").or s.url := by rw [d6, c5, b5, a5, z3]
  have hck : r.2.cookies = s.cookies := by rw [d5, c4, b4, a4, z4]
  have hsu : r.2.setups = s.setups := by rw [d4, c3, b3, a3, z5]
  refine ⟨f, res, r.1, d0, d1, ?_⟩
  split at h4
  · rename_i hg
    cases h4
    rw [finish_live _ (hkept.hup.trans hi.live.hup)] at hf
    have hno : ¬ (r.1 = true ∧ Spec.word m "wfd_trigger_method" = some (bytes "SETUP") ∧ r.2.url.getD [] ≠ []) := by rw [hg]; rintro ⟨x, _⟩; cases x
    rw [← hf, if_neg hno, if_neg hno, if_neg hno]
    exact ⟨hkept.connected.trans hcon, hurl, by rw [hlog]; simp, by rw [hsu]; simp, hck⟩
  · rename_i hg
    have hg : r.1 = true := by simpa using hg
    unfold afterTrigger at h4
    split at h4
    · rename_i hw
      cases h4
      rw [finish_live _ (hkept.hup.trans hi.live.hup)] at hf
      have hno : ¬ (r.1 = true ∧ Spec.word m "wfd_trigger_method" = some (bytes "SETUP") ∧ r.2.url.getD [] ≠ []) := by rw [hw]; rintro ⟨_, x, _⟩; cases x
      rw [← hf, if_neg hno, if_neg hno, if_neg hno]
      exact ⟨hkept.connected.trans hcon, hurl, by rw [hlog]; simp, by rw [hsu]; simp, hck⟩
    · rename_i v hv
      obtain ⟨t', g1, g2, g3, _, _, g6, g7, g8⟩ := trigger_eq mv r.2 v (by rw [hkept.cfg, hi.cfg]; exact hp) (hkept.bus.trans hb) (by rw [hck]; exact hk)
      rw [g1] at h4
      cases h4
      have hk2 := hkept.trans g2
      rw [finish_live _ (hk2.hup.trans hi.live.hup)] at hf
      rw [← hf]
      refine ⟨hk2.connected.trans hcon, g3.trans hurl, ?_⟩
      have htr : bytes "Transport: " ++ transport r.2 = bytes "Transport: RTP/AVP/UDP;unicast;client_port=" ++ decInt c.port := by
        unfold transport
        rw [hkept.cfg, hi.cfg, ← List.append_assoc]
        congr 1
      rw [g6, g7, g8, hlog, g3, htr, hck, hsu]
      by_cases hq : v = bytes "SETUP" ∧ r.2.url.getD [] ≠ []
      · have hyes : r.1 = true ∧ Spec.word m "wfd_trigger_method" = some (bytes "SETUP") ∧ r.2.url.getD [] ≠ [] := ⟨hg, by rw [hv, hq.1], hq.2⟩
        rw [if_pos hq, if_pos hyes, if_pos hq, if_pos hyes, if_pos hq, if_pos hyes]
        exact ⟨rfl, rfl, rfl⟩
      · have hno : ¬ (r.1 = true ∧ Spec.word m "wfd_trigger_method" = some (bytes "SETUP") ∧ r.2.url.getD [] ≠ []) := by
          rintro ⟨_, x, y⟩
          rw [hv] at x
          exact hq ⟨Option.some.inj x, y⟩
        rw [if_neg hq, if_neg hno, if_neg hq, if_neg hno, if_neg hq, if_neg hno]
        exact ⟨rfl, rfl, rfl⟩

/-- It is defined if the formats are and the setting of remote input is left alone. -/
theorem set_defined (mv : Moves) (c : Cfg) (s : St) (hr : Spec.Reached mv c s) (hp : Spec.PortOk c) (hext : c.ext.length < 1000000) (hcon : s.connected = true)
    (m : Msg) (hm : Spec.Request m) (hn : Spec.numbered m) (hme : m.method = bytes "SET_PARAMETER") (hf : Spec.formats m ≠ none)
    (hu : Spec.value m "wfd_uibc_capability" = none) : ∃ s', step mv s (.msg m) = some s' := by
  have hi := reached_inv hp hext hr
  have hb : s.bus = true := hi.live.bus.trans hcon
  rw [step_msg hi hcon m hm, if_neg (by rw [hme]; decide), if_neg (by rw [hme]; decide), if_pos hme, set_reply mv s m hm.2.1 hn.1 hb, take_eq mv _ m hm.1]
  unfold afterUibc
  rw [hu]
  simp only [Option.bind_some]
  generalize hs0 : s.out (.sent (Spec.ok (Rtsp.local_ m.cookie) [] [])) = s0
  have z2 : Kept s s0 := by rw [← hs0]; exact ⟨rfl, rfl, rfl, rfl, rfl, rfl, rfl⟩
  cases ha : afterFormats (afterSetting (afterUrl s0 m) m) m with
  | none =>
    exfalso
    unfold afterFormats at ha
    split at ha
    · rename_i h; exact hf h
    · cases ha
    · rename_i c' v h _
      simp only [Option.map_eq_none_iff] at ha
      unfold setFormat at ha
      rcases Wfd.setFormat_chooses ⟨(afterSetting (afterUrl s0 m) m).hres, (afterSetting (afterUrl s0 m) m).vres, 0⟩ c' v h with ⟨a, b, e1, e2⟩ | ⟨e1, e2, e3, e4⟩
      · rw [e1] at ha
        simp only [Option.bind_eq_bind, Option.bind_some] at ha
        rw [if_neg (Int.lt_irrefl 0)] at ha
        cases ha
      · rw [e1] at ha
        simp only [Option.bind_eq_bind, Option.bind_some] at ha
        rw [if_pos (by decide)] at ha
        cases ha
  | some r =>
    simp only [Option.bind_some]
    split
    · exact ⟨_, rfl⟩
    · unfold afterTrigger
      split
      · exact ⟨_, rfl⟩
      · obtain ⟨_, _, _, _, d2, _⟩ := afterFormats_cases _ m r ha
        have hkept : Kept s r.2 := ((z2.trans (afterUrl_keeps s0 m).1).trans (afterSetting_keeps _ m).1).trans d2
        obtain ⟨t, _, h1, _⟩ := trigger_eff mv r.2 _ (by rw [hkept.cfg, hi.cfg]; exact hp)
        rw [h1]
        exact ⟨_, rfl⟩

example : (run (fun _ => true) (new cfg0) (up ++ [.msg (req "SET_PARAMETER" 3 m4), .msg (req "SET_PARAMETER" 4 [("wfd_trigger_method", ["SETUP"])])])).map (fun s => s.log) =
    some [.connected, .sent (bytes "RTSP/1.0 200 OK\r\nCSeq: 3\r\n\r\n"), .resolution 1920 1080, .sent (bytes "RTSP/1.0 200 OK\r\nCSeq: 4\r\n\r\n"),
      .sent (bytes "SETUP rtsp://192.168.49.1/wfd1.0/streamid=0 RTSP/1.0\r\nTransport: RTP/AVP/UDP;unicast;client_port=1991\r\nCSeq: 1\r\n\r\n")] := by decide +kernel

/-- **C54 (answers).** Whatever a message is: exactly one reply is sent if it is a request with a number and one of the three methods, and none otherwise. -/
theorem answered_once (mv : Moves) (c : Cfg) (s s' : St) (hr : Spec.Reached mv c s) (hp : Spec.PortOk c) (hext : c.ext.length < 1000000) (hcon : s.connected = true)
    (m : Msg) (hm : AtRest m) (hu : m.isUsed = true) (hs : step mv s (.msg m) = some s') :
    s'.connected = true ∧ (m.type = .request ∧ Spec.Known m ∧ Rtsp.isRemote m.cookie = true → Spec.replies s'.log = Spec.replies s.log + 1) ∧
    (¬ (m.type = .request ∧ Spec.Known m ∧ Rtsp.isRemote m.cookie = true) → Spec.replies s'.log = Spec.replies s.log) := by
  have hi := reached_inv hp hext hr
  have hb : s.bus = true := hi.live.bus.trans hcon
  have hs : (if s.connected then rtspFn mv s (some m) else some s) = some s' := hs
  rw [if_pos hcon] at hs
  obtain ⟨t, ht, hf⟩ := Option.map_eq_some_iff.mp hs
  obtain ⟨k, ⟨e1, _, ex, e3, _, _, _, e7⟩, _⟩ := handle_eff mv s t m hm hu hb (hi.cfg ▸ hp) (hi.cfg ▸ hext) ht
  rw [finish_live _ (e1.hup.trans hi.live.hup)] at hf
  rw [← hf, e3, replies_append, e7]
  refine ⟨e1.connected.trans hcon, ?_, ?_⟩
  · intro h; rw [if_pos h]
  · intro h; rw [if_neg h]; rfl

/-- So a TEARDOWN request is never answered, although the standard wants a reply to every request. -/
theorem teardown_unanswered : (run (fun _ => true) (new cfg0) (up ++ [.msg (req "TEARDOWN" 9 [])])).map (fun s => s.log) = some [.connected] := by decide +kernel

/-! ### The reply to SETUP -/

/-- **C54 (PLAY).** If the reply to a SETUP that waits names a session and a URL is known, then PLAY is requested for the URL in that session; otherwise the connection is closed. -/
theorem setup_reply_exact (mv : Moves) (c : Cfg) (s : St) (hr : Spec.Reached mv c s) (hp : Spec.PortOk c) (hext : c.ext.length < 1000000) (hcon : s.connected = true)
    (ck : Nat) (hck : ck ∈ s.setups) (m : Msg) (hm : AtRest m) (hk : s.cookies + 1 < REMOTE) :
    ∃ s', step mv s (.reply ck (some m)) = some s' ∧
      (∀ w, Spec.session m = some w → s.url.getD [] ≠ [] → s'.connected = true ∧ s'.session = some w ∧ s'.url = s.url ∧
        s'.log = s.log ++ [.sent (Spec.call (bytes "PLAY") (s.url.getD []) (bytes "Session: " ++ Spec.quoted w) (s.cookies + 1))]) ∧
      (Spec.session m = none ∨ s.url.getD [] = [] → s'.connected = false ∧ s'.fd = none ∧ Spec.sent s'.log = Spec.sent s.log ∧ s'.log.getLast? = some .disconnected) := by
  have hi := reached_inv hp hext hr
  have hb : s.bus = true := hi.live.bus.trans hcon
  have hgone : ∀ t : St, t.log = s.log → t.fd = s.fd → ∃ s', rtspFn mv t none = some s' ∧ s'.connected = false ∧ s'.fd = none ∧ Spec.sent s'.log = Spec.sent s.log ∧ s'.log.getLast? = some .disconnected := by
    intro t h1 h2
    refine ⟨_, rfl, ?_⟩
    have hfin : finish { t with hup := true } = (close { t with hup := true }).out .disconnected := by
      unfold finish
      rw [if_pos rfl]
    rw [hfin]
    have hfd := hi.live.fd hb
    obtain ⟨f, hf⟩ := Option.isSome_iff_exists.mp hfd
    have hc : ∃ ex, (close { t with hup := true }).log = s.log ++ ex ∧ Spec.sent ex = [] ∧ (close { t with hup := true }).connected = false ∧ (close { t with hup := true }).fd = none := by
      unfold close
      simp only [h2, hf]
      split
      · exact ⟨[.closed f, .closed f], by simp [St.out, h1], rfl, by first | rfl | trivial, by first | rfl | trivial⟩
      · exact ⟨[.closed f], by simp [St.out, h1], rfl, by first | rfl | trivial, by first | rfl | trivial⟩
    obtain ⟨ex, x1, x2, x3, x4⟩ := hc
    refine ⟨x3, x4, ?_, ?_⟩
    · show Spec.sent ((close { t with hup := true }).log ++ [.disconnected]) = _
      rw [x1]
      unfold Spec.sent at x2 ⊢
      rw [List.filterMap_append, List.filterMap_append, x2]
      simp
    · show ((close { t with hup := true }).log ++ [Out.disconnected]).getLast? = _
      simp
  have hst : step mv s (.reply ck (some m)) = (setupFn mv { s with setups := s.setups.erase ck } (some m)).bind fun r => if r.1 < 0 then rtspFn mv r.2 none else some r.2 := by
    unfold step
    simp only [hcon, hck, and_self, if_true, Option.isSome_some, and_true]
    rfl
  rw [hst]
  obtain ⟨r, m', vs, h1, h2, h3⟩ := session_read m hm
  have hsf : setupFn mv { s with setups := s.setups.erase ck } (some m) = if r < 0 then some (r, { s with setups := s.setups.erase ck }) else
      request mv { s with setups := s.setups.erase ck, session := some (untilSemicolon (text vs)) } (bytes "PLAY") (s.url.getD []) (bytes "Session") (untilSemicolon (text vs)) false := by
    unfold setupFn
    simp only [h1, Option.bind_eq_bind, Option.bind_some]
  rw [hsf]
  cases hw : Spec.session m with
  | none =>
    rw [if_pos (h2.mpr hw)]
    simp only [Option.bind_some]
    rw [if_pos (h2.mpr hw)]
    obtain ⟨s', g1, g2⟩ := hgone { s with setups := s.setups.erase ck } rfl rfl
    exact ⟨s', g1, (fun w x => nomatch x), fun _ => g2⟩
  | some w =>
    rw [if_neg (fun h => by rw [h2.mp h] at hw; cases hw), h3 w hw]
    by_cases hu : s.url.getD [] = []
    · rw [hu]
      have hreq : request mv { s with setups := s.setups.erase ck, session := some w } (bytes "PLAY") [] (bytes "Session") w false =
          some (-EINVAL, { s with setups := s.setups.erase ck, session := some w }) := by
        unfold request
        have : Rtsp.newRequest (bytes "PLAY") [] = none := by decide
        rw [this]
      rw [hreq]
      simp only [Option.bind_some]
      rw [if_pos (by decide)]
      obtain ⟨s', g1, g2⟩ := hgone { s with setups := s.setups.erase ck, session := some w } rfl rfl
      exact ⟨s', g1, fun _ _ h => absurd rfl h, fun _ => g2⟩
    · rw [request_ok mv { s with setups := s.setups.erase ck, session := some w } (bytes "PLAY") (s.url.getD []) (bytes "Session") w false (by decide) hu (by decide) (by unfold Rtsp.Plain; decide +kernel) hb hk]
      simp only [Option.bind_some]
      rw [if_neg (Int.lt_irrefl 0)]
      have e : bytes "Session" ++ bytes ": " = bytes "Session: " := by decide +kernel
      rw [e]
      refine ⟨_, rfl, ?_, ?_⟩
      · intro w' hw' _
        cases hw'
        exact ⟨hcon, rfl, rfl, rfl⟩
      · rintro (h | h)
        · cases h
        · exact absurd h hu

/-- The events up to SETUP. -/
def ready : List Ev := up ++ [.msg (req "SET_PARAMETER" 3 m4), .msg (req "SET_PARAMETER" 4 [("wfd_trigger_method", ["SETUP"])])]

example : (run (fun _ => true) (new cfg0) (ready ++ [.reply 1 (some (rep 200 (some "6B8B4567;timeout=30")))])).map (fun s => (s.session, (Spec.sent s.log).getLast?)) =
    some (some (bytes "6B8B4567"), some (bytes "PLAY rtsp://192.168.49.1/wfd1.0/streamid=0 RTSP/1.0\r\nSession: 6B8B4567\r\nCSeq: 2\r\n\r\n")) := by decide +kernel
example : (run (fun _ => true) (new cfg0) (ready ++ [.reply 1 (some (rep 200 none))])).map (fun s => (s.connected, s.log.drop 5)) =
    some (false, [.closed 0, .closed 0, .disconnected]) := by decide +kernel

/-- **C54 (order).** In every run, there are at most as many PLAY requests as SETUP requests, and at most as many of those as triggers received. -/
theorem no_play_without_setup (mv : Moves) (c : Cfg) (hp : Spec.PortOk c) (hext : c.ext.length < 1000000) (es : List Ev) (hd : ∀ e ∈ es, Spec.Delivered e) (s : St)
    (hs : run mv (new c) es = some s) :
    Spec.calls "PLAY" s.log + s.setups.length ≤ Spec.calls "SETUP" s.log ∧ Spec.calls "SETUP" s.log ≤ es.countP Spec.asksSetup := by
  obtain ⟨h1, h2⟩ := run_inv mv es (new c) s (new_inv c) hp hext hd hs
  refine ⟨h1.plays, ?_⟩
  have : Spec.calls "SETUP" (new c).log = 0 := rfl
  omega

example : (run (fun _ => true) (new cfg0) (ready ++ [.reply 1 (some (rep 200 (some "1"))), .reply 1 (some (rep 200 (some "1")))])).map (fun s => (Spec.calls "PLAY" s.log, Spec.calls "SETUP" s.log)) = some (1, 1) := by
  decide +kernel

/-- The status of the reply is not looked at: PLAY follows a SETUP that was refused. -/
theorem play_after_refusal : ((run (fun _ => true) (new cfg0) (ready ++ [.reply 1 (some (rep 454 (some "1")))])).map fun s => Spec.calls "PLAY" s.log) = some 1 := by decide +kernel

/-- The URL of PLAY need not be the one that was set up. -/
theorem play_other_url : ((run (fun _ => true) (new cfg0) (ready ++ [.msg (req "SET_PARAMETER" 5 [("wfd_presentation_URL", ["rtsp://other"])]), .reply 1 (some (rep 200 (some "1")))])).map
    fun s => (Spec.sent s.log).getLast?) = some (some (bytes "PLAY rtsp://other RTSP/1.0\r\nSession: 1\r\nCSeq: 2\r\n\r\n")) := by decide +kernel

/-- A URL of an earlier connection is used in a later one that named none. -/
theorem old_url_reused : ((run (fun _ => true) (new cfg0) (ready ++ [.close] ++ up ++ [.msg (req "SET_PARAMETER" 1 [("wfd_trigger_method", ["SETUP"])])])).map
    fun s => (Spec.sent s.log).getLast?) =
    some (some (bytes "SETUP rtsp://192.168.49.1/wfd1.0/streamid=0 RTSP/1.0\r\nTransport: RTP/AVP/UDP;unicast;client_port=1991\r\nCSeq: 1\r\n\r\n")) := by decide +kernel

/-! ### Descriptors and flags -/

/-- **C89 (partial).** In every run: the descriptor in use was not closed yet, and every descriptor opened before was closed — at least once and at most twice. Missing: exactly once, which is false, see
`closed_twice`. -/
theorem descriptors_partial (mv : Moves) (c : Cfg) (hp : Spec.PortOk c) (hext : c.ext.length < 1000000) (s : St) (hr : Spec.Reached mv c s) (f : Nat) :
    (s.fd = some f → Spec.closes f s.log = 0) ∧ (f < s.opened → s.fd ≠ some f → 1 ≤ Spec.closes f s.log ∧ Spec.closes f s.log ≤ 2) := by
  have hi := reached_inv hp hext hr
  exact ⟨fun h => (hi.fds.current f h).2, hi.fds.past f⟩

/-- Every connection that stands is closed twice when it is closed: by the bus and by the sink. If another thread or library opened a file in between, that one is closed. -/
theorem closed_twice (mv : Moves) (c : Cfg) (hp : Spec.PortOk c) (hext : c.ext.length < 1000000) (s : St) (hr : Spec.Reached mv c s) (hcon : s.connected = true) :
    ∃ f s', s.fd = some f ∧ step mv s .close = some s' ∧ s'.log = s.log ++ [.closed f, .closed f] ∧ Spec.closes f s'.log = 2 := by
  have hi := reached_inv hp hext hr
  have hb : s.bus = true := hi.live.bus.trans hcon
  obtain ⟨f, hf⟩ := Option.isSome_iff_exists.mp (hi.live.fd hb)
  have e : (close s).log = s.log ++ [.closed f, .closed f] := by
    unfold close
    simp only [hf, hb, if_true]
    simp [St.out]
  refine ⟨f, _, hf, rfl, e, ?_⟩
  rw [e, closes_append, (hi.fds.current f hf).2]
  simp [Spec.closes]

example : Spec.Reached (fun _ => true) cfg0 { new cfg0 with fd := some 0, bus := true, connected := true, opened := 1, log := [.connected] } := by
  refine ⟨up, ?_, rfl⟩
  intro e he
  unfold up at he
  simp only [List.mem_cons, List.not_mem_nil, or_false] at he
  rcases he with rfl | rfl <;> exact True.intro

/-- **C90.** In every run, between events: a sink is connected exactly if it has a bus, has a descriptor if it is connected, has no pending hang-up, and waits for no reply without a bus. -/
theorem flags_consistent (mv : Moves) (c : Cfg) (hp : Spec.PortOk c) (hext : c.ext.length < 1000000) (s : St) (hr : Spec.Reached mv c s) :
    s.cfg = c ∧ (s.connected = true ↔ s.bus = true) ∧ (s.connected = true → s.fd.isSome = true) ∧ s.hup = false ∧ (s.connected = false → s.setups = []) := by
  have hi := reached_inv hp hext hr
  refine ⟨hi.cfg, ?_, ?_, hi.live.hup, ?_⟩
  · rw [hi.live.bus]
  · intro h; exact hi.live.fd (hi.live.bus.trans h)
  · intro h; exact hi.live.setups (hi.live.bus.trans h)

/-! ### Remote input -/

/-- **C91 (partial).** If the value names a port `n` in a part `port=n` and no part before begins with `p`, then the port is `n` afterwards, and remote input is on if it was wanted. Missing: other
parts that begin with `p`, see `uibc_stale_port`, and `port=none`, see `uibc_none_keeps`. -/
theorem uibc_port_partial (s : St) (pre post : List (List Byte)) (n : Nat) (hn : n ≤ 2147483647)
    (h : ∀ p ∈ pre ++ post, p ≠ [] ∧ ch ';' ∉ p) (hpre : ∀ p ∈ pre, p.head? ≠ some (ch 'p'))
    (hnew : s.uibcConfig ≠ some (Spec.joined (pre ++ [bytes "port=" ++ dec n] ++ post))) :
    ∃ s', setUibc s (Spec.joined (pre ++ [bytes "port=" ++ dec n] ++ post)) = some s' ∧ s'.uibcPort = n ∧ s'.uibcEnabled = (s.cfg.uibc || s.uibcEnabled) := by
  have hall : ∀ p ∈ pre ++ [bytes "port=" ++ dec n] ++ post, p ≠ [] ∧ ch ';' ∉ p := by
    intro p hp
    simp only [List.mem_append, List.mem_singleton] at hp
    rcases hp with (hp | hp) | hp
    · exact h p (by simp [hp])
    · subst hp
      refine ⟨by simp [show bytes "port=" = [112, 111, 114, 116, 61] from by decide], ?_⟩
      simp only [List.mem_append, not_or]
      refine ⟨by decide, ?_⟩
      intro hc
      obtain ⟨h1, h2, _⟩ := dec_digits n _ hc
      revert h2
      decide
    · exact h p (by simp [hp])
  have hpc := pieces_joined _ hall
  have hmem : ch '=' ∈ Spec.joined (pre ++ [bytes "port=" ++ dec n] ++ post) := by
    unfold Spec.joined
    have : ∀ (ps : List (List Byte)) (p : List Byte) (x : Byte), p ∈ ps → x ∈ p → x ∈ List.intercalate [ch ';'] ps := by
      intro ps p x hp hx
      induction ps with
      | nil => cases hp
      | cons q qs ih =>
        cases qs with
        | nil =>
          have : p = q := by simpa using hp
          simpa [List.intercalate, ← this] using hx
        | cons r rs =>
          have e : List.intercalate [ch ';'] (q :: r :: rs) = q ++ (ch ';' :: List.intercalate [ch ';'] (r :: rs)) := by
            simp [List.intercalate, List.intersperse]
          rw [e]
          rcases List.mem_cons.mp hp with hp | hp
          · rw [← hp]; simp [hx]
          · simp [ih hp]
    exact this _ (bytes "port=" ++ dec n) _ (by simp) (by rw [List.mem_append]; left; decide)
  have hno : ∀ v, ch '=' ∈ v → caseEq v (bytes "none") = false := by
    intro v hv
    cases hq : caseEq v (bytes "none") with
    | false => rfl
    | true =>
      exfalso
      unfold caseEq at hq
      simp only [decide_eq_true_eq] at hq
      have h1 : toLower (ch '=') ∈ v.map toLower := List.mem_map.mpr ⟨_, hv, rfl⟩
      rw [hq] at h1
      revert h1
      decide
  unfold setUibc
  rw [if_neg hnew]
  simp only
  rw [if_neg (by rw [hno _ hmem]; decide), hpc, List.append_assoc, scanPorts_skip _ _ _ _ _ (fun p hp => ⟨(h p (by simp [hp])).1, hpre p hp⟩)]
  have e : scanPorts s.cfg.uibc s.uibcEnabled s.uibcPort ([bytes "port=" ++ dec n] ++ post) = some (s.cfg.uibc || s.uibcEnabled, (n : Int)) := by
    show ((scanAfter (bytes "port=") (bytes "port=" ++ dec n)).bind fun r => _) = _
    rw [scan_port n hn]
    simp only [Option.bind_some, Option.getD_some]
    rw [if_pos (by decide)]
    cases s.cfg.uibc <;> rfl
  rw [e]
  exact ⟨_, rfl, rfl, rfl⟩

example : ((setUibc (new { cfg0 with uibc := true }) (bytes "input_category_list=GENERIC;generic_cap_list=Mouse;hidc_cap_list=none;port=7239")).map fun s => (s.uibcEnabled, s.uibcPort)) = some (true, 7239) ∧
    Spec.joined ([bytes "input_category_list=GENERIC"] ++ [bytes "port=" ++ dec 7239] ++ []) = bytes "input_category_list=GENERIC;port=7239" := by decide +kernel

/-- **C91 (off).** The value `none`, in any case, turns remote input off. -/
theorem uibc_none_off (s : St) (v : List Byte) (h : caseEq v (bytes "none") = true) (hnew : s.uibcConfig ≠ some v) : ∃ s', setUibc s v = some s' ∧ s'.uibcEnabled = false := by
  unfold setUibc
  rw [if_neg hnew]
  simp only
  rw [if_pos h]
  exact ⟨_, rfl, rfl⟩

example : ((run (fun _ => true) (new { cfg0 with uibc := true }) (up ++ [.msg (req "SET_PARAMETER" 1 [("wfd_uibc_capability", ["port=7239"])]), .msg (req "SET_PARAMETER" 2 [("wfd_uibc_capability", ["NONE"])])])).map
    fun s => (s.uibcEnabled, s.uibcPort)) = some (false, 7239) := by decide +kernel

/-- A part that is a beginning of `port=` turns remote input on, without a port (or with an old one): `sscanf` returns -1, which counts as success. -/
theorem uibc_stale_port : ((setUibc (new { cfg0 with uibc := true }) (bytes "input_category_list=GENERIC;p")).map fun s => (s.uibcEnabled, s.uibcPort)) = some (true, 0) ∧
    ((setUibc (new { cfg0 with uibc := true }) (bytes "port=;x=1")).map fun s => (s.uibcEnabled, s.uibcPort)) = some (true, 0) := by decide +kernel

/-- `port=none` does not turn it off. -/
theorem uibc_none_keeps : ((run (fun _ => true) (new { cfg0 with uibc := true }) (up ++ [.msg (req "SET_PARAMETER" 1 [("wfd_uibc_capability", ["port=7239"])]),
      .msg (req "SET_PARAMETER" 2 [("wfd_uibc_capability", ["input_category_list=GENERIC;port=none"])])])).map fun s => (s.uibcEnabled, s.uibcPort)) = some (true, 7239) := by decide +kernel

end Verif.Sink
