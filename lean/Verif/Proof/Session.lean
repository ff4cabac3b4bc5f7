import Verif.Spec.Session
import Verif.Props.Sink
import Verif.Props.RtspWire
/-! A Wi-Fi Display session: helper lemmas. -/
namespace Verif.Session
open Verif.C
open Verif.Rtsp (Msg Moves REMOTE Header)
open Verif.Rtsp.Spec (Hdr Item named AtRest view Sendable)

/-! ### Words of a message and words of an item -/

theorem named_words (hs : List Header) (ws : List Hdr) (h : hs.map view = ws) (name : List Byte) :
    (named hs name).map Header.tokens = Spec.words ws name := by
  subst h
  unfold named Spec.words
  rw [List.find?_map]
  simp only [Option.map_map]
  rfl

theorem word_first (m : Msg) (bs : List Hdr) (h : m.bodyHeaders.map view = bs) (name : String) : Sink.Spec.word m name = Spec.first bs name := by
  unfold Sink.Spec.word Spec.first
  rw [← named_words _ _ h]
  cases named m.bodyHeaders (bytes name) <;> rfl

theorem mentions_asks (m : Msg) (bs : List Hdr) (h : m.bodyHeaders.map view = bs) (name : List Byte) : Sink.Spec.mentions m name = Spec.asks bs name := by
  unfold Sink.Spec.mentions Spec.asks
  rw [← named_words _ _ h]
  cases named m.bodyHeaders name <;> rfl

theorem formats_masks (m : Msg) (bs : List Hdr) (h : m.bodyHeaders.map view = bs) : Sink.Spec.formats m = Spec.masks bs := by
  unfold Sink.Spec.formats Spec.masks Spec.readMasks Rtsp.Spec.line
  rw [← named_words _ _ h]
  cases named m.bodyHeaders (bytes "wfd_video_formats") <;> rfl

theorem value_none (m : Msg) (bs : List Hdr) (h : m.bodyHeaders.map view = bs) (name : String) (hn : Spec.words bs (bytes name) = none) : Sink.Spec.value m name = none := by
  unfold Sink.Spec.value
  rw [← named_words _ _ h] at hn
  cases hx : named m.bodyHeaders (bytes name) with
  | none => rfl
  | some y => rw [hx] at hn; cases hn

theorem find_app {α : Type} (p : α → Bool) (a b : List α) (x : α) (h : a.find? p = some x) : (a ++ b).find? p = some x := by
  rw [List.find?_append, h]; rfl

theorem session_first (m : Msg) (hs ex : List Hdr) (h : m.headers.map view = hs ++ ex) (w : List Byte) (hw : Spec.first hs "Session" = some w) :
    Sink.Spec.session m = some (w.takeWhile (· ≠ ch ';')) := by
  unfold Sink.Spec.session
  have e : Spec.first (hs ++ ex) "Session" = some w := by
    unfold Spec.first Spec.words at hw ⊢
    cases hf : hs.find? (fun h => caseEq h.1 (bytes "Session")) with
    | none => rw [hf] at hw; cases hw
    | some x => rw [hf] at hw; rw [find_app _ _ _ _ hf]; exact hw
  unfold Spec.first at e
  rw [← named_words _ _ h] at e
  cases hx : named m.headers (bytes "Session") with
  | none => rw [hx] at e; cases e
  | some y => rw [hx] at e; simp only [Option.map_some, Option.bind_some] at e ⊢; rw [e]; rfl

/-! ### The numbers of what the source sends -/

theorem quietAccepts : Rtsp.Accepts ⟨fun _ => false, fun _ _ => (0, 0)⟩ := fun _ _ => Int.le_refl 0

theorem request_number (mv : Moves) (ck : Nat) (method uri : List Byte) (hs bs : List Hdr) (hi : Rtsp.Spec.Sendable (.request method uri hs bs)) (r : Nat × Msg)
    (h : Rtsp.Spec.make mv ck (.request method uri hs bs) = some r) : r.1 = Rtsp.nextCookie ck ∧ r.2.cookie = Rtsp.nextCookie ck := by
  obtain ⟨h1, h2, h3, h4, h5⟩ := hi
  have hn : Rtsp.newRequest method uri = some { Rtsp.newMsg with type := .request, method := method, uri := uri } := by
    unfold Rtsp.newRequest
    rw [if_neg (fun x => x.elim h1.1 h2.1)]
  obtain ⟨m0, head, hb, hl⟩ := Rtsp.request_head method uri h1 h2 h3 h4 _ rfl
  obtain ⟨ck', s, raw, e1, e2, _, e4, _⟩ := Rtsp.item_msg mv ⟨fun _ => false, fun _ _ => (0, 0)⟩ quietAccepts ck _ m0 head hb (Or.inl rfl) ⟨(fun h => by cases h), rfl, rfl, rfl⟩ rfl rfl rfl rfl rfl rfl hl hs bs h5
    (Or.inr fun _ _ => rfl)
  have : Rtsp.Spec.make mv ck (.request method uri hs bs) = some (ck', s) := by
    show (Rtsp.newRequest method uri).bind _ = _
    rw [hn]; exact e1
  rw [this] at h
  cases h
  exact e4.1 rfl (by simp)

theorem reply_number (mv : Moves) (ck cookie code : Nat) (phrase : List Byte) (hs bs : List Hdr) (hi : Rtsp.Spec.Sendable (.reply cookie code phrase hs bs)) (r : Nat × Msg)
    (h : Rtsp.Spec.make mv ck (.reply cookie code phrase hs bs) = some r) : r.1 = ck := by
  obtain ⟨h1, h2, h3, h4⟩ := hi
  have hn : Rtsp.newReply cookie code phrase =
      some { Rtsp.newMsg with type := .reply, code := code, phrase := if phrase = [] then Rtsp.codeDescription code else phrase, cookie := Rtsp.remote cookie } := by
    unfold Rtsp.newReply Rtsp.newRawReply
    rw [if_neg h1, if_neg (fun h => by rw [h] at h2; exact Nat.lt_irrefl _ h2)]
    rfl
  have hc : Rtsp.Clean (if phrase = [] then Rtsp.codeDescription code else phrase) := by
    split
    · exact Rtsp.description_clean code
    · rename_i hp; exact ⟨h3.1, h3.2, hp⟩
  obtain ⟨m0, head, hb, hl⟩ := Rtsp.reply_head code _ (Rtsp.remote cookie) h2 hc _ rfl
  obtain ⟨ck', s, raw, e1, e2, _, e4, _⟩ := Rtsp.item_msg mv ⟨fun _ => false, fun _ _ => (0, 0)⟩ quietAccepts ck _ m0 head hb (Or.inr rfl) ⟨(fun h => by cases h), rfl, rfl, rfl⟩ rfl rfl rfl rfl rfl rfl hl hs bs h4
    (Or.inr fun _ _ => rfl)
  have : Rtsp.Spec.make mv ck (.reply cookie code phrase hs bs) = some (ck', s) := by
    show (Rtsp.newReply cookie code phrase).bind _ = _
    rw [hn]; exact e1
  rw [this] at h
  cases h
  exact e4.2 (by
    show Rtsp.remote cookie ≠ 0
    have : Rtsp.REMOTE = 9223372036854775808 := rfl
    unfold Rtsp.remote; omega)

theorem next_small (ck : Nat) (h : ck + 1 < REMOTE) : Rtsp.nextCookie ck = ck + 1 := by
  have : REMOTE = 9223372036854775808 := rfl
  have : W64 = 18446744073709551616 := rfl
  unfold Rtsp.nextCookie
  rw [Nat.mod_eq_of_lt (by omega), if_neg (by omega)]

theorem makeAll_cons {mv : Moves} {ck : Nat} {i : Item} {t : List Item} {ms : List Msg} (h : Rtsp.Spec.makeAll mv ck (i :: t) = some ms) :
    ∃ r ms', Rtsp.Spec.make mv ck i = some r ∧ Rtsp.Spec.makeAll mv r.1 t = some ms' ∧ ms = r.2 :: ms' := by
  unfold Rtsp.Spec.makeAll at h
  obtain ⟨r, h1, h2⟩ := Option.bind_eq_some_iff.mp h
  obtain ⟨ms', h3, h4⟩ := Option.map_eq_some_iff.mp h2
  exact ⟨r, ms', h1, h3, h4.symm⟩

theorem six {α : Type} (l : List α) (h : l.length = 6) : ∃ a b c d e f, l = [a, b, c, d, e, f] := by
  rcases l with _ | ⟨a, _ | ⟨b, _ | ⟨c, _ | ⟨d, _ | ⟨e, _ | ⟨f, l⟩⟩⟩⟩⟩⟩
  case cons.cons.cons.cons.cons.cons =>
    cases l with
    | nil => exact ⟨a, b, c, d, e, f, rfl⟩
    | cons g l => simp at h
  all_goals simp at h

theorem six_all {α β γ : Type} (P : α → β → γ → Prop) (a1 a2 a3 a4 a5 a6 : α) (b1 b2 b3 b4 b5 b6 : β) (l : List β) (c1 c2 c3 c4 c5 c6 : γ)
    (h : ∀ (k : Nat) i s x, [a1, a2, a3, a4, a5, a6][k]? = some i → (b1 :: b2 :: b3 :: b4 :: b5 :: b6 :: l)[k]? = some s → [c1, c2, c3, c4, c5, c6][k]? = some x → P i s x) :
    P a1 b1 c1 ∧ P a2 b2 c2 ∧ P a3 b3 c3 ∧ P a4 b4 c4 ∧ P a5 b5 c5 ∧ P a6 b6 c6 :=
  ⟨h 0 _ _ _ rfl rfl rfl, h 1 _ _ _ rfl rfl rfl, h 2 _ _ _ rfl rfl rfl, h 3 _ _ _ rfl rfl rfl, h 4 _ _ _ rfl rfl rfl, h 5 _ _ _ rfl rfl rfl⟩

theorem six_mem {α : Type} (P : α → Prop) (a1 a2 a3 a4 a5 a6 : α) (h : ∀ i ∈ [a1, a2, a3, a4, a5, a6], P i) : P a1 ∧ P a2 ∧ P a3 ∧ P a4 ∧ P a5 ∧ P a6 :=
  ⟨h _ (by simp), h _ (by simp), h _ (by simp), h _ (by simp), h _ (by simp), h _ (by simp)⟩

/-! ### The sink -/

theorem reached_step {mv : Moves} {c : Sink.Cfg} {s s' : Sink.St} {e : Sink.Ev} (h : Sink.Spec.Reached mv c s) (hd : Sink.Spec.Delivered e) (hs : Sink.step mv s e = some s') :
    Sink.Spec.Reached mv c s' := by
  obtain ⟨es, h1, h2⟩ := h
  refine ⟨es ++ [e], ?_, ?_⟩
  · intro x hx
    rcases List.mem_append.mp hx with hx | hx
    · exact h1 x hx
    · rw [List.mem_singleton.mp hx]; exact hd
  · have : ∀ (l : List Sink.Ev) (a : Sink.St), Sink.run mv a l = some s → Sink.run mv a (l ++ [e]) = some s' := by
      intro l
      induction l with
      | nil =>
        intro a ha
        cases ha
        show (Sink.step mv s e).bind _ = _
        rw [hs]; rfl
      | cons y l ih =>
        intro a ha
        obtain ⟨b, hb, hr⟩ := Option.bind_eq_some_iff.mp (show (Sink.step mv a y).bind _ = some s from ha)
        show (Sink.step mv a y).bind _ = _
        rw [hb]
        exact ih b hr
    exact this es _ h2

theorem run_step {mv : Moves} {s s' : Sink.St} {e : Sink.Ev} (es : List Sink.Ev) (h : Sink.step mv s e = some s') : Sink.run mv s (e :: es) = Sink.run mv s' es := by
  show (Sink.step mv s e).bind _ = _
  rw [h]; rfl

/-- What the session needs to know of a request that arrived. -/
structure Got (x : Msg) (method : List Byte) (n : Nat) (bs : List Hdr) : Prop where
  request : Sink.Spec.Request x
  numbered : Sink.Spec.numbered x
  cseq : Sink.Spec.cseq x = n
  method : x.method = method
  body : x.bodyHeaders.map view = bs

/-- What the session needs to know of a reply that arrived. -/
structure Back (x : Msg) (n : Nat) (hs : List Hdr) : Prop where
  rest : AtRest x
  type : x.type = .reply
  cookie : x.cookie % 9223372036854775808 = n
  headers : ∃ ex, x.headers.map view = hs ++ ex

theorem Got.event {x : Msg} {method : List Byte} {n : Nat} {bs : List Hdr} (h : Got x method n bs) : Spec.event x = .msg x := by
  unfold Spec.event
  rw [if_neg]
  rw [h.request.2.2]
  simp

theorem Back.event {x : Msg} {n : Nat} {hs : List Hdr} (h : Back x n hs) : Spec.event x = .reply n (some x) := by
  unfold Spec.event
  rw [if_pos h.type, h.cookie]

theorem Got.delivered {x : Msg} {method : List Byte} {n : Nat} {bs : List Hdr} (h : Got x method n bs) : Sink.Spec.Delivered (.msg x) := ⟨h.request.1, h.request.2.1⟩

theorem got_of (ck : Nat) (hck : ck + 1 < REMOTE) (mv : Moves) (method uri : List Byte) (hs bs : List Hdr) (hi : Sendable (.request method uri hs bs)) (r : Nat × Msg)
    (hm : Rtsp.Spec.make mv ck (.request method uri hs bs) = some r) (x : Msg) (ha : Rtsp.Spec.Arrives (.request method uri hs bs) r.2 x) :
    Got x method (ck + 1) bs ∧ r.1 = ck + 1 := by
  obtain ⟨h1, h2⟩ := request_number mv ck method uri hs bs hi r hm
  rw [next_small ck hck] at h1 h2
  obtain ⟨_, _, a3, a4, a5, a6, _, _, _, ⟨b, n, _, _, b3, b4, _, b6, _⟩, a8, a9⟩ := ha
  have hR : REMOTE = 9223372036854775808 := rfl
  have hW : W64 = 18446744073709551616 := rfl
  have hn : n = ck + 1 := by
    rw [b3, h2]
    exact Nat.mod_eq_of_lt hck
  have hx : x.cookie = 9223372036854775808 + (ck + 1) ∨ x.cookie = (ck + 1) + 9223372036854775808 := by
    rw [b4, hn]
    unfold Rtsp.remote
    rw [hR]
    omega
  refine ⟨⟨⟨⟨a3, by rw [a5]; simp, a8, a9⟩, a4, a5⟩, ⟨?_, by omega⟩, ?_, a6, b6⟩, h1⟩
  · unfold Rtsp.isRemote
    rw [hR]
    simp only [decide_eq_true_eq]
    omega
  · unfold Sink.Spec.cseq
    omega

theorem back_of (mv : Moves) (ck cookie code : Nat) (hck : cookie < REMOTE) (phrase : List Byte) (hs bs : List Hdr) (hi : Sendable (.reply cookie code phrase hs bs)) (r : Nat × Msg)
    (hm : Rtsp.Spec.make mv ck (.reply cookie code phrase hs bs) = some r) (x : Msg) (ha : Rtsp.Spec.Arrives (.reply cookie code phrase hs bs) r.2 x) :
    Back x cookie hs ∧ r.1 = ck := by
  have h1 := reply_number mv ck cookie code phrase hs bs hi r hm
  obtain ⟨_, _, a3, a4, a5, _, _, _, _, a7, ⟨b, n, _, _, _, _, b5, _⟩, a8, a9⟩ := ha
  have hR : REMOTE = 9223372036854775808 := rfl
  refine ⟨⟨⟨a3, by rw [a5]; simp, a8, a9⟩, a5, ?_, ⟨_, b5⟩⟩, h1⟩
  rw [a7]
  unfold Rtsp.remote
  rw [hR]
  omega

theorem sink_session (mv : Moves) (c : Sink.Cfg) (s : Sink.St) (hr : Sink.Spec.Reached mv c s) (hp : Sink.Spec.PortOk c) (hext : c.ext.length < 1000000) (hpl : Sink.Spec.Plain c)
    (hcon : s.connected = true) (hset : s.setups = []) (hk : s.cookies + 3 < REMOTE) (k : Spec.Script) (u w : List Byte) (f : Nat × Nat × Nat) (ho : Spec.Orderly k u f w) (hu : u ≠ [])
    (hf : Spec.Fits c k.m3.bs) (ck : Nat) (x1 x2 x3 x4 x5 x6 : Msg)
    (g1 : Got x1 (bytes "OPTIONS") (ck + 1) k.m1.bs) (g2 : Back x2 (s.cookies + 1) k.m2.hs) (g3 : Got x3 (bytes "GET_PARAMETER") (ck + 2) k.m3.bs)
    (g4 : Got x4 (bytes "SET_PARAMETER") (ck + 3) k.m4.bs) (g5 : Got x5 (bytes "SET_PARAMETER") (ck + 4) k.m5.bs) (g6 : Back x6 (s.cookies + 2) k.m6.hs) :
    ∃ s' L x y, Sink.run mv s ([x1, x2, x3, x4, x5, x6].map Spec.event) = some s' ∧ s'.connected = true ∧ s'.session = some (w.takeWhile (· ≠ ch ';')) ∧ s'.url = some u ∧
      Spec.Answers c k.m3.bs L ∧ Wfd.Spec.Chosen f.1 f.2.1 f.2.2 x y ∧ s'.log = s.log ++ Spec.expected c s.cookies ck L u w x y := by
  simp only [List.map_cons, List.map_nil, g1.event, g2.event, g3.event, g4.event, g5.event, g6.event]
  -- M1, M2
  obtain ⟨s1, a1, a2, a3, a4, a5, a6⟩ := Sink.options_exact mv c s hr hp hext hcon x1 g1.request g1.numbered g1.method (by omega)
  have r1 := reached_step hr g1.delivered a1
  rw [run_step _ a1]
  -- the answer to M2
  have b1 : Sink.step mv s1 (.reply (s.cookies + 1) (some x2)) = some s1 := by
    unfold Sink.step
    simp only
    rw [if_neg]
    rw [a5, hset]
    rintro ⟨_, h⟩
    cases h
  rw [run_step _ b1]
  -- M3
  obtain ⟨c1, c2⟩ := Sink.get_exact mv c s1 r1 hp hext a2 hpl x3 g3.request g3.numbered g3.method
  obtain ⟨s3, c3⟩ : ∃ s3, Sink.step mv s1 (.msg x3) = some s3 := by
    cases h : Sink.step mv s1 (.msg x3) with
    | some s3 => exact ⟨s3, rfl⟩
    | none =>
      obtain ⟨name, v, h1, h2, h3⟩ := c1.mp h
      rw [mentions_asks x3 _ g3.body] at h1
      have := hf name v h1 h2
      omega
  obtain ⟨L, c4, c5⟩ := c2 s3 c3
  have r3 := reached_step r1 g3.delivered c3
  rw [run_step _ c3]
  have d1 : s3.connected = true := by rw [c4]; exact a2
  have d2 : s3.cookies = s.cookies + 1 := by rw [c4]; exact a4
  have d3 : s3.setups = [] := by rw [c4]; exact a5.trans hset
  have d4 : s3.log = s1.log ++ [.sent (Sink.Spec.ok (ck + 2) [] (L.map fun p => p.1 ++ bytes ": " ++ p.2))] := by rw [c4, ← g3.cseq]
  -- M4
  obtain ⟨s4, e1⟩ := Sink.set_defined mv c s3 r3 hp hext d1 x4 g4.request g4.numbered g4.method (by rw [formats_masks x4 _ g4.body, ho.formats]; simp)
    (value_none x4 _ g4.body _ ho.uibc4)
  obtain ⟨f4, res, go, e2, e3, e4, e5, e6, e7, e8⟩ := Sink.set_exact mv c s3 s4 r3 hp hext d1 x4 g4.request g4.numbered g4.method (by omega) e1
  have r4 := reached_step r3 g4.delivered e1
  rw [run_step _ e1]
  rw [formats_masks x4 _ g4.body, ho.formats] at e2
  cases e2
  rw [word_first x4 _ g4.body, ho.url] at e5
  rw [word_first x4 _ g4.body] at e6 e7 e8
  have hno : ¬ (go = true ∧ Spec.first k.m4.bs "wfd_trigger_method" = some (bytes "SETUP") ∧ s4.url.getD [] ≠ []) := fun h => ho.quiet4 h.2.1
  rw [if_neg hno] at e6 e7 e8
  obtain ⟨x, y, hxy, hres⟩ : ∃ x y, Wfd.Spec.Chosen f.1 f.2.1 f.2.2 x y ∧ res = some (x, y) := by
    cases e3 with
    | nothing h => cases h
    | chosen c' v' h' x y h hc => cases h; exact ⟨x, y, hc, rfl⟩
    | refused c' v' h' h n1 n2 n3 => cases h; exact absurd ⟨n1, n2, n3⟩ ho.usable
  have hurl4 : s4.url = some u := e5
  have hck4 : s4.cookies = s.cookies + 1 := by rw [e8]; exact d2
  have hset4 : s4.setups = [] := by rw [e7, d3]; rfl
  -- M5
  obtain ⟨s5, i1⟩ := Sink.set_defined mv c s4 r4 hp hext e4 x5 g5.request g5.numbered g5.method (by rw [formats_masks x5 _ g5.body, ho.noformats]; simp)
    (value_none x5 _ g5.body _ ho.uibc5)
  obtain ⟨f5, res5, go5, i2, i3, i4, i5, i6, i7, i8⟩ := Sink.set_exact mv c s4 s5 r4 hp hext e4 x5 g5.request g5.numbered g5.method (by omega) i1
  have r5 := reached_step r4 g5.delivered i1
  rw [run_step _ i1]
  rw [formats_masks x5 _ g5.body, ho.noformats] at i2
  cases i2
  rw [word_first x5 _ g5.body, ho.nourl, hurl4] at i5
  have hurl5 : s5.url = some u := i5
  rw [word_first x5 _ g5.body, hurl5] at i6 i7 i8
  have hres5 : res5 = none ∧ go5 = true := by
    cases i3 with
    | nothing h => exact ⟨rfl, rfl⟩
    | chosen c' v' h' x y h hc => cases h
    | refused c' v' h' h n1 n2 n3 => cases h
  have hyes : go5 = true ∧ Spec.first k.m5.bs "wfd_trigger_method" = some (bytes "SETUP") ∧ (some u).getD [] ≠ [] := ⟨hres5.2, ho.trigger, hu⟩
  rw [if_pos hyes] at i6 i7 i8
  rw [hck4] at i6 i7 i8
  rw [hset4] at i7
  -- the answer to M6
  obtain ⟨ex, hx6⟩ := g6.headers
  have hses := session_first x6 _ ex hx6 w ho.session
  obtain ⟨s6, j1, j2, _⟩ := Sink.setup_reply_exact mv c s5 r5 hp hext i4 (s.cookies + 2) (by rw [i7]; simp) x6 g6.rest (by omega)
  rw [run_step _ j1]
  obtain ⟨j3, j4, hurl6, j5⟩ := j2 _ hses (by rw [hurl5]; exact hu)
  refine ⟨s6, L, x, y, rfl, j3, j4, hurl6.trans hurl5, ?_, hxy, ?_⟩
  · intro name
    rw [c5 name, mentions_asks x3 _ g3.body]
  · rw [j5, i6, e6, d4, a6, hres, hres5.1, hurl5, i8, g1.cseq, g4.cseq, g5.cseq, Sink.public_is_quoted]
    have hpub : bytes "Public: " ++ bytes "\"org.wfa.wfd1.0, GET_PARAMETER, SET_PARAMETER\"" = bytes "Public: \"org.wfa.wfd1.0, GET_PARAMETER, SET_PARAMETER\"" := by decide +kernel
    rw [hpub]
    unfold Spec.expected
    simp only [Sink.Spec.shown, List.append_assoc, List.nil_append, List.cons_append, List.append_nil, Option.getD_some]

end Verif.Session
