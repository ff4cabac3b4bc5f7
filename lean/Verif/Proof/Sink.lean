import Verif.Spec.Sink
import Verif.Props.RtspRead
import Verif.Proof.RtspBuild
import Verif.Proof.RtspRound
/-! Helper lemmas about the session of the sink. -/
namespace Verif.Sink
open Verif.C
open Verif.Rtsp (Msg Rd Val Arg Moves REMOTE isRemote remote local_ nextCookie Open LinesAre flat)
open Verif.Rtsp.Spec (AtRest SameText named)

/-! ### Sending -/

/-- A message ready to be sealed, with its first line and lines. -/
structure Ready (m : Msg) (head : List Byte) (ls bs : List (List Byte)) : Prop where
  opened : Open m
  clen : m.clen = none
  ctype : m.ctype = none
  cseq : m.cseq = none
  body : m.body = none
  head : Rtsp.headLine m = some (head ++ Rtsp.crlf)
  lines : LinesAre m.headers ls
  bodies : LinesAre m.bodyHeaders bs
  size : (flat bs).length < W32

theorem wire_eq (head : List Byte) (ls bs : List (List Byte)) (n : Nat) :
    Rtsp.wire head (ls ++ Rtsp.specials bs n) (flat bs) = Spec.message head ls n bs := by
  unfold Rtsp.wire Spec.message Rtsp.specials Spec.about
  have e : flat bs = Spec.lines bs := rfl
  rw [e]
  have h1 : Rtsp.nvText Rtsp.CL (dec (Spec.lines bs).length) = bytes "Content-Length: " ++ dec (Spec.lines bs).length := by
    unfold Rtsp.nvText Rtsp.CL
    rw [show bytes "Content-Length" ++ bytes ": " = bytes "Content-Length: " from by decide +kernel]
  have h2 : Rtsp.nvText Rtsp.CT Rtsp.TP = bytes "Content-Type: text/parameters" := by decide +kernel
  have h3 : Rtsp.nvText Rtsp.CS (dec n) = bytes "CSeq: " ++ dec n := by
    unfold Rtsp.nvText Rtsp.CS
    rw [show bytes "CSeq" ++ bytes ": " = bytes "CSeq: " from by decide +kernel]
  rw [h1, h2, h3, ← List.append_assoc]
  rfl

theorem isRemote_lt {c : Nat} (h : c < REMOTE) : isRemote c = false := by
  have : c / REMOTE = 0 := Nat.div_eq_of_lt h
  simp [isRemote, this]

theorem isRemote_remote (c : Nat) : isRemote (remote c) = true := by
  have hR : REMOTE = 9223372036854775808 := rfl
  unfold isRemote remote
  rw [hR]
  simp only [decide_eq_true_eq]
  omega

theorem local_remote (c : Nat) : local_ (remote c) = local_ c := by
  have hR : REMOTE = 9223372036854775808 := rfl
  unfold local_ remote
  rw [hR]
  omega

theorem remote_remote (c : Nat) : remote (remote c) = remote c := by
  have hR : REMOTE = 9223372036854775808 := rfl
  unfold remote
  rw [hR]
  omega

theorem seal_ready (mv : Moves) (ck : Nat) (m : Msg) (head : List Byte) (ls bs : List (List Byte)) (h : Ready m head ls bs) (hty : m.type = .request ∨ m.type = .reply) :
    ∃ m', Rtsp.sealMsg mv ck m = some (0, (if m.cookie = 0 then nextCookie ck else ck), m') ∧ m'.isSealed = true ∧ m'.type = m.type ∧
      m'.cookie = (if m.type = .reply then remote (if m.cookie = 0 then nextCookie ck else m.cookie) else (if m.cookie = 0 then nextCookie ck else m.cookie)) ∧
      m'.raw = some (Spec.message head ls (local_ m'.cookie) bs) := by
  obtain ⟨ho, h1, h2, h3, h4, h5, h6, h7, h8⟩ := h
  generalize hc0 : (if m.cookie = 0 then (if m.cookie = 0 then nextCookie ck else ck) else m.cookie) = c0
  generalize hc1 : (if m.type = .reply then remote c0 else c0) = c1
  have hh : Rtsp.headLine { m with cookie := c1 } = some (head ++ Rtsp.crlf) := h5
  obtain ⟨m', e1, e2, _, _, e5, _, _, e8⟩ := Rtsp.send_serialize mv { m with cookie := c1 } ⟨ho.type, ho.iterBody, ho.iterHeader, ho.notSealed⟩ h1 h2 h3 h4 head hh ls bs h6 h7 h8
  refine ⟨{ m' with isSealed := true }, ?_, rfl, e8, ?_, ?_⟩
  · unfold Rtsp.sealMsg
    rw [if_neg (show ¬ m.isSealed = true from by rw [ho.notSealed]; decide), if_neg (show ¬ (m.iterBody = true ∨ m.iterHeader ≠ none) from by rw [ho.iterBody, ho.iterHeader]; simp)]
    simp only
    rw [hc0, hc1, if_neg ho.type, e1]
    simp only [Option.bind_eq_bind, Option.bind_some]
    rw [if_neg (Int.lt_irrefl 0)]
  · show m'.cookie = _
    rw [e5]
    show c1 = _
    rw [← hc1, ← hc0]
    by_cases hz : m.cookie = 0
    · simp only [hz, if_true]
    · simp only [hz, if_false]
  · show m'.raw = _
    rw [e2, wire_eq]
    show _ = some (Spec.message head ls (local_ m'.cookie) bs)
    rw [e5]

theorem seal_again (mv : Moves) (ck : Nat) (m : Msg) (h : m.isSealed = true) : Rtsp.sealMsg mv ck m = some (0, ck, m) := by
  unfold Rtsp.sealMsg
  rw [if_pos h]

theorem send_reply (mv : Moves) (s : St) (m : Msg) (head : List Byte) (ls bs : List (List Byte)) (h : Ready m head ls bs) (hty : m.type = .reply) (n : Nat) (hc : m.cookie = remote n)
    (hb : s.bus = true) : send mv s m false = some (0, s.out (.sent (Spec.message head ls (local_ n) bs))) := by
  have hR : REMOTE = 9223372036854775808 := rfl
  have hnz : m.cookie ≠ 0 := by rw [hc]; unfold remote; rw [hR]; omega
  obtain ⟨m', e1, e2, e3, e4, e5⟩ := seal_ready mv s.cookies m head ls bs h (Or.inr hty)
  rw [if_neg hnz] at e1
  rw [if_pos hty, if_neg hnz, hc, remote_remote] at e4
  rw [e4, local_remote] at e5
  unfold send
  simp only [e1, Option.bind_eq_bind, Option.bind_some]
  rw [if_neg (by rw [hb]; rintro (h | h); · cases h
                 · rw [e4] at h; unfold remote at h; rw [hR] at h; omega)]
  simp only [seal_again mv _ m' e2, Option.bind_some]
  rw [if_neg (Int.lt_irrefl 0)]
  simp only [e5]
  rw [if_neg (by rw [e3, hty]; simp), if_neg (by rw [e4, isRemote_remote]; simp)]
  rfl

theorem send_call (mv : Moves) (s : St) (m : Msg) (head : List Byte) (ls bs : List (List Byte)) (h : Ready m head ls bs) (hty : m.type = .request) (hc : m.cookie = 0)
    (hb : s.bus = true) (hk : s.cookies + 1 < REMOTE) (setup : Bool) :
    send mv s m setup = some (0, { s with
      cookies := s.cookies + 1
      log := s.log ++ [.sent (Spec.message head ls (s.cookies + 1) bs)]
      setups := if setup then s.setups ++ [s.cookies + 1] else s.setups }) := by
  have hR : REMOTE = 9223372036854775808 := rfl
  have hn : nextCookie s.cookies = s.cookies + 1 := by
    have hW : W64 = 18446744073709551616 := rfl
    unfold nextCookie
    rw [hR] at hk
    rw [hW, Nat.mod_eq_of_lt (by omega), if_neg (by omega)]
  obtain ⟨m', e1, e2, e3, e4, e5⟩ := seal_ready mv s.cookies m head ls bs h (Or.inl hty)
  rw [if_pos hc, hn] at e1
  rw [if_neg (by rw [hty]; simp), if_pos hc, hn] at e4
  have hl : local_ (s.cookies + 1) = s.cookies + 1 := Nat.mod_eq_of_lt hk
  rw [e4, hl] at e5
  unfold send
  simp only [e1, Option.bind_eq_bind, Option.bind_some]
  rw [if_neg (by rw [hb, e4]; simp)]
  simp only [seal_again mv _ m' e2, Option.bind_some]
  rw [if_neg (Int.lt_irrefl 0)]
  simp only [e5]
  rw [if_neg (by rw [e4, isRemote_lt hk]; simp), if_neg (by rw [e3, hty]; simp), e4]
  rfl

theorem quoted_eq (w : List Byte) : Qstr.lineF [] [w] = Spec.quoted w := by
  show [] ++ Qstr.enc w = _
  unfold Qstr.enc Spec.quoted Qstr.needQuote Qstr.body
  have e : (fun c => Qstr.encC c) = fun c : Byte => if c = ch '\\' ∨ c = ch '"' then [ch '\\', c] else [c] := by
    funext c; rfl
  have e' : Qstr.encC = fun c : Byte => if c = ch '\\' ∨ c = ch '"' then [ch '\\', c] else [c] := e
  have h : (w.any (fun c => c = ch ' ' || c = 9 || c = 10 || c = 11) = true) ↔ ∃ c ∈ w, c = 32 ∨ c = 9 ∨ c = 10 ∨ c = 11 := by
    simp only [List.any_eq_true, Bool.or_eq_true, decide_eq_true_eq]
    constructor
    · rintro ⟨c, h1, ((h2 | h2) | h2) | h2⟩
      · exact ⟨c, h1, Or.inl h2⟩
      · exact ⟨c, h1, Or.inr (Or.inl h2)⟩
      · exact ⟨c, h1, Or.inr (Or.inr (Or.inl h2))⟩
      · exact ⟨c, h1, Or.inr (Or.inr (Or.inr h2))⟩
    · rintro ⟨c, h1, h2 | h2 | h2 | h2⟩
      · exact ⟨c, h1, Or.inl (Or.inl (Or.inl h2))⟩
      · exact ⟨c, h1, Or.inl (Or.inl (Or.inr h2))⟩
      · exact ⟨c, h1, Or.inl (Or.inr h2)⟩
      · exact ⟨c, h1, Or.inr h2⟩
  rw [e']
  by_cases hq : ∃ c ∈ w, c = 32 ∨ c = 9 ∨ c = 10 ∨ c = 11
  · rw [if_pos (h.mpr hq), if_pos hq]; simp
  · rw [if_neg (fun x => hq (h.mp x)), if_neg hq]; rfl

theorem hdr_ok (mv : Moves) (m : Msg) (head : List Byte) (h : Ready m head [] []) (hty : m.type = .request ∨ m.type = .reply) (name value : List Byte)
    (hn : name ≠ []) (hp : Rtsp.Plain name) (h0 : m.headers = []) :
    ∃ m', Rtsp.append mv m [.headerStart name, .str value, .headerEnd] = some (0, m') ∧
      Ready m' head [name ++ bytes ": " ++ Spec.quoted value] [] ∧ m'.type = m.type ∧ m'.cookie = m.cookie := by
  obtain ⟨ho, h1, h2, h3, h4, h5, h6, h7, h8⟩ := h
  have e := Rtsp.append_all mv m [(name, [value])] [] (by simpa using hn) (by simp) ho
  have ea : Rtsp.Spec.hdrsArgs [(name, [value])] [] = [.headerStart name, .str value, .headerEnd] := rfl
  rw [ea] at e
  obtain ⟨p1, p2, p3, p4, p5, p6⟩ := Rtsp.pushFull_head mv [(name, [value])] (by simpa using hp) m ho.iterBody
  obtain ⟨g1, g2, g3, g4⟩ := Rtsp.pushFull_gen mv [(name, [value])] m
  refine ⟨_, e, ⟨⟨?_, g3.trans ho.iterBody, g4.trans ho.iterHeader, g2.trans ho.notSealed⟩, p4.trans h1, p5.trans h2, p6.trans h3, p2.body.trans h4, ?_, ?_, ?_, h8⟩, g1, p3⟩
  · show (Rtsp.pushFull mv m _).type ≠ _; rw [g1]; exact ho.type
  · show Rtsp.headLine (Rtsp.pushFull mv m _) = _
    rw [Rtsp.headLine_same p2 hty]; exact h5
  · show LinesAre (Rtsp.pushFull mv m _).headers _
    rw [p1, h0, ← quoted_eq]
    rfl
  · show LinesAre ((Rtsp.pushFull mv m _).bodyHeaders ++ _) _
    rw [p2.bodyHeaders]
    simpa using h7

theorem request_ok (mv : Moves) (s : St) (method uri name value : List Byte) (setup : Bool) (hm : method ≠ []) (hu : uri ≠ []) (hn : name ≠ []) (hp : Rtsp.Plain name)
    (hb : s.bus = true) (hk : s.cookies + 1 < REMOTE) :
    request mv s method uri name value setup = some (0, { s with
      cookies := s.cookies + 1
      log := s.log ++ [.sent (Spec.call method uri (name ++ bytes ": " ++ Spec.quoted value) (s.cookies + 1))]
      setups := if setup then s.setups ++ [s.cookies + 1] else s.setups }) := by
  unfold request
  have e : Rtsp.newRequest method uri = some { Rtsp.newMsg with type := .request, method := method, uri := uri } := by
    unfold Rtsp.newRequest
    rw [if_neg (fun h => h.elim hm hu)]
  have hr : Ready { Rtsp.newMsg with type := .request, method := method, uri := uri } (method ++ bytes " " ++ uri ++ bytes " RTSP/1.0") [] [] := by
    refine ⟨⟨by simp, rfl, rfl, rfl⟩, rfl, rfl, rfl, rfl, ?_, rfl, rfl, by decide⟩
    show some (method ++ [ch ' '] ++ uri ++ bytes " RTSP/" ++ dec 1 ++ [ch '.'] ++ dec 0 ++ [13, 10]) = _
    have : bytes " RTSP/" ++ dec 1 ++ [ch '.'] ++ dec 0 = bytes " RTSP/1.0" := by decide +kernel
    rw [← this]
    simp only [Rtsp.crlf, List.append_assoc, show bytes " " = [ch ' '] from by decide]
  obtain ⟨m', a1, a2, a3, a4⟩ := hdr_ok mv _ _ hr (Or.inl rfl) name value hn hp rfl
  simp only [e, a1, Option.bind_eq_bind, Option.bind_some]
  rw [if_neg (Int.lt_irrefl 0), send_call mv s m' _ _ _ a2 a3 a4 hb hk setup]
  rfl

/-- The reply to a request, without lines. -/
theorem reply_for (m : Msg) (hu : m.isUsed = true) (hr : isRemote m.cookie = true) :
    ∃ rep, Rtsp.newReplyFor m OK [] = some rep ∧ Ready rep (bytes "RTSP/1.0 200 OK") [] [] ∧ rep.type = .reply ∧ rep.cookie = remote m.cookie ∧ rep.headers = [] ∧ rep.bodyHeaders = [] := by
  have hz : m.cookie ≠ 0 := by intro h; rw [h] at hr; revert hr; decide
  refine ⟨{ Rtsp.newMsg with type := .reply, code := OK, phrase := bytes "OK", cookie := remote m.cookie }, ?_, ?_, rfl, rfl, rfl, rfl⟩
  · unfold Rtsp.newReplyFor
    rw [if_neg (by rw [hu, hr]; simp)]
    unfold Rtsp.newReply
    rw [if_neg hz]
    have : Rtsp.newRawReply OK [] = some { Rtsp.newMsg with type := .reply, code := OK, phrase := bytes "OK" } := by decide +kernel
    rw [this]
    rfl
  · refine ⟨⟨by simp, rfl, rfl, rfl⟩, rfl, rfl, rfl, rfl, ?_, rfl, rfl, by decide⟩
    have : Rtsp.headLine { Rtsp.newMsg with type := .reply, code := OK, phrase := bytes "OK" } = some (bytes "RTSP/1.0 200 OK" ++ Rtsp.crlf) := by decide +kernel
    exact this

theorem no_reply (m : Msg) (h : m.isUsed = false ∨ isRemote m.cookie = false) : Rtsp.newReplyFor m OK [] = none := by
  unfold Rtsp.newReplyFor
  rw [if_pos h]

/-! ### Reading -/

theorem same_body {a b : Msg} (h : SameText a b) : a.bodyHeaders = b.bodyHeaders := by
  unfold SameText at h
  have := congrArg Msg.bodyHeaders h
  exact this
theorem same_head {a b : Msg} (h : SameText a b) : a.headers = b.headers := by
  unfold SameText at h
  have := congrArg Msg.headers h
  exact this

theorem asked_exact (m : Msg) (hm : AtRest m) (name : List Byte) :
    ∃ m', asked m name = some (Spec.mentions m name, m') ∧ AtRest m' ∧ m'.bodyHeaders = m.bodyHeaders := by
  unfold asked Spec.mentions
  by_cases hn : name = []
  · obtain ⟨hs, ht, hb, hh⟩ := hm
    have h0 : Rtsp.readBasic m .bodyStart = some (0, { m with iterBody := true }, []) := by
      simp [Rtsp.readBasic, Rtsp.enterBody, hs, ht, hb, hh]
    have h1 : Rtsp.readBasic { m with iterBody := true } (.headerStart []) = some (-EINVAL, { m with iterBody := true }, []) := by
      simp [Rtsp.readBasic, Rtsp.enterHeader, hs, ht]
    have h2 : Rtsp.read m [.bodyStart, .headerStart [], .headerEnd, .bodyEnd] = some (-EINVAL, Rtsp.out { m with iterBody := true } m.iterToken, []) := by
      rw [Rtsp.read_eq m hs ht, Rtsp.readLoop_ok h0, Rtsp.readLoop_fail h1 (by decide), Rtsp.leave_eq { m with iterBody := true } hs ht]
      rfl
    rw [hn, h2]
    exact ⟨_, rfl, ⟨hs, ht, rfl, rfl⟩, rfl⟩
  · obtain ⟨h1, h2⟩ := Rtsp.parameter_exact m hm name hn []
    simp only [List.map_nil, List.nil_append] at h1 h2
    cases hr : Rtsp.read m [.bodyStart, .headerStart name, .headerEnd, .bodyEnd] with
    | none =>
      rw [hr] at h1
      unfold Rtsp.Spec.line at h1
      cases hx : named m.bodyHeaders name <;> rw [hx] at h1 <;> cases h1
    | some r =>
      rw [hr] at h1
      obtain ⟨h3, h4⟩ := h2 r hr
      refine ⟨r.2.1, ?_, h3, same_body h4⟩
      unfold Rtsp.Spec.line at h1
      simp only [Option.bind_eq_bind, Option.bind_some, Option.some.injEq, Prod.mk.injEq, and_true]
      cases hx : named m.bodyHeaders name with
      | none =>
        rw [hx] at h1
        simp only [Option.map_some, Option.some.injEq, Prod.mk.injEq] at h1
        rw [h1.1]
        simp [hn, ENOENT]
      | some h =>
        rw [hx] at h1
        simp only [Option.map_some, Rtsp.Spec.values, Option.some.injEq, Prod.mk.injEq] at h1
        rw [h1.1]
        simp [hn]

theorem param_word (m : Msg) (hm : AtRest m) (name : String) (hn : bytes name ≠ []) :
    ∃ m', param m (bytes name) .str = some (Spec.word m name, m') ∧ AtRest m' ∧ SameText m' m := by
  obtain ⟨h1, h2⟩ := Rtsp.parameter_exact m hm (bytes name) hn [.str]
  simp only [List.map_cons, List.map_nil, List.singleton_append, Rtsp.Spec.Conv.rd] at h1 h2
  unfold param
  cases hr : Rtsp.read m [.bodyStart, .headerStart (bytes name), .str, .headerEnd, .bodyEnd] with
  | none =>
    rw [hr] at h1
    unfold Rtsp.Spec.line at h1
    cases hx : named m.bodyHeaders (bytes name) with
    | none => rw [hx] at h1; cases h1
    | some h =>
      rw [hx] at h1
      cases ht : h.tokens <;> simp only [ht] at h1 <;> cases h1
  | some r =>
    rw [hr] at h1
    obtain ⟨h3, h4⟩ := h2 r hr
    refine ⟨r.2.1, ?_, h3, h4⟩
    unfold Rtsp.Spec.line at h1
    unfold Spec.word
    simp only [Option.bind_eq_bind, Option.bind_some, Option.some.injEq, Prod.mk.injEq, and_true]
    cases hx : named m.bodyHeaders (bytes name) with
    | none =>
      rw [hx] at h1
      simp only [Option.map_some, Option.some.injEq, Prod.mk.injEq] at h1
      rw [h1.1]
      rfl
    | some h =>
      rw [hx] at h1
      cases ht : h.tokens with
      | nil =>
        simp only [ht, Option.map_some, Rtsp.Spec.values, Option.some.injEq, Prod.mk.injEq] at h1
        rw [h1.1]
        simp [ENOENT, ht]
      | cons t ts =>
        simp only [ht, Option.map_some, Rtsp.Spec.values, Rtsp.Spec.Conv.value, Option.some.injEq, Prod.mk.injEq] at h1
        rw [h1.1, h1.2]
        simp [text, ht]

theorem param_value (m : Msg) (hm : AtRest m) (name : String) (hn : bytes name ≠ []) :
    ∃ m', param m (bytes name) .raw = some (Spec.value m name, m') ∧ AtRest m' ∧ SameText m' m := by
  obtain ⟨h1, h2⟩ := Rtsp.whole_value_exact m hm (bytes name) hn
  unfold param Spec.value
  cases hr : Rtsp.read m [.bodyStart, .headerStart (bytes name), .raw, .headerEnd, .bodyEnd] with
  | none =>
    rw [hr] at h1
    cases hx : named m.bodyHeaders (bytes name) <;> rw [hx] at h1 <;> cases h1
  | some r =>
    rw [hr] at h1
    obtain ⟨h3, h4⟩ := h2 r hr
    refine ⟨r.2.1, ?_, h3, h4⟩
    simp only [Option.bind_eq_bind, Option.bind_some, Option.some.injEq, Prod.mk.injEq, and_true]
    cases hx : named m.bodyHeaders (bytes name) with
    | none =>
      rw [hx] at h1
      simp only [Option.map_some, Option.some.injEq, Prod.mk.injEq] at h1
      rw [h1.1]
      rfl
    | some h =>
      rw [hx] at h1
      simp only [Option.map_some, Option.some.injEq, Prod.mk.injEq] at h1
      rw [h1.1, h1.2]
      simp [text]

theorem mentions_body {a b : Msg} (h : a.bodyHeaders = b.bodyHeaders) (name : List Byte) : Spec.mentions a name = Spec.mentions b name := by
  unfold Spec.mentions
  rw [h]

/-! ### Answers -/

/-- The line of an answer. -/
def answer (p : List Byte × List Byte) : List Byte := p.1 ++ bytes ": " ++ p.2

/-- What is answered. -/
def answers (m : Msg) (ps : List (List Byte × List Byte)) : List (List Byte × List Byte) := ps.filter fun p => Spec.mentions m p.1

theorem append_line (mv : Moves) (rep : Msg) (ho : Open rep) (l : List Byte) :
    Rtsp.append mv rep [.bodyStart, .raw l, .bodyEnd] = some (0, { rep with bodyHeaders := rep.bodyHeaders ++ [Rtsp.lineHeader l] }) := by
  obtain ⟨ht, hb, hi, hs⟩ := ho
  have e1 : Rtsp.appendBasic mv rep .bodyStart = some (0, { rep with iterBody := true }) := by
    unfold Rtsp.appendBasic Rtsp.openBody
    rw [if_neg ht, if_neg (by rw [hs]; decide)]
    simp only
    rw [if_neg ht, if_neg (by rw [hs]; decide), if_neg (by rw [hi, hb]; decide)]
  have e2 : Rtsp.appendBasic mv { rep with iterBody := true } (.raw l) =
      some (0, { rep with iterBody := true, bodyHeaders := rep.bodyHeaders ++ [Rtsp.lineHeader l] }) := by
    unfold Rtsp.appendBasic
    rw [if_neg (show ¬ rep.type = .data from ht), if_neg (show ¬ rep.isSealed = true from by rw [hs]; decide)]
    simp only
    rw [if_neg (show ¬ rep.iterHeader ≠ none from by rw [hi]; simp)]
    unfold Rtsp.appendLine
    rw [if_neg (show ¬ rep.type = .data from ht), if_neg (show ¬ rep.isSealed = true from by rw [hs]; decide),
      if_neg (show ¬ rep.iterHeader ≠ none from by rw [hi]; simp), Rtsp.appendLine_ok mv _ (show ({ rep with iterBody := true } : Msg).type ≠ .data from ht)]
    unfold Rtsp.pushHeader
    rw [if_pos rfl]
  have e3 : Rtsp.appendBasic mv { rep with iterBody := true, bodyHeaders := rep.bodyHeaders ++ [Rtsp.lineHeader l] } .bodyEnd =
      some (0, { rep with bodyHeaders := rep.bodyHeaders ++ [Rtsp.lineHeader l] }) := by
    unfold Rtsp.appendBasic Rtsp.closeBody
    rw [if_neg (show ¬ rep.type = .data from ht), if_neg (show ¬ rep.isSealed = true from by rw [hs]; decide)]
    simp only
    rw [if_neg (show ¬ rep.type = .data from ht), if_neg (show ¬ rep.isSealed = true from by rw [hs]; decide), if_neg (by decide),
      if_neg (show ¬ rep.iterHeader ≠ none from by rw [hi]; simp), ← hb]
  rw [Rtsp.append_step mv _ _ _ _ e1 ht hs, Rtsp.append_step mv _ _ _ _ e2 ht hs, Rtsp.append_step mv _ _ _ _ e3 ht hs]
  unfold Rtsp.append
  rw [if_neg (show ¬ rep.type = .data from ht), if_neg (show ¬ rep.isSealed = true from by rw [hs]; decide)]

theorem respond_eq (mv : Moves) (m rep : Msg) (hm : AtRest m) (ho : Open rep) (p : List Byte × List Byte) :
    ∃ m', AtRest m' ∧ m'.bodyHeaders = m.bodyHeaders ∧ respond mv m rep p.1 p.2 =
      (if Spec.mentions m p.1 then
        (if 512 < (answer p).length + 1 then none else some (0, m', { rep with bodyHeaders := rep.bodyHeaders ++ [Rtsp.lineHeader (answer p)] }))
       else some (0, m', rep)) := by
  obtain ⟨m', h1, h2, h3⟩ := asked_exact m hm p.1
  refine ⟨m', h2, h3, ?_⟩
  unfold respond
  simp only [h1, Option.bind_eq_bind, Option.bind_some]
  cases Spec.mentions m p.1
  · rfl
  · simp only [if_true]
    show (if 512 < (answer p).length + 1 then none else (Rtsp.append mv rep [.bodyStart, .raw (answer p), .bodyEnd]).bind _) = _
    rw [append_line mv rep ho]
    rfl

theorem respondAll_eq (mv : Moves) (ps : List (List Byte × List Byte)) : ∀ (m rep : Msg), AtRest m → Open rep →
    respondAll mv ps m rep = (if ∃ p ∈ answers m ps, 512 ≤ (answer p).length then none
      else some (0, { rep with bodyHeaders := rep.bodyHeaders ++ (answers m ps).map fun p => Rtsp.lineHeader (answer p) })) := by
  induction ps with
  | nil => intro m rep _ _; simp [respondAll, answers]
  | cons p ps ih =>
    intro m rep hm ho
    obtain ⟨m', h1, h2, h3⟩ := respond_eq mv m rep hm ho p
    have ha : answers m' ps = answers m ps := by
      unfold answers
      congr 1
      funext q
      exact mentions_body h2 q.1
    unfold respondAll
    rw [h3]
    by_cases hq : Spec.mentions m p.1 = true
    · rw [if_pos hq]
      have hcons : answers m (p :: ps) = p :: answers m ps := by
        unfold answers
        rw [List.filter_cons, if_pos hq]
      rw [hcons]
      by_cases hl : 512 < (answer p).length + 1
      · rw [if_pos hl, if_pos ⟨p, by simp, by omega⟩]
        rfl
      · rw [if_neg hl]
        simp only [Option.bind_eq_bind, Option.bind_some]
        rw [if_neg (Int.lt_irrefl 0), ih m' { rep with bodyHeaders := rep.bodyHeaders ++ [Rtsp.lineHeader (answer p)] } h1 ⟨ho.type, ho.iterBody, ho.iterHeader, ho.notSealed⟩, ha]
        by_cases hx : ∃ q ∈ answers m ps, 512 ≤ (answer q).length
        · rw [if_pos hx, if_pos]
          obtain ⟨q, h4, h5⟩ := hx
          exact ⟨q, by simp [h4], h5⟩
        · rw [if_neg hx, if_neg]
          · simp
          · rintro ⟨q, h4, h5⟩
            rcases List.mem_cons.mp h4 with rfl | h4
            · omega
            · exact hx ⟨q, h4, h5⟩
    · rw [if_neg hq]
      have hcons : answers m (p :: ps) = answers m ps := by
        unfold answers
        rw [List.filter_cons, if_neg hq]
      rw [hcons]
      simp only [Option.bind_eq_bind, Option.bind_some]
      rw [if_neg (Int.lt_irrefl 0), ih m' rep h1 ho, ha]

theorem answers_lines (ps : List (List Byte × List Byte)) : LinesAre (ps.map fun p => Rtsp.lineHeader (answer p)) (ps.map answer) := by
  have := Rtsp.linesAre_map (ps.map answer)
  rw [List.map_map] at this
  exact this

theorem answers_len (m : Msg) (ps : List (List Byte × List Byte)) (h : ¬ ∃ p ∈ answers m ps, 512 ≤ (answer p).length) :
    (flat ((answers m ps).map answer)).length ≤ 513 * ps.length := by
  have h1 : ∀ l : List (List Byte × List Byte), (∀ p ∈ l, (answer p).length ≤ 511) → (flat (l.map answer)).length ≤ 513 * l.length := by
    intro l hl
    induction l with
    | nil => simp [flat]
    | cons p l ih =>
      have a := hl p (by simp)
      have b := ih (fun q hq => hl q (by simp [hq]))
      unfold flat at b ⊢
      simp only [List.map_cons, List.flatten_cons, List.length_append, List.length_cons] at b ⊢
      have : Rtsp.crlf.length = 2 := rfl
      omega
  have h2 := h1 (answers m ps) (fun p hp => by
    by_cases hq : 512 ≤ (answer p).length
    · exact absurd ⟨p, hp, hq⟩ h
    · omega)
  have h3 : (answers m ps).length ≤ ps.length := List.length_filter_le _ _
  omega

theorem options_length (c : Cfg) : (options c).length ≤ c.ext.length + 5 := by
  unfold options
  have := List.length_filter_le (fun p : List Byte × List Byte => decide (p.1 ≠ bytes "wfd_video_formats" ∧ p.1 ≠ bytes "wfd_audio_codecs" ∧ p.1 ≠ bytes "wfd_uibc_capability")) c.ext
  simp only [List.length_append, List.length_cons, List.length_nil, List.length_map]
  generalize (List.filter _ c.ext).length = k at this ⊢
  split
  · simp only [List.length_cons, List.length_nil]; omega
  · simp only [List.length_nil]; omega

/-- The reply to GET_PARAMETER in terms of the list of options. -/
theorem get_eq (mv : Moves) (s : St) (m : Msg) (hm : AtRest m) (hu : m.isUsed = true) (hr : isRemote m.cookie = true) (hb : s.bus = true) (hext : s.cfg.ext.length < 1000000) :
    handleGet mv s m = (if ∃ p ∈ answers m (options s.cfg), 512 ≤ (answer p).length then none
      else some (s.out (.sent (Spec.ok (local_ m.cookie) [] ((answers m (options s.cfg)).map answer))))) := by
  obtain ⟨rep, h1, h2, h3, h4, h5, h6⟩ := reply_for m hu hr
  unfold handleGet
  simp only [h1]
  rw [respondAll_eq mv _ m rep hm h2.opened]
  by_cases hx : ∃ p ∈ answers m (options s.cfg), 512 ≤ (answer p).length
  · rw [if_pos hx, if_pos hx]; rfl
  · rw [if_neg hx, if_neg hx]
    simp only [Option.bind_eq_bind, Option.bind_some]
    rw [if_neg (Int.lt_irrefl 0), h6]
    have hl := answers_len m _ hx
    have ho := options_length s.cfg
    have hready : Ready { rep with bodyHeaders := [] ++ (answers m (options s.cfg)).map fun p => Rtsp.lineHeader (answer p) } (bytes "RTSP/1.0 200 OK") [] ((answers m (options s.cfg)).map answer) := by
      refine ⟨⟨h2.opened.type, h2.opened.iterBody, h2.opened.iterHeader, h2.opened.notSealed⟩, h2.clen, h2.ctype, h2.cseq, h2.body, h2.head, h2.lines, answers_lines _, ?_⟩
      have hW : W32 = 4294967296 := rfl
      rw [hW]
      omega
    rw [send_reply mv s _ _ _ _ hready h3 m.cookie h4 hb]
    rfl

theorem lookup_mem {α β : Type} [BEq α] [LawfulBEq α] (l : List (α × β)) (hn : (l.map (·.1)).Nodup) (p : α × β) (hp : p ∈ l) : l.lookup p.1 = some p.2 := by
  induction l with
  | nil => cases hp
  | cons q l ih =>
    obtain ⟨qa, qb⟩ := q
    simp only [List.map_cons, List.nodup_cons] at hn
    rcases List.mem_cons.mp hp with rfl | hp'
    · simp [List.lookup]
    · have hne : p.1 ≠ qa := by
        intro e
        exact hn.1 (List.mem_map.mpr ⟨p, hp', e⟩)
      rw [List.lookup_cons]
      have : (p.1 == qa) = false := by simpa using hne
      rw [this]
      exact ih hn.2 hp'

theorem lookup_none {α β : Type} [BEq α] [LawfulBEq α] (l : List (α × β)) (a : α) (h : a ∉ l.map (·.1)) : l.lookup a = none := by
  induction l with
  | nil => rfl
  | cons q l ih =>
    obtain ⟨qa, qb⟩ := q
    simp only [List.map_cons, List.mem_cons, not_or] at h
    rw [List.lookup_cons]
    have : (a == qa) = false := by simpa using h.1
    rw [this]
    exact ih h.2

/-- A list of pairs with different names has at most one with a given name. -/
theorem filter_name {β : Type} (l : List (List Byte × β)) (hn : (l.map (·.1)).Nodup) (n : List Byte) :
    l.filter (fun p => decide (p.1 = n)) = ((l.lookup n).map fun v => (n, v)).toList := by
  induction l with
  | nil => rfl
  | cons q l ih =>
    obtain ⟨qa, qb⟩ := q
    simp only [List.map_cons, List.nodup_cons] at hn
    rw [List.filter_cons, List.lookup_cons]
    by_cases h : qa = n
    · subst h
      simp only [decide_true, if_true, beq_self_eq_true, Option.map_some, Option.toList_some]
      have hl := ih hn.2
      rw [lookup_none l qa hn.1] at hl
      rw [hl]
      rfl
    · have : (n == qa) = false := by simpa using fun e : n = qa => h e.symm
      simp only [h, decide_false, Bool.false_eq_true, if_false, this]
      exact ih hn.2

theorem options_filter (c : Cfg) (hp : Spec.Plain c) (n : List Byte) :
    (options c).filter (fun p => decide (p.1 = n)) = ((Spec.supported c n).map fun v => (n, v)).toList := by
  obtain ⟨h1, h2, h3⟩ := hp
  have hn : (options c).map (·.1) = [bytes "wfd_content_protection", bytes "wfd_video_formats", bytes "wfd_audio_codecs", bytes "wfd_client_rtp_ports"] ++
      ((c.ext.map (·.1)).filter fun k => k ≠ bytes "wfd_video_formats" ∧ k ≠ bytes "wfd_audio_codecs" ∧ k ≠ bytes "wfd_uibc_capability") ++
      (if c.uibc then [bytes "wfd_uibc_capability"] else []) := by
    unfold options
    rw [List.map_append, List.map_append, List.map_map]
    congr 1
    · congr 1
      rw [List.filter_map]
      rfl
    · split <;> rfl
  have hnd : ((options c).map (·.1)).Nodup := by
    rw [hn, List.nodup_append, List.nodup_append]
    refine ⟨⟨by decide +kernel, h1.filter _, ?_⟩, ?_, ?_⟩
    · intro a ha b hb hab
      subst hab
      rw [List.mem_filter] at hb
      obtain ⟨hb1, hb2⟩ := hb
      simp only [decide_eq_true_eq] at hb2
      simp only [List.mem_cons, List.not_mem_nil, or_false] at ha
      rcases ha with rfl | rfl | rfl | rfl
      · exact h2 hb1
      · exact hb2.1 rfl
      · exact hb2.2.1 rfl
      · exact h3 hb1
    · split <;> simp
    · intro a ha b hb hab
      subst hab
      by_cases hu : c.uibc = true
      · rw [if_pos hu] at hb
        have hb := List.mem_singleton.mp hb
        subst hb
        rcases List.mem_append.mp ha with ha | ha
        · revert ha; decide +kernel
        · rw [List.mem_filter] at ha
          have := ha.2
          simp only [decide_eq_true_eq] at this
          exact this.2.2 rfl
      · rw [if_neg hu] at hb; cases hb
  rw [filter_name _ hnd]
  congr 2
  -- the value
  have look : ∀ v, (n, v) ∈ options c → (options c).lookup n = some v := fun v h => lookup_mem _ hnd (n, v) h
  unfold Spec.supported
  by_cases hu : n = bytes "wfd_uibc_capability"
  · subst hu
    by_cases hc : c.uibc = true
    · rw [if_neg (by simp [hc])]
      rw [look ((c.ext.lookup (bytes "wfd_uibc_capability")).getD defaultUibc) (by unfold options; rw [if_pos hc]; simp)]
      cases c.ext.lookup (bytes "wfd_uibc_capability") with
      | some v => rfl
      | none =>
        simp only [Option.getD_none]
        unfold Spec.builtin
        rw [if_neg (by decide +kernel), if_neg (by decide +kernel), if_neg (by decide +kernel), if_neg (by decide +kernel), if_pos rfl]
        rfl
    · rw [if_pos ⟨rfl, by simpa using hc⟩]
      apply lookup_none
      rw [hn, if_neg hc]
      simp only [List.append_nil, List.mem_append, List.mem_filter, decide_eq_true_eq]
      rintro (h | h)
      · revert h; decide +kernel
      · exact h.2.2.2 rfl
  · rw [if_neg (fun h => hu h.1)]
    by_cases hv : n = bytes "wfd_video_formats"
    · subst hv
      rw [look ((c.ext.lookup (bytes "wfd_video_formats")).getD (defaultVideo c)) (by unfold options; simp)]
      cases c.ext.lookup (bytes "wfd_video_formats") with
      | some v => rfl
      | none =>
        simp only [Option.getD_none]
        unfold Spec.builtin
        rw [if_neg (by decide +kernel), if_pos rfl]
        rfl
    · by_cases ha : n = bytes "wfd_audio_codecs"
      · subst ha
        rw [look ((c.ext.lookup (bytes "wfd_audio_codecs")).getD (bytes "AAC 00000007 00")) (by unfold options; simp)]
        cases c.ext.lookup (bytes "wfd_audio_codecs") with
        | some v => rfl
        | none =>
          simp only [Option.getD_none]
          unfold Spec.builtin
          rw [if_neg (by decide +kernel), if_neg (by decide +kernel), if_pos rfl]
      · by_cases h4 : n = bytes "wfd_content_protection"
        · subst h4
          rw [look (bytes "none") (by unfold options; simp), lookup_none _ _ h2]
          rfl
        · by_cases h5 : n = bytes "wfd_client_rtp_ports"
          · subst h5
            rw [look (bytes "RTP/AVP/UDP;unicast " ++ decInt c.port ++ bytes " 0 mode=play") (by unfold options; simp), lookup_none _ _ h3]
            simp only
            unfold Spec.builtin
            rw [if_neg (by decide +kernel), if_neg (by decide +kernel), if_neg (by decide +kernel), if_pos rfl]
          · by_cases hx : n ∈ c.ext.map (·.1)
            · obtain ⟨p, hp1, hp2⟩ := List.mem_map.mp hx
              have hl := lookup_mem _ h1 p hp1
              rw [hp2] at hl
              rw [hl]
              apply look
              unfold options
              simp only [List.mem_append, List.mem_map, List.mem_filter, decide_eq_true_eq]
              refine Or.inl (Or.inr ⟨p, ⟨hp1, ?_⟩, ?_⟩)
              · rw [hp2]; exact ⟨hv, ha, hu⟩
              · rw [hp2, hl]; rfl
            · rw [lookup_none _ _ hx]
              have hb : Spec.builtin c n = none := by
                unfold Spec.builtin
                rw [if_neg h4, if_neg hv, if_neg ha, if_neg h5, if_neg hu]
              simp only [hb]
              apply lookup_none
              rw [hn]
              simp only [List.mem_append, List.mem_filter, List.mem_cons, List.not_mem_nil, or_false]
              rintro ((h | h) | h)
              · rcases h with h | h | h | h
                · exact h4 h
                · exact hv h
                · exact ha h
                · exact h5 h
              · exact hx h.1
              · by_cases hc : c.uibc = true
                · rw [if_pos hc] at h; exact hu (List.mem_singleton.mp h)
                · rw [if_neg hc] at h; cases h

end Verif.Sink
