import Verif.Proof.Session
/-!
# A Wi-Fi Display session comes up over the wire (C138)
-/
namespace Verif.Session
open Verif.C
open Verif.Rtsp (Msg Moves REMOTE)
open Verif.Rtsp.Spec (Hdr Item Sendable headerCount makeAll stream)

/-- **C138.** A source that keeps to the order of the standard, whatever else its messages say, sends them through the message API; whatever way the bytes are cut, a sink with a fresh parser gets them all, and its run over
them is defined: it answers M1 with its methods and asks for those of the source, answers M3 with exactly the parameters asked for that it supports, acknowledges M4 and takes the resolution the tables give, acknowledges
M5, asks for SETUP of the URL of M4 with its own port, and then for PLAY in the session the source named; and nothing else. -/
theorem session_comes_up (mvS : Moves) (env : Rtsp.Env) (ha : ∀ log m, 0 ≤ (env.H log m).1)
    (mv : Moves) (c : Sink.Cfg) (s : Sink.St) (hr : Sink.Spec.Reached mv c s) (hp : Sink.Spec.PortOk c) (hext : c.ext.length < 1000000) (hpl : Sink.Spec.Plain c)
    (hcon : s.connected = true) (hset : s.setups = []) (hk : s.cookies + 3 < REMOTE)
    (k : Spec.Script) (u w : List Byte) (f : Nat × Nat × Nat) (ho : Spec.Orderly k u f w) (hf : Spec.Fits c k.m3.bs)
    (hi : ∀ i ∈ k.items s.cookies, Sendable i) (hroom : ∀ i ∈ k.items s.cookies, headerCount i + 3 ≤ 64 ∨ ∀ n, 64 ≤ n → env.mv n = false)
    (ck : Nat) (hck : ck + 4 < REMOTE) :
    ∃ ms, makeAll mvS ck (k.items s.cookies) = some ms ∧ ∀ cs : List (List Byte), cs.flatten = stream ms →
      ∃ b s' L x y, Rtsp.reads env Rtsp.openBus cs = some (0, b) ∧ (∀ m ∈ b.log, Sink.Spec.Delivered (Spec.event m)) ∧ Sink.run mv s (b.log.map Spec.event) = some s' ∧
        s'.connected = true ∧ s'.session = some (w.takeWhile (· ≠ ch ';')) ∧ s'.url = some u ∧
        Spec.Answers c k.m3.bs L ∧ Wfd.Spec.Chosen f.1 f.2.1 f.2.2 x y ∧
        s'.log = s.log ++ Spec.expected c s.cookies ck L u w x y := by
  obtain ⟨ms, h1, h2, h3⟩ := Rtsp.wire_roundtrip_partial mvS env ha (k.items s.cookies) hi hroom ck
  refine ⟨ms, h1, fun cs hcs => ?_⟩
  obtain ⟨b, b1, _, _, _, b5, b6⟩ := h3 cs hcs
  -- the messages made
  obtain ⟨r1, ms1, n1, q1, rfl⟩ := makeAll_cons h1
  obtain ⟨r2, ms2, n2, q2, rfl⟩ := makeAll_cons q1
  obtain ⟨r3, ms3, n3, q3, rfl⟩ := makeAll_cons q2
  obtain ⟨r4, ms4, n4, q4, rfl⟩ := makeAll_cons q3
  obtain ⟨r5, ms5, n5, q5, rfl⟩ := makeAll_cons q4
  obtain ⟨r6, ms6, n6, q6, rfl⟩ := makeAll_cons q5
  -- the messages received
  obtain ⟨x1, x2, x3, x4, x5, x6, hl⟩ := six b.log b5
  rw [hl] at b6
  obtain ⟨A1, A2, A3, A4, A5, A6⟩ := six_all Rtsp.Spec.Arrives _ _ _ _ _ _ _ _ _ _ _ _ _ _ _ _ _ _ _ b6
  obtain ⟨S1, S2, S3, S4, S5, S6⟩ := six_mem Sendable _ _ _ _ _ _ hi
  obtain ⟨g1, k1⟩ := got_of ck (by omega) mvS _ _ _ _ S1 r1 n1 x1 A1
  rw [k1] at n2
  obtain ⟨g2, k2⟩ := back_of mvS _ _ _ (by omega) _ _ _ S2 r2 n2 x2 A2
  rw [k2] at n3
  obtain ⟨g3, k3⟩ := got_of (ck + 1) (by omega) mvS _ _ _ _ S3 r3 n3 x3 A3
  rw [k3] at n4
  obtain ⟨g4, k4⟩ := got_of (ck + 2) (by omega) mvS _ _ _ _ S4 r4 n4 x4 A4
  rw [k4] at n5
  obtain ⟨g5, k5⟩ := got_of (ck + 3) (by omega) mvS _ _ _ _ S5 r5 n5 x5 A5
  rw [k5] at n6
  obtain ⟨g6, _⟩ := back_of mvS _ _ _ (by omega) _ _ _ S6 r6 n6 x6 A6
  have hu : u ≠ [] := by
    obtain ⟨_, _, _, _, _, hb, _⟩ := S4
    have he := ho.url
    unfold Spec.first Spec.words at he
    cases hx : k.m4.bs.find? (fun h => caseEq h.1 (bytes "wfd_presentation_URL")) with
    | none => rw [hx] at he; cases he
    | some h =>
      rw [hx] at he
      have hm := (hb h (List.mem_of_find?_eq_some hx)).1.2.2.2 u (List.mem_of_head? he)
      exact hm.1
  obtain ⟨s', L, x, y, p1, p2, p3, p4, p5, p6, p7⟩ := sink_session mv c s hr hp hext hpl hcon hset hk k u w f ho hu hf ck x1 x2 x3 x4 x5 x6 g1 g2 g3 g4 g5 g6
  refine ⟨b, s', L, x, y, b1, ?_, by rw [hl]; exact p1, p2, p3, p4, p5, p6, p7⟩
  rw [hl]
  intro m hm
  simp only [List.mem_cons, List.not_mem_nil, or_false] at hm
  rcases hm with rfl | rfl | rfl | rfl | rfl | rfl
  · rw [g1.event]; exact g1.delivered
  · rw [g2.event]; exact g2.rest
  · rw [g3.event]; exact g3.delivered
  · rw [g4.event]; exact g4.delivered
  · rw [g5.event]; exact g5.delivered
  · rw [g6.event]; exact g6.rest

/-- A source as one finds them; its OPTIONS requires something, M4 has parameters the sink does not know. -/
def script : Spec.Script where
  m1 := ⟨bytes "*", [(bytes "Require", [bytes "org.wfa.wfd1.0"])], []⟩
  m2 := ⟨200, [], [(bytes "Public", [bytes "org.wfa.wfd1.0, SETUP, TEARDOWN, PLAY, PAUSE"])], []⟩
  m3 := ⟨bytes "rtsp://localhost/wfd1.0", [], [(bytes "wfd_audio_codecs", [bytes "x"]), (bytes "wfd_3d_video_formats", [bytes "x"])]⟩
  m4 := ⟨bytes "rtsp://localhost/wfd1.0", [], [(bytes "wfd_audio_codecs", [bytes "AAC", bytes "00000001", bytes "00"]),
    (bytes "WFD_video_formats", ["00", "00", "02", "04", "00000080", "00000000", "00000000", "00", "0000", "0000", "00", "none", "none"].map bytes),
    (bytes "wfd_presentation_URL", [bytes "rtsp://192.168.49.1/wfd1.0/streamid=0", bytes "none"])]⟩
  m5 := ⟨bytes "rtsp://localhost/wfd1.0", [], [(bytes "wfd_trigger_method", [bytes "SETUP"])]⟩
  m6 := ⟨200, [], [(bytes "Session", [bytes "6B8B4567;timeout=30"]), (bytes "Transport", [bytes "RTP/AVP/UDP;unicast;client_port=1991"])], []⟩

/-- A sink that was just connected. -/
def fresh : Sink.St := { Sink.new Sink.cfg0 with fd := some 0, bus := true, connected := true, opened := 1, log := [.connected] }

theorem fresh_reached (mv : Moves) : Sink.Spec.Reached mv Sink.cfg0 fresh := by
  refine ⟨Sink.up, ?_, rfl⟩
  intro e he
  unfold Sink.up at he
  simp only [List.mem_cons, List.not_mem_nil, or_false] at he
  rcases he with rfl | rfl <;> exact True.intro

theorem script_fits : Spec.Fits Sink.cfg0 script.m3.bs := by
  intro name v h1 h2
  have hlen : ∀ n w, Sink.Spec.builtin Sink.cfg0 n = some w → (n ++ bytes ": " ++ w).length < 512 := by
    intro n w hw
    unfold Sink.Spec.builtin at hw
    repeat' split at hw
    all_goals first
      | (rename_i hn; cases hw; rw [hn]; decide +kernel)
      | cases hw
  unfold Sink.Spec.supported at h2
  split at h2
  · cases h2
  · exact hlen name v h2

-- the hypotheses are met
example : fresh.connected = true ∧ fresh.setups = [] ∧ fresh.cookies + 3 < REMOTE ∧ (∀ i ∈ script.items fresh.cookies, Sendable i) ∧ (∀ i ∈ script.items fresh.cookies, headerCount i + 3 ≤ 64) ∧
    Spec.Orderly script (bytes "rtsp://192.168.49.1/wfd1.0/streamid=0") (128, 0, 0) (bytes "6B8B4567;timeout=30") := by
  refine ⟨rfl, rfl, by decide, by decide +kernel, by decide +kernel, ?_⟩
  refine ⟨by decide +kernel, by decide +kernel, ?_, by decide +kernel, by decide +kernel, by decide +kernel, by decide +kernel, by decide +kernel, by decide +kernel, by decide +kernel⟩
  rintro ⟨h, _⟩
  exact absurd (h (7, 1920, 1080) (by decide +kernel)) (by decide)

/-- What the sink says when the bytes arrive in pieces of `n`. -/
def heard (k : Spec.Script) (cut : List Byte → List (List Byte)) : Option (List Sink.Out) := do
  let ms ← makeAll (fun _ => true) 40 (k.items 0)
  let b ← Rtsp.reads Rtsp.quiet Rtsp.openBus (cut (stream ms))
  let s ← Sink.run (fun _ => true) fresh (b.2.log.map Spec.event)
  some (s.log.drop 1)

-- and this is the conversation, byte by byte
example : heard script (fun l => l.map fun c => [c]) = some [
    .sent (bytes "RTSP/1.0 200 OK\r\nPublic: \"org.wfa.wfd1.0, GET_PARAMETER, SET_PARAMETER\"\r\nCSeq: 41\r\n\r\n"),
    .sent (bytes "OPTIONS * RTSP/1.0\r\nRequire: org.wfa.wfd1.0\r\nCSeq: 1\r\n\r\n"),
    .sent (bytes "RTSP/1.0 200 OK\r\nContent-Length: 35\r\nContent-Type: text/parameters\r\nCSeq: 42\r\n\r\nwfd_audio_codecs: AAC 00000007 00\r\n"),
    .sent (bytes "RTSP/1.0 200 OK\r\nCSeq: 43\r\n\r\n"), .resolution 1920 1080, .sent (bytes "RTSP/1.0 200 OK\r\nCSeq: 44\r\n\r\n"),
    .sent (bytes "SETUP rtsp://192.168.49.1/wfd1.0/streamid=0 RTSP/1.0\r\nTransport: RTP/AVP/UDP;unicast;client_port=1991\r\nCSeq: 2\r\n\r\n"),
    .sent (bytes "PLAY rtsp://192.168.49.1/wfd1.0/streamid=0 RTSP/1.0\r\nSession: 6B8B4567\r\nCSeq: 3\r\n\r\n")] := by
  decide +kernel

/-- A resolution is reported. -/
def shows : Sink.Out → Bool
  | .resolution _ _ => true
  | _ => false

/-- Why the masks must be usable: with masks that select nothing the sink refuses M4 without telling the source, and the session comes up all the same, without a resolution. -/
theorem plays_unresolved : ∃ k, Spec.masks k.m4.bs = some (some (0, 0, 0)) ∧
    ((heard k fun l => [l]).map fun o => (o.any fun o => shows o, Sink.Spec.calls "SETUP" o, Sink.Spec.calls "PLAY" o)) = some (false, 1, 1) :=
  ⟨{ script with m4 := ⟨bytes "rtsp://localhost/wfd1.0", [], [(bytes "wfd_presentation_URL", [bytes "rtsp://x"]),
      (bytes "wfd_video_formats", ["00", "00", "02", "04", "00000000", "00000000", "00000000"].map bytes)]⟩ }, by decide +kernel, by decide +kernel⟩

end Verif.Session
