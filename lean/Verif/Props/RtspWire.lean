import Verif.Proof.RtspWire
import Verif.Props.RtspParse
/-!
# What is sent over RTSP arrives

C18 (messages), C19 (data frames), C20 (injection through tokens).
-/
namespace Verif.Rtsp
open Verif.C
open Spec (Item makeAll stream Sendable headerCount Arrives)

/-- **C18, C19 (partial).** Any sequence of sendable requests, replies and data frames, built through the message API, is sealed
without error; however the bytes are cut into reads, the other side delivers one message for each, in order,
with the same type, method and URI or code and phrase or channel and payload, the same header names,
tokens and lines (`Content-Length`, `Content-Type` and `CSeq` added), the same body headers and
body bytes and the number of the call; nothing is left over. Missing from the full claim: items that are not
`Sendable` (see the negations below) and messages with more than 61 headers when the allocator
of the receiver moves their array (C21). -/
theorem wire_roundtrip_partial (mvS : Moves) (env : Env) (ha : ∀ log m, 0 ≤ (env.H log m).1) (is : List Item) (hi : ∀ i ∈ is, Sendable i)
    (hr : ∀ i ∈ is, headerCount i + 3 ≤ 64 ∨ ∀ c, 64 ≤ c → env.mv c = false) (ck : Nat) :
    ∃ ms, makeAll mvS ck is = some ms ∧ ms.length = is.length ∧
      ∀ cs : List (List Byte), cs.flatten = stream ms →
        ∃ b, reads env openBus cs = some (0, b) ∧ b.dec.state = .new ∧ b.dec.m = none ∧ b.dec.ring = [] ∧ b.log.length = is.length ∧
          ∀ (k : Nat) i s x, is[k]? = some i → ms[k]? = some s → b.log[k]? = some x → Arrives i s x := by
  obtain ⟨ms, fs, h1, h2, h3, h4⟩ := items_frames mvS env ha is (fun i h => ⟨hi i h, hr i h⟩) ck
  obtain ⟨b, xs, r1, r2, r3, r4⟩ := frames_reads env ha fs h3 [stream ms] (by simpa using h2) openBus idle_open
  refine ⟨ms, h1, (h4 xs r4).2.1, fun cs hc => ?_⟩
  obtain ⟨b, xs, r1, r2, r3, r4⟩ := frames_reads env ha fs h3 cs (hc.trans h2) openBus idle_open
  obtain ⟨l1, l2, l3⟩ := h4 xs r4
  have hl : b.log = xs := r3
  refine ⟨b, r1, r2.state, r2.m, ?_, by rw [hl]; exact l1, by rw [hl]; exact l3⟩
  have := r2.sync
  unfold Sync at this
  rw [r2.empty] at this
  exact List.length_eq_zero_iff.mp this.symm

/-- A request with quoted tokens and a body, a reply, a data frame. -/
def sampleItems : List Item :=
  [.request (bytes "SET_PARAMETER") (bytes "rtsp://x/y") [(bytes "Require", [bytes "a \"b\\", bytes "c\\d"])]
      [(bytes "wfd_x", [bytes "1", bytes "2 3"]), (bytes "wfd_y", [bytes "none"])],
   .reply 7 454 [] [] [],
   .data 200 (bytes "pay\r\nload")]

-- the hypotheses are met, and the bytes are what one expects
example : (∀ i ∈ sampleItems, Sendable i) ∧ (∀ i ∈ sampleItems, headerCount i + 3 ≤ 64) ∧
    (makeAll (fun _ => true) 4 sampleItems).map stream = some (bytes
      ("SET_PARAMETER rtsp://x/y RTSP/1.0\r\nRequire: \"a \\\"b\\\\\" c\\\\d\r\nContent-Length: 29\r\nContent-Type: text/parameters\r\nCSeq: 5\r\n\r\n" ++
        "wfd_x: 1 \"2 3\"\r\nwfd_y: none\r\n") ++
      bytes "RTSP/1.0 454 Session not Found\r\nCSeq: 7\r\n\r\n$" ++ [200, 0, 9] ++ bytes "pay\r\nload") := by
  exact ⟨by decide +kernel, by decide +kernel, by decide +kernel⟩

/-- **C18, negation.** A token with a double quote but without white space is written with a backslash outside of quotes; the
receiver takes the quote for the beginning of a quoted string and never sees the end of the message. -/
theorem quote_breaks_framing :
    ∃ (is : List Item) (ms : List Msg), makeAll (fun _ => false) 0 is = some ms ∧ is.length = 2 ∧
      (reads quiet openBus [stream ms]).map (fun r => (r.1, r.2.log)) = some (0, []) :=
  ⟨[.request (bytes "A") (bytes "b") [(bytes "X", [bytes "a\"b"])] [], .reply 1 200 [] [] []], _, rfl, rfl, by decide +kernel⟩

/-- **C18, C20, negation.** A token with a CR but without blank, tab, LF or VT is not quoted; the receiver sees two headers. -/
theorem token_injects_header :
    ∃ (is : List Item) (ms : List Msg), makeAll (fun _ => false) 0 is = some ms ∧
      (∀ m ∈ ms, m.headers.length = 2) ∧
      (reads quiet openBus [stream ms]).map (fun r => (r.1, r.2.log.map (fun x => x.headers.map Header.key))) =
        some (0, [[bytes "X", bytes "Session", bytes "CSeq"]]) :=
  ⟨[.request (bytes "A") (bytes "b") [(bytes "X", [bytes "a\rSession:1"])] []], _, rfl, by decide +kernel, by decide +kernel⟩

/-- **C18, negation.** A body header with a LF in a token is quoted but arrives as two body headers. -/
theorem body_line_split :
    ∃ (is : List Item) (ms : List Msg), makeAll (fun _ => false) 0 is = some ms ∧
      (∀ m ∈ ms, m.bodyHeaders.length = 1) ∧
      (reads quiet openBus [stream ms]).map (fun r => (r.1, r.2.log.map (fun x => x.bodyHeaders.length))) = some (0, [2]) :=
  ⟨[.request (bytes "A") (bytes "b") [] [(bytes "x", [bytes "a\nb"])]], _, rfl, by decide +kernel, by decide +kernel⟩

/-- **C19, negation.** A data frame without payload is delivered only when another byte arrives, and swallows that byte: of two
frames sent, one arrives. -/
theorem empty_frame_swallows :
    ∃ (is : List Item) (ms : List Msg), makeAll (fun _ => false) 0 is = some ms ∧ is.length = 2 ∧ (∀ i ∈ is, ∃ c, i = .data c []) ∧
      (reads quiet openBus [stream ms]).map (fun r => (r.1, r.2.log.map (fun x => (x.channel, x.payload)))) = some (0, [(1, [])]) :=
  ⟨[.data 1 [], .data 2 []], _, rfl, rfl, by simp, by decide +kernel⟩

/-- **C19, negation.** Of a payload of more than 65535 bytes (and not a multiple of 65536) only the first `length % 65536` bytes are delivered as
the frame; the rest is read as RTSP. -/
theorem long_payload_cut (env : Env) (ha : ∀ log m, 0 ≤ (env.H log m).1) (chan : Nat) (hc : chan < 256) (p : List Byte) (hp : 65535 < p.length)
    (hm : p.length % 65536 ≠ 0) (mvS : Moves) (ck : Nat) :
    ∃ s raw b x, makeAll mvS ck [.data chan p] = some [s] ∧ s.raw = some raw ∧
      reads env openBus [raw.take (4 + p.length % 65536)] = some (0, b) ∧ b.dec.state = .new ∧ b.log = [x] ∧ x.channel = chan ∧
      x.payload = p.take (p.length % 65536) ∧ x.payload ≠ p := by
  have hl : (p.take (p.length % 65536)).length = p.length % 65536 := by
    rw [List.length_take]; omega
  have hf := data_frame env ha chan (p.take (p.length % 65536)) hc (by intro e; rw [e] at hl; exact hm hl.symm) (by rw [hl]; omega)
  rw [hl] at hf
  have e1 : ((p.length % 65536) / 256).toUInt8 = (p.length / 256).toUInt8 := by
    apply UInt8.toNat_inj.mp
    simp; omega
  have e2 : (p.length % 65536).toUInt8 = p.length.toUInt8 := by
    apply UInt8.toNat_inj.mp
    simp
  rw [e1, e2] at hf
  obtain ⟨b, xs, r1, r2, r3, r4⟩ := frames_reads env ha [(_, _)] (fun f h => by rw [List.mem_singleton.mp h]; exact hf)
    [[ch '$', chan.toUInt8, (p.length / 256).toUInt8, p.length.toUInt8] ++ p.take (p.length % 65536)] (by simp) openBus idle_open
  cases r4 with
  | cons hx hn =>
    cases hn
    rename_i x
    obtain ⟨_, x2, x3, _⟩ := hx
    have hn : newData chan p = some { newMsg with type := .data, channel := chan, payload := p } := by
      unfold newData
      rw [if_neg (by have : W32 = 4294967296 := rfl; omega)]
    refine ⟨{ newMsg with type := .data, channel := chan, payload := p, cookie := nextCookie ck, isSealed := true, raw := some ([ch '$', chan.toUInt8, (p.length / 256).toUInt8, p.length.toUInt8] ++ p) },
      [ch '$', chan.toUInt8, (p.length / 256).toUInt8, p.length.toUInt8] ++ p, b, x, ?_, ?_, ?_, r2.state, r3, x2, x3, ?_⟩
    · show ((newData chan p).bind _).bind _ = _
      rw [hn]
      rfl
    · rfl
    · rw [Nat.add_comm 4]
      exact r1
    · rw [x3]
      intro e
      rw [← e, hl] at hp
      omega

example : ∃ p : List Byte, 65535 < p.length ∧ p.length % 65536 ≠ 0 := ⟨List.replicate 65537 0, by rw [List.length_replicate]; decide, by rw [List.length_replicate]; decide⟩

end Verif.Rtsp
