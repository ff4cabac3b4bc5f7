import Verif.Spec.Sink
import Verif.Spec.RtspWire
/-!
# A Wi-Fi Display session from the side of the source

What a source says to a sink to bring up a session, as items of the message API, and the words in them.
-/
namespace Verif.Session.Spec
open Verif.C
open Verif.Rtsp (Msg)
open Verif.Rtsp.Spec (Hdr Item)

/-- The words of the first header with this name, in any case. -/
def words (hs : List Hdr) (name : List Byte) : Option (List (List Byte)) := (hs.find? fun h => caseEq h.1 name).map (·.2)

/-- The first of them. -/
def first (hs : List Hdr) (name : String) : Option (List Byte) := (words hs (bytes name)).bind List.head?

/-- What a reader gets of the video formats: four words skipped, three hexadecimal numbers. -/
def readMasks (bs : List Hdr) : Option (Int × List Rtsp.Val) :=
  match words bs (bytes "wfd_video_formats") with
  | none => some (-ENOENT, [])
  | some ts => Rtsp.Spec.values [.skip, .skip, .skip, .skip, .hex, .hex, .hex] ts

/-- The masks of the video formats: nothing usable, or three numbers; the outer `none` is a number out of range. -/
def masks (bs : List Hdr) : Option (Option (Nat × Nat × Nat)) :=
  (readMasks bs).map fun r =>
    match r with
    | (0, [.nat c, .nat v, .nat h]) => some (c, v, h)
    | _ => none

/-- A request of the source without its method. -/
structure Ask where
  uri : List Byte
  hs : List Hdr
  bs : List Hdr

/-- A reply of the source without its number. -/
structure Answer where
  code : Nat
  phrase : List Byte
  hs : List Hdr
  bs : List Hdr

/-- The messages of a source: M1, its answer to M2, M3, M4, M5 and its answer to M6. -/
structure Script where
  m1 : Ask
  m2 : Answer
  m3 : Ask
  m4 : Ask
  m5 : Ask
  m6 : Answer

/-- The items of the message API; the sink's own two requests have the numbers after `n`. -/
def Script.items (k : Script) (n : Nat) : List Item :=
  [.request (bytes "OPTIONS") k.m1.uri k.m1.hs k.m1.bs,
   .reply (n + 1) k.m2.code k.m2.phrase k.m2.hs k.m2.bs,
   .request (bytes "GET_PARAMETER") k.m3.uri k.m3.hs k.m3.bs,
   .request (bytes "SET_PARAMETER") k.m4.uri k.m4.hs k.m4.bs,
   .request (bytes "SET_PARAMETER") k.m5.uri k.m5.hs k.m5.bs,
   .reply (n + 2) k.m6.code k.m6.phrase k.m6.hs k.m6.bs]

/-- A source that keeps to the order of the standard: M4 names the URL `u` and the masks `f`, at least one of which has a bit of the tables, and does not trigger; M5 triggers SETUP and names neither; the answer to
SETUP names the session `w`; neither M4 nor M5 is about remote input. -/
structure Orderly (k : Script) (u : List Byte) (f : Nat × Nat × Nat) (w : List Byte) : Prop where
  url : first k.m4.bs "wfd_presentation_URL" = some u
  formats : masks k.m4.bs = some (some f)
  usable : ¬ (Wfd.Spec.Nothing Wfd.Spec.cea f.1 ∧ Wfd.Spec.Nothing Wfd.Spec.vesa f.2.1 ∧ Wfd.Spec.Nothing Wfd.Spec.hh f.2.2)
  quiet4 : first k.m4.bs "wfd_trigger_method" ≠ some (bytes "SETUP")
  trigger : first k.m5.bs "wfd_trigger_method" = some (bytes "SETUP")
  nourl : first k.m5.bs "wfd_presentation_URL" = none
  noformats : masks k.m5.bs = some none
  uibc4 : words k.m4.bs (bytes "wfd_uibc_capability") = none
  uibc5 : words k.m5.bs (bytes "wfd_uibc_capability") = none
  session : first k.m6.hs "Session" = some w

/-- A parameter asked for. -/
def asks (bs : List Hdr) (name : List Byte) : Bool := name ≠ [] ∧ (words bs name).isSome

/-- Everything the sink will answer fits its buffer. -/
def Fits (c : Sink.Cfg) (bs : List Hdr) : Prop :=
  ∀ name v, asks bs name = true → Sink.Spec.supported c name = some v → (name ++ bytes ": " ++ v).length < 512

/-- `L` is one line for each parameter asked for that the sink supports, and nothing else. -/
def Answers (c : Sink.Cfg) (bs : List Hdr) (L : List (List Byte × List Byte)) : Prop :=
  ∀ name, L.filter (fun p => decide (p.1 = name)) = if asks bs name then ((Sink.Spec.supported c name).map fun v => (name, v)).toList else []

/-- What the sink has to send and report: `n` is its counter of requests, `ck` that of the source. -/
def expected (c : Sink.Cfg) (n ck : Nat) (L : List (List Byte × List Byte)) (u w : List Byte) (x y : Nat) : List Sink.Out :=
  [.sent (Sink.Spec.ok (ck + 1) [bytes "Public: \"org.wfa.wfd1.0, GET_PARAMETER, SET_PARAMETER\""] []),
   .sent (Sink.Spec.call (bytes "OPTIONS") (bytes "*") (bytes "Require: org.wfa.wfd1.0") (n + 1)),
   .sent (Sink.Spec.ok (ck + 2) [] (L.map fun p => p.1 ++ bytes ": " ++ p.2)),
   .sent (Sink.Spec.ok (ck + 3) [] []),
   .resolution x y,
   .sent (Sink.Spec.ok (ck + 4) [] []),
   .sent (Sink.Spec.call (bytes "SETUP") u (bytes "Transport: RTP/AVP/UDP;unicast;client_port=" ++ decInt c.port) (n + 2)),
   .sent (Sink.Spec.call (bytes "PLAY") u (bytes "Session: " ++ Sink.Spec.quoted (w.takeWhile (· ≠ ch ';'))) (n + 3))]

/-- How a message received reaches the sink: replies go to the callback of the request with their number, all else to `sink_rtsp_fn`. -/
def event (x : Msg) : Sink.Ev := if x.type = .reply then .reply (x.cookie % 9223372036854775808) (some x) else .msg x

end Verif.Session.Spec
