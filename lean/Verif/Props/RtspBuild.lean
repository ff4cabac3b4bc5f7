import Verif.Proof.RtspNestRun
/-!
# Building an RTSP message

C25: nesting of the calls that build a message, refused calls, sealed messages. C21 (building side): the
cached header pointers.
-/
namespace Verif.Rtsp
open Verif.C
open Spec (Doc Build Made Look)

/-- A message for the examples. -/
def sampleMsg : Msg := { newMsg with type := .request, method := bytes "SETUP", uri := bytes "*" }

theorem sampleMsg_made : Made sampleMsg := .request (bytes "SETUP") (bytes "*") _ rfl

/-- Calls for the examples: right, wrong, sealed. -/
def sampleCalls : List Build :=
  [.line (bytes "Require: org.wfa.wfd1.0"), .openHeader (bytes "Session"), .openHeader (bytes "Inner"), .openBody,
   .append [.str (bytes "a b"), .u32 7, .raw (bytes "x"), .headerEnd], .finish, .closeHeader, .closeHeader,
   .openBody, .append [.headerStart (bytes "p"), .raw (bytes "1 2")], .append [.bodyEnd], .append [.headerEnd, .bodyEnd],
   .closeBody, .cookie 5, .finish, .cookie 6, .openHeader (bytes "late"), .append [], .finish]

/-- **C25 (return values).** On a message from any constructor (no data frame), any sequence of calls returns exactly what the nesting
rules of the document say: a header opens outside of headers, the body outside of headers and the body, only what is open is closed, tokens
and values go into an open header, sealing needs everything closed; after sealing the message is busy. -/
theorem construction_follows_nesting (mv : Moves) (ck : Nat) (m : Msg) (hm : Made m) (bs : List Build) (r : List Int × Nat × Msg)
    (h : Spec.calls mv (ck, m) bs = some r) : r.1 = Spec.expectAll false Doc.empty bs ∧ r.2.2.isSealed = Spec.finished Doc.empty bs := by
  rcases build_calls mv bs ck _ m (made_building mv m hm) with ⟨s, h1, h2, _⟩ | ⟨h1, _⟩
  · rw [h1] at h; cases h; exact ⟨rfl, h2⟩
  · rw [h1] at h; cases h

example : (Spec.calls (fun _ => true) (0, sampleMsg) sampleCalls).map (·.1) =
    some [0, 0, -EINVAL, -EINVAL, -EINVAL, -EINVAL, 0, -EINVAL, 0, 0, -EINVAL, 0, -EINVAL, 0, 0, -EBUSY, -EBUSY, -EBUSY, 0] := by decide +kernel

/-- **C25 (contents).** While the message is not sealed it holds exactly the document the accepted calls have written. -/
theorem construction_writes_document (mv : Moves) (ck : Nat) (m : Msg) (hm : Made m) (bs : List Build) (r : List Int × Nat × Msg)
    (h : Spec.calls mv (ck, m) bs = some r) (hf : Spec.finished Doc.empty bs = false) : Spec.Holds (Spec.document Doc.empty bs) r.2.2 := by
  rcases build_calls mv bs ck _ m (made_building mv m hm) with ⟨s, h1, _, h2⟩ | ⟨h1, _⟩
  · rw [h1] at h; cases h; exact (h2 hf).holds
  · rw [h1] at h; cases h

example : Spec.finished Doc.empty (sampleCalls.take 10) = false ∧
    Spec.document Doc.empty (sampleCalls.take 10) =
      ⟨[⟨bytes "Require", [bytes "org.wfa.wfd1.0"], bytes "Require: org.wfa.wfd1.0\r\n"⟩,
        ⟨bytes "Session", [bytes "a b", bytes "7"], bytes "Session: \"a b\" 7\r\n"⟩], [], true,
       some ⟨bytes "p", [bytes "1", bytes "2"], some (bytes "1 2")⟩⟩ := by decide +kernel

/-- **C25 (refused calls).** A call that fails changes nothing, before and after sealing; only a call of `rtsp_message_append` with several
arguments may have done the arguments before the refused one (`refused_append_keeps_prefix`). -/
theorem refused_call_changes_nothing (mv : Moves) (ck : Nat) (m : Msg) (hm : Made m) (bs : List Build) (r : List Int × Nat × Msg)
    (h : Spec.calls mv (ck, m) bs = some r) (b : Build) (c : Int) (s : Nat × Msg) (hb : Spec.call mv r.2 b = some (c, s)) (hc : c ≠ 0)
    (h1 : ∀ as, b = .append as → as.length ≤ 1) : s = r.2 := by
  rcases build_calls mv bs ck _ m (made_building mv m hm) with ⟨q, e1, e2, e3⟩ | ⟨e1, _⟩
  · rw [e1] at h
    cases h
    cases hf : Spec.finished Doc.empty bs with
    | false =>
      rcases build_call mv q.1 _ q.2 b (e3 hf) with ⟨ck', m', i1, _, i2⟩ | ⟨_, _, _, _, i1⟩
      · rw [i1] at hb
        cases hb
        obtain ⟨a1, a2⟩ := i2 hc h1
        rw [a1, a2]
      · rename_i hfin _ _ _
        subst hfin
        have hb : sealMsg mv q.1 q.2 = some (c, s) := hb
        rw [i1] at hb; cases hb
    | true =>
      rw [hf] at e2
      have hs := sealed_call_any mv q.1 q.2 b e2
      rcases hs with ⟨c', hs⟩
      have hb : Spec.call mv (q.1, q.2) b = some (c, s) := hb
      rw [hs] at hb
      cases hb
      rfl
  · rw [e1] at h; cases h

example : ∃ r, Spec.calls (fun _ => true) (0, sampleMsg) (sampleCalls.take 10) = some r ∧
    Spec.call (fun _ => true) r.2 .closeBody = some (-EINVAL, r.2) := by
  refine ⟨((Spec.calls (fun _ => true) (0, sampleMsg) (sampleCalls.take 10)).getD ([], 0, sampleMsg)), ?_, ?_⟩ <;> decide +kernel

/-- **C25 (refused arguments).** If `rtsp_message_append` fails, the arguments before the refused one were taken, nothing else. -/
theorem refused_append_keeps_prefix (mv : Moves) (ck : Nat) (m : Msg) (hm : Made m) (bs : List Build) (r : List Int × Nat × Msg)
    (h : Spec.calls mv (ck, m) bs = some r) (hf : Spec.finished Doc.empty bs = false) (as : List Arg) (c : Int) (m' : Msg)
    (ha : append mv r.2.2 as = some (c, m')) (hc : c ≠ 0) :
    c = -EINVAL ∧ ∃ pre a post, as = pre ++ a :: post ∧ append mv r.2.2 pre = some (0, m') ∧ appendBasic mv m' a = some (-EINVAL, m') := by
  rcases build_calls mv bs ck _ m (made_building mv m hm) with ⟨q, e1, e2, e3⟩ | ⟨e1, _⟩
  · rw [e1] at h
    cases h
    exact append_prefix mv as _ q.2 (e3 hf) c m' ha hc
  · rw [e1] at h; cases h

example : (append (fun _ => true) sampleMsg [.headerStart (bytes "A"), .str (bytes "x"), .bodyStart, .headerEnd]).map (·.1) = some (-EINVAL) ∧
    (append (fun _ => true) sampleMsg [.headerStart (bytes "A"), .str (bytes "x"), .bodyStart, .headerEnd]).map (·.2) =
    (append (fun _ => true) sampleMsg [.headerStart (bytes "A"), .str (bytes "x")]).map (·.2) := by decide +kernel

/-- **C25 (sealed).** Once sealed, whatever is called, for building or for reading, nothing is undefined and nothing of the message changes but the
position of its reader; in particular the raw bytes stay. -/
theorem sealed_for_good (mv : Moves) (m : Msg) (hs : m.isSealed = true) (os : List (Build ⊕ Look)) (ck : Nat) :
    ∃ n : Msg, Spec.mixed mv (ck, m) os = some (ck, n) ∧
      { n with iterBody := m.iterBody, iterHeader := m.iterHeader, iterToken := m.iterToken } = m := by
  induction os generalizing m with
  | nil => exact ⟨m, rfl, rfl⟩
  | cons o t ih =>
    cases o with
    | inl b =>
      obtain ⟨c, hc⟩ := sealed_call_any mv ck m b hs
      obtain ⟨n, h1, h2⟩ := ih m hs
      exact ⟨n, by simp only [Spec.mixed, hc, Option.bind_some, h1], h2⟩
    | inr l =>
      have hl := look_same m l
      have hs' : (Spec.look m l).isSealed = true := by
        have := congrArg Msg.isSealed hl
        simpa using this.trans hs
      obtain ⟨n, h1, h2⟩ := ih _ hs'
      refine ⟨n, h1, ?_⟩
      unfold SameBut at hl
      rw [← hl, ← h2]

/-- Every building call on a sealed message is refused (sealing again is no error and no change). -/
theorem sealed_refuses (mv : Moves) (ck : Nat) (m : Msg) (hs : m.isSealed = true) (ht : m.type ≠ .data) (b : Build) :
    Spec.call mv (ck, m) b = some (Spec.expectSealed b, ck, m) := sealed_call mv ck m b hs ht

example : (Spec.calls (fun _ => true) (0, sampleMsg) sampleCalls).map (fun r => (r.2.2.isSealed, r.2.2.raw)) =
    some (true, some (bytes ("SETUP * RTSP/1.0\r\nRequire: org.wfa.wfd1.0\r\nSession: \"a b\" 7\r\n" ++
      "Content-Length: 8\r\nContent-Type: text/parameters\r\nCSeq: 5\r\n\r\np: 1 2\r\n"))) := by decide +kernel

/-- **C25 (data frames).** A data frame takes no headers and no body at any time; it can be given a cookie until it is sealed. -/
theorem frame_follows_rules (mv : Moves) (ck channel : Nat) (payload : List Byte) (m : Msg) (hm : newData channel payload = some m) (bs : List Build) :
    ∃ s, Spec.calls mv (ck, m) bs = some (Spec.expectFrame false bs, s) := by
  unfold newData at hm
  split at hm
  · cases hm
  · cases hm
    obtain ⟨s, h, _⟩ := frame_calls mv bs ck { newMsg with type := .data, channel := channel, payload := payload } rfl (Or.inr ⟨rfl, rfl⟩)
    exact ⟨s, h⟩

example : Spec.expectFrame false [.line (bytes "a: b"), .cookie 3, .finish, .cookie 4, .openBody, .finish] =
    [-EINVAL, 0, 0, -EBUSY, -EINVAL, 0] := by decide

/-- **C21 (building side), partial.** Building never touches memory that is gone, unless a message with at least 63 headers is sealed and
the allocator moves an array of at least 64 headers. Missing: 63 and more headers (`many_headers_undefined`). -/
theorem construction_defined_partial (mv : Moves) (ck : Nat) (m : Msg) (hm : Made m) (bs : List Build)
    (h : Spec.calls mv (ck, m) bs = none) :
    (∃ c, 64 ≤ c ∧ mv c = true) ∧
    ∃ pre post q, bs = pre ++ .finish :: post ∧ Spec.calls mv (ck, m) pre = some q ∧ Spec.finished Doc.empty pre = false ∧
      63 ≤ q.2.2.headers.length := by
  rcases build_calls mv bs ck _ m (made_building mv m hm) with ⟨s, h1, _⟩ | ⟨_, pre, post, q, h1, h2, h3, h4⟩
  · rw [h1] at h; cases h
  · exact ⟨h4.2, pre, post, q, h1, h2, h3, h4.1⟩

/-- With a moving allocator, a message whose CSeq was set by the user followed by 64 headers is sealed through a dangling pointer. -/
theorem many_headers_undefined :
    Spec.calls (fun _ => true) (0, sampleMsg)
      (.line (bytes "CSeq: 1") :: List.replicate 64 (.line (bytes "X: y")) ++ [.finish]) = none := by decide +kernel

/-- With an allocator that grows in place it is fine. -/
example : (Spec.calls (fun _ => false) (0, sampleMsg)
      (.line (bytes "CSeq: 1") :: List.replicate 64 (.line (bytes "X: y")) ++ [.finish])).isSome = true := by decide +kernel

end Verif.Rtsp
