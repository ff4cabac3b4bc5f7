import Verif.Proof.RtspDef
import Verif.Proof.RtspSuffix
import Verif.Proof.RtspLog
/-!
# The RTSP receiver

C16 (chunking), C17 (consistency), C21 (cached header pointers, receiving side).
-/
namespace Verif.Rtsp
open Verif.C
open Spec (outcome)

/-- **C16 (partial).** However a stream is cut into reads, the receiver hands out the same messages, ends with the
same error or none, and is left in the same state. Missing from the full claim: a callback that returns
-EAGAIN, see `eagain_from_callback_loses_bytes`. -/
theorem chunking_irrelevant_partial (env : Env) (hA : ∀ log m, (env.H log m).1 ≠ -EAGAIN) (xs ys : List (List Byte))
    (h : xs.flatten = ys.flatten) :
    (reads env openBus xs).map outcome = (reads env openBus ys).map outcome := by
  rw [reads_run env hA xs openBus rfl, reads_run env hA ys openBus rfl, h]

/-- An allocator that never moves and a callback content with everything. -/
def quiet : Env := ⟨fun _ => false, fun _ _ => (0, 0)⟩

/-- Two messages and a data frame, as bytes. -/
def sampleStream : List Byte :=
  bytes "A b RTSP/1.0\r\nCSeq: 7\r\nContent-Length: 3\r\n\r\nxyz$" ++ [1, 0, 2, 65, 66] ++ bytes "RTSP/1.0 200 OK\r\nCSeq: 3\r\n\r\nC"

-- meets the hypothesis, delivers three messages, and the state is not trivial
example : (∀ log m, (quiet.H log m).1 ≠ -EAGAIN) ∧
    (reads quiet openBus [sampleStream]).map (fun r => (r.1, r.2.log.length, r.2.dec.ring)) = some (0, 3, bytes "C") :=
  ⟨fun _ _ => by show (0 : Int) ≠ -EAGAIN; decide, by decide +kernel⟩

/-- **C16, negation.** If a callback returns -EAGAIN the rest of the chunk is never looked at: of two messages in one
read only the first is delivered, in two reads both. -/
theorem eagain_from_callback_loses_bytes :
    ∃ (env : Env) (xs ys : List (List Byte)), xs.flatten = ys.flatten ∧
      (reads env openBus xs).map (fun r => (r.1, r.2.log.length)) = some (0, 1) ∧
      (reads env openBus ys).map (fun r => (r.1, r.2.log.length)) = some (0, 2) :=
  ⟨⟨fun _ => false, fun log _ => (if log = [] then -EAGAIN else 0, 0)⟩,
    [bytes "A b RTSP/1.0\n\nC d RTSP/1.0\n\n"], [bytes "A b RTSP/1.0\n\n", bytes "C d RTSP/1.0\n\n"],
    by decide, by decide +kernel, by decide +kernel⟩

/-- **C17 (partial).** Whatever arrives, in whatever pieces: if the receiver goes on, exactly the bytes in the ring have been looked
at and they are the last ones of the stream; if it stops, it is with an error of its own other than -EFAULT
and -EAGAIN, or with the error a callback returned for the last message. Missing: the run may be undefined, see `undefined_only_if_headers_moved_partial`. -/
theorem receiver_consistent_partial (env : Env) (hA : ∀ log m, (env.H log m).1 ≠ -EAGAIN) (xs : List (List Byte)) (r : Int) (b : Bus)
    (h : reads env openBus xs = some (r, b)) :
    (r = 0 ∧ b.dec.buflen = b.dec.ring.length ∧ b.dec.ring <:+ xs.flatten) ∨
    (r = -EINVAL ∨ r = -ENOMEM ∨ r = -EBUSY ∨ r = -ERANGE) ∨
    (r < 0 ∧ ∃ log m, b.log = log ++ [m] ∧ (env.H log m).1 = r) := by
  have hr := reads_run env hA xs openBus rfl
  rw [h] at hr
  cases hs : run env openBus xs.flatten with
  | none => rw [hs] at hr; cases hr
  | some s =>
    rw [hs] at hr
    simp only [Option.map_some, Option.some.injEq] at hr
    have h1 : r = s.1 := by
      have := congrArg Prod.fst hr
      rw [outcome_fst, outcome_fst] at this
      exact this
    have hlog : b.log = s.2.log := by
      have := congrArg (fun z => z.2.log) hr
      unfold outcome at this
      simp only at this
      rw [← h1] at this
      split at this
      · exact this
      · exact this
    by_cases h0 : 0 ≤ s.1
    · left
      have he := outcome_eq hr h0
      have hb : b = s.2 := congrArg Prod.snd he
      have hsy := run_sync env _ openBus s rfl hs h0
      have hsu := run_suffix env _ openBus s hs h0
      rw [hb]
      exact ⟨by rw [h1]; exact hsy.1, hsy.2, hsu⟩
    · right
      rcases run_code env _ openBus s hs with hc | ⟨hneg, log, m, hl, hc⟩
      · left
        rw [h1]
        rcases hc with hc | hc
        · omega
        · exact hc
      · exact Or.inr ⟨by omega, log, m, by rw [hlog]; exact hl, by rw [h1, hc]⟩

-- both kinds of outcome occur
example : (reads quiet openBus [bytes "A b RTSP/1.0\r\nContent-Length: x\r\n\r\n"]).map (fun r => r.1) = some (-EINVAL) ∧
    (reads quiet openBus [bytes "  A b RT", bytes "SP/1.0\r\nX"]).map (fun r => (r.1, r.2.dec.ring)) = some (0, bytes "X") :=
  ⟨by decide +kernel, by decide +kernel⟩

/-- **C17 (partial).** Every message handed out is sealed and marked as used; and if a callback fails, the message it failed for is the
last one handed out, and its error is what ends the stream. Missing: a callback returning -EAGAIN, see
`eagain_from_callback_loses_bytes`. -/
theorem callback_error_ends_stream_partial (env : Env) (hA : ∀ log m, (env.H log m).1 ≠ -EAGAIN) (xs : List (List Byte)) (r : Int) (b : Bus)
    (h : reads env openBus xs = some (r, b)) (l1 l2 : List Msg) (m : Msg) (hm : b.log = l1 ++ m :: l2) :
    m.isSealed = true ∧ m.isUsed = true ∧ ((env.H l1 m).1 < 0 → l2 = [] ∧ r = (env.H l1 m).1) := by
  have hr := reads_run env hA xs openBus rfl
  rw [h] at hr
  cases hs : run env openBus xs.flatten with
  | none => rw [hs] at hr; cases hr
  | some s =>
    rw [hs] at hr
    simp only [Option.map_some, Option.some.injEq] at hr
    have h1 : r = s.1 := by
      have := congrArg Prod.fst hr
      rw [outcome_fst, outcome_fst] at this
      exact this
    have hlog : b.log = s.2.log := by
      have := congrArg (fun z => z.2.log) hr
      unfold outcome at this
      simp only at this
      rw [← h1] at this
      split at this
      · exact this
      · exact this
    have := run_log env _ openBus s (by intro a b c e; cases a <;> cases e) hs l1 m l2 (by rw [← hlog, hm])
    rw [h1]
    exact this

-- of three messages in one read the callback refuses the second with -ENOENT: that one is the last delivered
example : (reads ⟨fun _ => false, fun log _ => (if log.length = 1 then -ENOENT else 0, 0)⟩ openBus
      [bytes "A b RTSP/1.0\n\nC d RTSP/1.0\n\nE f RTSP/1.0\n\n"]).map (fun r => (r.1, r.2.log.length, r.2.log.map (fun m => m.isUsed)))
    = some (-ENOENT, 2, [true, true]) := by decide +kernel

/-- **C17, C21 (partial).** The receiver reads no uninitialised byte and follows no stale header pointer, unless a message has at
least 62 header lines and the allocator moves a header array of 64 or more entries when it grows it. -/
theorem undefined_only_if_headers_moved_partial (env : Env) (hA : ∀ log m, (env.H log m).1 ≠ -EAGAIN) (xs : List (List Byte))
    (h : reads env openBus xs = none) :
    (∃ c, 64 ≤ c ∧ env.mv c = true) ∧
    ∃ pre c post b m, xs.flatten = pre ++ c :: post ∧ reads env openBus [pre] = some (0, b) ∧ b.dec.m = some m ∧ 62 ≤ m.headers.length := by
  have hr := reads_run env hA xs openBus rfl
  rw [h] at hr
  cases hs : run env openBus xs.flatten with
  | some s => rw [hs] at hr; cases hr
  | none =>
    obtain ⟨pre, c, post, b, h1, h2, ⟨m, h3, h4⟩, h5⟩ := run_def env _ openBus rfl (PInv.none rfl) hs
    refine ⟨h5, pre, c, post, b, m, h1, ?_, h3, h4⟩
    have := reads_run env hA [pre] openBus rfl
    rw [show [pre].flatten = pre from by simp, h2] at this
    cases hq : reads env openBus [pre] with
    | none => rw [hq] at this; cases this
    | some q =>
      rw [hq] at this
      simp only [Option.map_some, Option.some.injEq] at this
      rw [outcome_eq this (Int.le_refl 0)]

/-- A request with a CSeq header and `n` others. -/
def manyHeaders (n : Nat) : List Byte :=
  bytes "A b RTSP/1.0\nCSeq:1\n" ++ (List.replicate n (bytes "a\n")).flatten ++ [10]

/-- **C21, negation.** A peer can send a request with 65 headers; if the allocator moves the array, the receiver then writes
through a pointer into freed memory. With 64 headers the message arrives. -/
theorem stale_pointer_reachable :
    ∃ env : Env, (∀ log m, (env.H log m).1 = 0) ∧ reads env openBus [manyHeaders 64] = none ∧
      (reads env openBus [manyHeaders 63]).map (fun r => (r.1, r.2.log.map (fun m => m.headers.length))) = some (0, [64]) :=
  ⟨⟨fun _ => true, fun _ _ => (0, 0)⟩, fun _ _ => rfl, by decide +kernel, by decide +kernel⟩

end Verif.Rtsp
