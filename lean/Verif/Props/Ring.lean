import Verif.Proof.Ring
/-! # C01, C02, C03 – the ring buffer is a FIFO byte queue -/
namespace Verif.Ring
open Verif.C

/-- **C01.** For every sequence of API calls on a zeroed ring, with any pattern of
allocation failures and any junk in fresh memory: all calls are defined, return a
documented code, and what the ring shows (through `peek`) and its reported size are
those of the ideal queue. -/
theorem ring_is_fifo (ops : List Op) (hfit : Fits ops) :
    ∃ r codes, run zero ops = some (r, codes) ∧ codes.length = ops.length ∧
      (∀ p ∈ ops.zip codes, Spec.codeOk p.1 p.2) ∧
      observe r = some (Spec.after [] (ops.zip codes)) ∧
      r.used = (Spec.after [] (ops.zip codes)).length := by
  obtain ⟨r, cs, e, hl, hc, hs⟩ := sim_run ops sim_zero (by simpa [Fits] using hfit)
  exact ⟨r, cs, e, hl, hc, (sim_observe hs).1, hs.qlen.symm⟩

/-- **C01**, the `-ENOMEM` side: when `malloc` never fails no call fails. -/
theorem ring_push_succeeds_with_memory (ops : List Op) (hfit : Fits ops)
    (hm : ∀ d m, Op.push d m ∈ ops → m ≠ none) :
    ∃ r codes, run zero ops = some (r, codes) ∧ (∀ c ∈ codes, c = 0) := by
  obtain ⟨r, cs, e, hl, hc, -⟩ := sim_run ops sim_zero (by simpa [Fits] using hfit)
  refine ⟨r, cs, e, ?_⟩
  intro c hcm
  obtain ⟨i, hi, rfl⟩ := List.getElem_of_mem hcm
  have hz : (ops[i]'(by omega), cs[i]) ∈ ops.zip cs := by
    rw [List.mem_iff_getElem]; exact ⟨i, by simp; omega, by simp⟩
  have := hc _ hz
  have hmem : ops[i]'(by omega) ∈ ops := List.getElem_mem _
  generalize ops[i]'(by omega) = o at *
  cases o with
  | push d m => rcases this with h | ⟨-, h⟩
                · exact h
                · exact absurd h (hm d m hmem)
  | _ => exact this

/-- **C02.** In every reachable state `peek` fills at most two non-empty segments
inside the buffer whose concatenation is the queue, and `copy n` delivers its first
`n` bytes. -/
theorem ring_peek_copy (ops : List Op) (hfit : Fits ops) (n : Nat) :
    ∃ r codes, run zero ops = some (r, codes) ∧
      (let q := Spec.after [] (ops.zip codes)
       observe r = some q ∧ (peek r).length ≤ 2 ∧ (∀ p ∈ peek r, 0 < p.2) ∧
       copy r n = some (q.take n)) := by
  obtain ⟨r, cs, e, hl, hc, hs⟩ := sim_run ops sim_zero (by simpa [Fits] using hfit)
  have ho := sim_observe hs
  exact ⟨r, cs, e, ho.1, ho.2.1, fun p hp => (ho.2.2 p hp).1, sim_copy n hs⟩

/-- **C03.** No sequence of calls reaches undefined behaviour (out-of-bounds copy or
oversized shift); capacity is zero or a power of two, offsets stay inside the block
that was allocated. -/
theorem ring_memory_safe (ops : List Op) (hfit : Fits ops) (n : Nat) :
    ∃ r codes, run zero ops = some (r, codes) ∧ (copy r n).isSome ∧
      r.buf.length = r.size ∧ (r.size = 0 ∨ ∃ k, r.size = 2 ^ k) ∧
      r.used ≤ r.size ∧ (r.start < r.size ∨ r.start = 0) ∧
      (∀ p ∈ peek r, p.1 + p.2 ≤ r.buf.length) := by
  obtain ⟨r, cs, e, hl, hc, hs⟩ := sim_run ops sim_zero (by simpa [Fits] using hfit)
  have ho := sim_observe hs
  refine ⟨r, cs, e, by simp [sim_copy n hs], hs.len, ?_, hs.used, ?_, ?_⟩
  · rcases hs.pow with h | ⟨k, -, h⟩
    · exact Or.inl h
    · exact Or.inr ⟨k, h⟩
  · have := hs.start; omega
  · intro p hp; rw [hs.len]; exact (ho.2.2 p hp).2

/-- The size bound of C01–C03 is needed: the documented "overflow ⇒ 0" result of
`SHL_ALIGN_POWER2` (`shl_macro.h:136`) is not what the code computes – both for 0 and
for sizes above `2^63` it shifts by the full word width, which is undefined. -/
theorem align_pow2_overflow_undefined :
    alignPow2 0 = none ∧ alignPow2 (2 ^ 63 + 1) = none := by
  constructor
  · decide
  · have h : Nat.log2 (2 ^ 63) = 63 := Nat.log2_two_pow
    have e : (2 ^ 63 + 1 + W64 - 1) % W64 = 2 ^ 63 := by decide
    unfold alignPow2
    rw [if_neg (by decide)]
    simp only [e, h]
    decide

-- A non-trivial history meeting the hypotheses: growth, wrap-around, failed malloc.
example : Fits [.push [1, 2, 3] (some fun _ => 7), .pull 2, .push [4] none, .flush,
    .push (List.replicate 5000 9) none, .clear] := by
  unfold Fits; decide +kernel

-- … and its actual outcome: the second push finds room, so its failing malloc is not called;
-- the third needs to grow a wrapped, partly filled ring and fails without any effect.
example : (run zero [.push [1, 2, 3] (some fun _ => 7), .pull 2, .push [4, 5] none,
      .push (List.replicate 4096 9) none]).map (fun (r, cs) => (observe r, r.size, cs)) =
    some (some [3, 4, 5], 4096, [0, 0, 0, -12]) := by decide +kernel

-- wrap-around really happens: two segments
example : (run zero [.push (List.replicate 4000 1) (some fun _ => 7), .pull 3999,
      .push (List.replicate 100 2) none]).map (fun (r, cs) => (peek r, cs)) =
    some ([(3999, 97), (0, 4)], [0, 0, 0]) := by decide +kernel

end Verif.Ring
