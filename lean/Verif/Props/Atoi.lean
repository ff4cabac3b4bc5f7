import Verif.Proof.Atoi
/-!
# C04, C05, C64 (multiplication part) – integer parsing

The specification (`Verif.Spec.Atoi`) is positional notation: `Spec.number s base` is
the number written at the start of `s`, `Spec.stop s base` the offset where it ends.
-/
namespace Verif.Atoi
open Verif.C Verif.Mult

/-- **C04, the full claim, is false.** The parser reports success for a number that does
not fit, with a wrong value: the last addition overflows and is silently dropped
(`shl_util.c:144-146` lacks the error branch). -/
theorem atoi_success_is_exact_refuted :
    ¬ ∀ (s : List Byte) (base : Nat), base ≤ 36 → (atoiUlln s base).code = 0 →
      (atoiUlln s base).out = Spec.number s base := by
  intro h
  have := h (bytes "18446744073709551616") 10 (by decide) (by decide +kernel)
  revert this; decide +kernel

/-- **C04 (exact behaviour).** For every string and every base up to 36 the outcome is one of
exactly three, decided by the number written: it fits and is returned; it does not fit
but did before its last digit was added – then the last digit is silently dropped (the
defect); otherwise `ERANGE` with the maximum. -/
theorem atoi_outcome (s : List Byte) (base : Nat) (hb : base ≤ 36) :
    (Spec.number s base < W64 → (atoiUlln s base).code = 0 ∧
        (atoiUlln s base).out = Spec.number s base) ∧
    (W64 ≤ Spec.number s base → Spec.number s base - Spec.lastDigit s base < W64 →
        (atoiUlln s base).code = 0 ∧
        (atoiUlln s base).out = Spec.number s base - Spec.lastDigit s base) ∧
    (W64 ≤ Spec.number s base - Spec.lastDigit s base →
        (atoiUlln s base).code = -ERANGE ∧ (atoiUlln s base).out = W64 - 1) := by
  have h := (atoiUlln_spec s base hb).2
  refine ⟨?_, ?_, ?_⟩ <;> intros <;> omega

/-- **C04 (partial).** Success means the exact number, provided the number is not in the window
`[2^64, 2^64 + last digit]`.  Missing from the full claim: exactly that window. -/
theorem atoi_success_is_exact_partial (s : List Byte) (base : Nat) (hb : base ≤ 36)
    (hw : Spec.number s base < W64 ∨ W64 ≤ Spec.number s base - Spec.lastDigit s base) :
    ((atoiUlln s base).code = 0 ∧ (atoiUlln s base).out = Spec.number s base ∧
      Spec.number s base < W64) ∨
    ((atoiUlln s base).code = -ERANGE ∧ (atoiUlln s base).out = W64 - 1 ∧
      W64 ≤ Spec.number s base) := by
  have h := (atoiUlln_spec s base hb).2
  omega

-- the hypotheses are met by both kinds of input
example : Spec.number (bytes "0x7fz") 0 = 127 ∧ Spec.number (bytes "755") 8 = 493 ∧
    Spec.number (bytes "zZ") 36 = 1295 := by decide +kernel
example : W64 ≤ Spec.number (bytes "99999999999999999999") 10 -
    Spec.lastDigit (bytes "99999999999999999999") 10 := by decide +kernel
example : atoiUlln (bytes "0x7fz") 0 = ⟨0, 4, 127⟩ := by decide +kernel

/-- a base above 36 is rejected without consuming anything -/
theorem atoi_bad_base (s : List Byte) (base : Nat) (hb : 36 < base) :
    atoiUlln s base = ⟨-EINVAL, 0, 0⟩ := by
  unfold atoiUlln; rw [if_pos hb]

example : (36 : Nat) < 37 := by decide

/-- **C05.** The end position is where the number written ends, whether or not it fits, and never
beyond the given length. -/
theorem atoi_next (s : List Byte) (base : Nat) (hb : base ≤ 36) :
    (atoiUlln s base).next = Spec.stop s base ∧ (atoiUlln s base).next ≤ s.length := by
  have h := (atoiUlln_spec s base hb).1
  refine ⟨h, ?_⟩
  rw [h]
  unfold Spec.stop
  have h1 := digits_length_le (Spec.effBase s base).2 (s.drop (Spec.effBase s base).1)
  have h2 := effBase_le s base
  simp only [List.length_drop] at h1
  simp only; omega

/-- **C05.** `Spec.stop` really is the end of the longest digit run: every byte before it
(after the base prefix) is a digit of the base, the byte at it is not. -/
theorem stop_is_longest_run (s : List Byte) (base : Nat) :
    (∀ i, (Spec.effBase s base).1 ≤ i → i < Spec.stop s base →
      ∃ c, s[i]? = some c ∧ (Spec.digit (Spec.effBase s base).2 c).isSome) ∧
    (∀ c, s[Spec.stop s base]? = some c → Spec.digit (Spec.effBase s base).2 c = none) := by
  have key : ∀ (b : Nat) (t : List Byte),
      (∀ i, i < (Spec.digits b t).length → ∃ c, t[i]? = some c ∧ (Spec.digit b c).isSome) ∧
      (∀ c, t[(Spec.digits b t).length]? = some c → Spec.digit b c = none) := by
    intro b t
    induction t with
    | nil => simp [Spec.digits]
    | cons c t ih =>
      unfold Spec.digits
      cases hd : Spec.digit b c with
      | none => simp [hd]
      | some v =>
        simp only [List.length_cons]
        refine ⟨?_, ?_⟩
        · intro i hi
          cases i with
          | zero => exact ⟨c, by simp, by simp [hd]⟩
          | succ i => simpa using ih.1 i (by omega)
        · intro c' hc'; exact ih.2 c' (by simpa using hc')
  have hk := key (Spec.effBase s base).2 (s.drop (Spec.effBase s base).1)
  unfold Spec.stop
  simp only
  refine ⟨?_, ?_⟩
  · intro i h1 h2
    obtain ⟨c, hc, hd⟩ := hk.1 (i - (Spec.effBase s base).1) (by omega)
    rw [List.getElem?_drop, show (Spec.effBase s base).1 + (i - (Spec.effBase s base).1) = i by omega] at hc
    exact ⟨c, hc, hd⟩
  · intro c hc
    exact hk.2 c (by rw [List.getElem?_drop]; exact hc)

example : Spec.stop (bytes "0x7fz") 0 = 4 ∧ Spec.stop (bytes "08") 0 = 2 ∧
    Spec.stop (bytes "0x") 0 = 1 := by decide +kernel

/-- **C05 (narrow variants).** The narrower parsers succeed exactly when the 64-bit parser does and
its value fits; then value and position agree; otherwise the value is clamped to the
maximum of the type. -/
theorem atoi_narrow (s : List Byte) (base : Nat) :
    let wide := atoiUlln s base
    let n := atoiUn s base
    n.next = wide.next ∧
    (0 ≤ n.code ↔ 0 ≤ wide.code ∧ wide.out < W32) ∧
    (0 ≤ n.code → n.out = wide.out) ∧ (wide.out ≥ W32 → n.out = W32 - 1) ∧
    atoiUln s base = wide ∧ atoiZn s base = wide := by
  have hwide : (atoiUlln s base).out < W64 := by
    by_cases hb : base ≤ 36
    · have := (atoiUlln_spec s base hb).2; have h64 : W64 = 18446744073709551616 := rfl; omega
    · rw [atoi_bad_base s base (by omega)]; decide
  have h32 : W32 = 4294967296 := rfl
  have h64 : W64 = 18446744073709551616 := rfl
  have hw : narrow (W64 - 1) (atoiUlln s base) = atoiUlln s base := by
    unfold narrow
    have h1 : ¬ (atoiUlln s base).out > W64 - 1 := by omega
    have h2 : (atoiUlln s base).out.min (W64 - 1) = (atoiUlln s base).out := Nat.min_eq_left (by omega)
    simp [h1, h2]
  refine ⟨rfl, ?_, ?_, ?_, hw, hw⟩
  · unfold atoiUn narrow ERANGE
    simp only
    split <;> omega
  · unfold atoiUn narrow ERANGE
    simp only
    intro h
    exact Nat.min_eq_left (by split at h <;> omega)
  · unfold atoiUn narrow
    intro h
    exact Nat.min_eq_right (by omega)

example : atoiUn (bytes "4294967296") 10 = ⟨-34, 10, 4294967295⟩ ∧
    atoiUn (bytes "4294967295") 10 = ⟨0, 10, 4294967295⟩ := by decide +kernel

/-- **C64 (multiplication).** All checked multiplications fail with `ERANGE`, leaving the operand
alone, exactly when the product does not fit, and store the product otherwise. -/
theorem mult_exact (v f : Nat) :
    (v < W64 → multUll v f = if v * f < W64 then (0, v * f) else (-ERANGE, v)) ∧
    (v < W32 → f < W32 → multU32 v f = if v * f < W32 then (0, v * f) else (-ERANGE, v)) ∧
    (v < 65536 → f < 65536 → multU16 v f = if v * f < 65536 then (0, v * f) else (-ERANGE, v)) ∧
    (v < 256 → f < 256 → multU8 v f = if v * f < 256 then (0, v * f) else (-ERANGE, v)) := by
  have up : ∀ m w : Nat, w = m * m → v < m → f < m →
      upcastMult w (m - 1) v f = if v * f < m then (0, v * f) else (-ERANGE, v) := by
    intro m w hw hv hf
    have h1 : v * f < w := by
      rw [hw]; exact Nat.lt_of_le_of_lt (Nat.mul_le_mul_left v (Nat.le_of_lt hf)) (Nat.mul_lt_mul_of_pos_right hv (by omega))
    unfold upcastMult
    simp only [Nat.mod_eq_of_lt h1]
    by_cases h : v * f < m
    · rw [if_pos h, if_pos (by omega), Nat.mod_eq_of_lt (by omega)]
    · rw [if_neg h, if_neg (by omega)]
  refine ⟨?_, ?_, ?_, ?_⟩
  · intro _
    by_cases hf : 0 < f
    · exact multUll_eq v f hf
    · have : f = 0 := by omega
      subst this; simp [multUll, realMult, W64]
  · exact up W32 W64 (by decide)
  · exact up 65536 W32 (by decide)
  · exact up 256 65536 (by decide)

example : multU8 16 16 = (-34, 16) ∧ multU8 15 17 = (0, 255) ∧ multUll (2 ^ 63) 2 = (-34, 2 ^ 63) := by
  decide

end Verif.Atoi
