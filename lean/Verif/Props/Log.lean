import Verif.Model.Log
/-!
# C61, C62: log levels and time stamps
-/
namespace Verif.Log
open Verif.C

/-- The documented severities (`--log-level` help text), by name. -/
def Spec.severities : List (List Byte × Nat) :=
  [(bytes "fatal", 0), (bytes "alert", 1), (bytes "critical", 2), (bytes "error", 3), (bytes "warning", 4),
   (bytes "notice", 5), (bytes "info", 6), (bytes "debug", 7), (bytes "trace", 8)]

/-- Same letters up to case: each byte is equal or the two are the two cases of one ASCII letter. -/
def Spec.SameLetters : List Byte → List Byte → Prop
  | [], [] => True
  | a :: s, b :: t => (a = b ∨ (97 ≤ b.toNat ∧ b.toNat ≤ 122 ∧ a.toNat + 32 = b.toNat)) ∧ Spec.SameLetters s t
  | _, _ => False

theorem toLower_case (a b : Byte) (h : a = b ∨ (97 ≤ b.toNat ∧ b.toNat ≤ 122 ∧ a.toNat + 32 = b.toNat))  :
    toLower a = toLower b := by
  rcases h with rfl | h
  · rfl
  · have : ∀ a b : Fin 256, (97 ≤ b.val ∧ b.val ≤ 122 ∧ a.val + 32 = b.val) →
        toLower (UInt8.ofNat a.val) = toLower (UInt8.ofNat b.val) := by decide +kernel
    have h2 := this ⟨a.toNat, a.toNat_lt⟩ ⟨b.toNat, b.toNat_lt⟩ h
    simpa using h2

theorem caseEq_of_same (a b : List Byte) (h : Spec.SameLetters a b) : caseEq a b = true := by
  unfold caseEq
  rw [decide_eq_true_eq]
  induction a generalizing b with
  | nil => cases b with
    | nil => rfl
    | cons x y => simp [Spec.SameLetters] at h
  | cons x s ih => cases b with
    | nil => simp [Spec.SameLetters] at h
    | cons y t =>
      simp only [Spec.SameLetters] at h
      simp only [List.map_cons, toLower_case x y h.1, ih t h.2]

theorem caseEq_congr {a b c : List Byte} (h : caseEq a b = true) : caseEq a c = caseEq b c := by
  unfold caseEq at *
  rw [decide_eq_true_eq] at h
  rw [h]

theorem named_congr {a b : List Byte} (h : caseEq a b = true) : named a = named b := by
  unfold named
  simp only [caseEq_congr h]

/-- **C61 (names).** Every documented severity name, in any mixture of cases, selects its severity:
exactly the messages up to it (and those without severity) are printed. -/
theorem parseArg_names (name : List Byte) (sev : Nat) (hn : (name, sev) ∈ Spec.severities) (s : List Byte)
    (hs : Spec.SameLetters s name) :
    parseArg s = sev ∧ ∀ m, printed (parseArg s) m = true ↔ (m ≤ sev ∨ 9 ≤ m) := by
  have h1 : named s = some sev := by
    rw [named_congr (caseEq_of_same s name hs)]
    have : ∀ p ∈ Spec.severities, named p.1 = some p.2 := by decide +kernel
    exact this _ hn
  have h2 : parseArg s = sev := by unfold parseArg; rw [h1]
  refine ⟨h2, fun m => ?_⟩
  rw [h2]
  unfold printed
  simp only [Bool.not_eq_true', Bool.and_eq_false_iff, decide_eq_false_iff_not]
  omega

example : Spec.SameLetters (bytes "WaRning") (bytes "warning") ∧ (bytes "warning", 4) ∈ Spec.severities := by
  refine ⟨?_, by decide⟩
  have h1 : bytes "WaRning" = [87, 97, 82, 110, 105, 110, 103] := by decide
  have h2 : bytes "warning" = [119, 97, 114, 110, 105, 110, 103] := by decide
  rw [h1, h2]
  simp [Spec.SameLetters]

theorem named_digits (s : List Byte) (c : Byte) (h : s.head? = some c) (hc : 48 ≤ c.toNat ∧ c.toNat ≤ 57) :
    named s = none := by
  obtain ⟨t, rfl⟩ : ∃ t, s = c :: t := by
    cases s with
    | nil => simp at h
    | cons x t => simp at h; subst h; exact ⟨t, rfl⟩
  have hl : toLower c = c := by
    unfold toLower
    have : ¬ 65 ≤ c := by
      intro e; have := UInt8.le_iff_toNat_le.mp e
      have h65 : (65 : Byte).toNat = 65 := rfl
      omega
    simp [this]
  have hne : ∀ (x : Byte) (n : List Byte), 97 ≤ (toLower x).toNat → caseEq (c :: t) (x :: n) = false := by
    intro x n hx
    unfold caseEq
    simp only [List.map_cons, decide_eq_false_iff_not]
    intro e
    simp only [List.cons.injEq] at e
    rw [hl] at e
    rw [← e.1] at hx
    omega
  unfold named
  have b1 : bytes "fatal" = 102 :: bytes "atal" := by decide
  have b2 : bytes "alert" = 97 :: bytes "lert" := by decide
  have b3 : bytes "critical" = 99 :: bytes "ritical" := by decide
  have b4 : bytes "error" = 101 :: bytes "rror" := by decide
  have b5 : bytes "warning" = 119 :: bytes "arning" := by decide
  have b6 : bytes "notice" = 110 :: bytes "otice" := by decide
  have b7 : bytes "info" = 105 :: bytes "nfo" := by decide
  have b8 : bytes "debug" = 100 :: bytes "ebug" := by decide
  have b9 : bytes "trace" = 116 :: bytes "race" := by decide
  rw [b1, b2, b3, b4, b5, b6, b7, b8, b9]
  rw [hne _ _ (by decide), hne _ _ (by decide), hne _ _ (by decide), hne _ _ (by decide), hne _ _ (by decide),
    hne _ _ (by decide), hne _ _ (by decide), hne _ _ (by decide), hne _ _ (by decide)]
  simp

/-- **C61 (numbers).** The decimal text of every natural number selects that level; numbers that do not
fit select some level above all severities, so everything is printed. -/
theorem parseArg_numbers (n : Nat) :
    (n ≤ 2147483647 → parseArg (dec n) = n) ∧ (2147483647 < n → 2147483647 ≤ parseArg (dec n)) := by
  have hnm : named (dec n) = none := by
    cases h : dec n with
    | nil => exact absurd h (dec_ne_nil n)
    | cons c t =>
      have := dec_digits n c (by rw [h]; simp)
      exact named_digits _ c rfl ⟨this.1, this.2.1⟩
  have hsc := scanNumber_dec n [] 0 (Or.inl rfl) rfl (by simp)
  rw [List.append_nil] at hsc
  unfold parseArg
  rw [hnm]
  have hW : W64 = 18446744073709551616 := rfl
  have hst : (strtoul 0 (dec n)).1 = if 18446744073709551616 ≤ n then 18446744073709551615 else n := by
    unfold strtoul
    rw [hsc]
    simp only [hW]
    split <;> rfl
  simp only [hst]
  constructor
  · intro h
    have : toLong (if 18446744073709551616 ≤ n then 18446744073709551615 else n) = n := by
      rw [if_neg (by omega)]; unfold toLong; rw [if_pos (by omega)]
    rw [this, if_neg (by omega), if_neg (by omega)]
    unfold toUnsigned; omega
  · intro h
    by_cases h64 : 18446744073709551616 ≤ n
    · have : toLong (if 18446744073709551616 ≤ n then 18446744073709551615 else n) = -1 := by rw [if_pos h64]; rfl
      rw [this]; decide
    · by_cases h63 : n < 9223372036854775808
      · have : toLong (if 18446744073709551616 ≤ n then 18446744073709551615 else n) = n := by
          rw [if_neg (by omega)]; unfold toLong; rw [if_pos (by omega)]
        rw [this, if_pos (by omega)]; omega
      · have : toLong (if 18446744073709551616 ≤ n then 18446744073709551615 else n) = n - 18446744073709551616 := by
          rw [if_neg (by omega)]; unfold toLong; rw [if_neg (by omega)]
        rw [this, if_neg (by omega)]
        split
        · decide
        · unfold toUnsigned; omega

example : parseArg (bytes "7") = 7 ∧ dec 7 = bytes "7" ∧ parseArg (bytes "99999999999999999999") = 4294967295 := by
  decide +kernel

/-- **C61 (other text, partial).** Text that is no severity name and does not start with a number
(optionally after blanks and a sign) selects level 0, the least verbose one. Missing for "nothing else
raises the verbosity": see `parseArg_accepts_junk`. -/
theorem parseArg_other_partial (s : List Byte) (hn : named s = none) (hs : (scanNumber 0 s).2.2 = 0) : parseArg s = 0 := by
  unfold parseArg
  rw [hn]
  simp only [strtoul, scanNumber_none 0 s hs]
  decide

example : named (bytes "verbose") = none ∧ (scanNumber 0 (bytes "verbose")).2.2 = 0 := by decide +kernel

theorem same_of_caseEq : ∀ (a b : List Byte), (∀ c ∈ b, 97 ≤ c.toNat ∧ c.toNat ≤ 122) → caseEq a b = true → Spec.SameLetters a b
  | [], [], _, _ => True.intro
  | [], _ :: _, _, h => by simp [caseEq] at h
  | _ :: _, [], _, h => by simp [caseEq] at h
  | a :: s, b :: t, hb, h => by
    have h' : toLower a = toLower b ∧ s.map toLower = t.map toLower := by
      unfold caseEq at h
      rw [decide_eq_true_eq] at h
      exact List.cons.inj h
    have key : ∀ a b : Fin 256, 97 ≤ b.val ∧ b.val ≤ 122 → toLower (UInt8.ofNat a.val) = toLower (UInt8.ofNat b.val) →
        UInt8.ofNat a.val = UInt8.ofNat b.val ∨ a.val + 32 = b.val := by decide +kernel
    have hl := hb b List.mem_cons_self
    refine ⟨?_, same_of_caseEq s t (fun c hc => hb c (List.mem_cons_of_mem _ hc)) (by unfold caseEq; rw [decide_eq_true_eq]; exact h'.2)⟩
    have k := key ⟨a.toNat, a.toNat_lt⟩ ⟨b.toNat, b.toNat_lt⟩ hl (by simpa using h'.1)
    rcases k with k | k
    · exact .inl (by simpa using k)
    · exact .inr ⟨hl.1, hl.2, k⟩

theorem named_none {s : List Byte} (h : ∀ e ∈ Spec.severities, ¬ Spec.SameLetters s e.1) : named s = none := by
  have no : ∀ e ∈ Spec.severities, caseEq s e.1 = false := by
    intro e he
    cases hc : caseEq s e.1 with
    | false => rfl
    | true =>
      refine absurd (same_of_caseEq s e.1 ?_ hc) (h e he)
      have all : ∀ e ∈ Spec.severities, ∀ c ∈ e.1, 97 ≤ c.toNat ∧ c.toNat ≤ 122 := by decide +kernel
      exact all e he
  simp only [Spec.severities, List.mem_cons, List.not_mem_nil, or_false, forall_eq_or_imp, forall_eq] at no
  obtain ⟨h0, h1, h2, h3, h4, h5, h6, h7, h8⟩ := no
  simp [named, h0, h1, h2, h3, h4, h5, h6, h7, h8]

/-- **C61 (words).** A text that is none of the nine names, in any case, and begins with neither a blank, a sign nor a digit
selects level 0, the least verbose one. -/
theorem parseArg_word_partial (c : Byte) (t : List Byte) (hb : c ≠ 32 ∧ ¬ (9 ≤ c.toNat ∧ c.toNat ≤ 13)) (hs : c ≠ ch '+' ∧ c ≠ ch '-')
    (hd : ¬ (48 ≤ c.toNat ∧ c.toNat ≤ 57)) (hn : ∀ e ∈ Spec.severities, ¬ Spec.SameLetters (c :: t) e.1) : parseArg (c :: t) = 0 := by
  refine parseArg_other_partial _ (named_none hn) ?_
  have key : ∀ c : Fin 256, UInt8.ofNat c.val ≠ 32 → ¬ (9 ≤ c.val ∧ c.val ≤ 13) → ¬ (48 ≤ c.val ∧ c.val ≤ 57) →
      isSpace (UInt8.ofNat c.val) = false ∧ isDigit 10 (UInt8.ofNat c.val) = false ∧ UInt8.ofNat c.val ≠ 48 := by decide +kernel
  have k := key ⟨c.toNat, c.toNat_lt⟩ (by simpa using hb.1) hb.2 hd
  simp only [UInt8.ofNat_toNat] at k
  have hp : basePrefix 0 (c :: t) = (0, 10) := by
    unfold basePrefix
    split
    · rename_i e; exact absurd (List.cons.inj e).1 k.2.2
    · rename_i e; exact absurd (List.cons.inj e).1 k.2.2
    · rfl
  have h43 : c ≠ 43 := hs.1
  have h45 : c ≠ 45 := hs.2
  simp [scanNumber, k.1, h43, h45, hp, k.2.1]

example : parseArg (bytes "verbose") = 0 ∧ parseArg (bytes "tracer") = 0 ∧ parseArg (bytes "xFATAL") = 0 := by decide +kernel

/-- **C61 is false in part.** A negative number selects the highest level, text behind a number is
ignored, and a leading zero makes a decimal number octal. -/
theorem parseArg_accepts_junk : parseArg (bytes "-1") = 4294967295 ∧ parseArg (bytes "7up") = 7 ∧
    parseArg (bytes "010") = 8 ∧ parseArg (bytes "08") = 0 := by decide +kernel

/-! ### C62 -/

/-- A normalised time. -/
def Tv.Norm (t : Tv) : Prop := 0 ≤ t.usec ∧ t.usec < 1000000

/-- A time in microseconds. -/
def Tv.us (t : Tv) : Int := t.sec * 1000000 + t.usec

/-- **C62 (partial).** For all clock values the microseconds are in range; unless the clock has been set
back to before the start time, the seconds are not negative and both together are exactly the time
since the start. Missing: `time_wrong_after_clock_change`. -/
theorem time_partial (f t : Tv) (hf : f.Norm) (ht : t.Norm) :
    (0 ≤ (time f t).2 ∧ (time f t).2 < 1000000) ∧
    (f.us ≤ t.us → 0 ≤ (time f t).1 ∧ (time f t).1 * 1000000 + (time f t).2 = t.us - f.us) := by
  obtain ⟨a, b⟩ := hf
  obtain ⟨c, d⟩ := ht
  unfold time Tv.us
  simp only
  split
  · split <;> simp only <;> omega
  · simp only; omega

example : time ⟨10, 900000⟩ ⟨12, 100000⟩ = (1, 200000) := by decide

/-- **C62 is false after the clock was set back**: half a second before the start is printed as half
a second after it. -/
theorem time_wrong_after_clock_change : time ⟨10, 900000⟩ ⟨10, 400000⟩ = (0, 500000) := by decide

/-- The start time is taken once: later initialisations do not change it. -/
theorem initTime_once (f now later : Tv) (h : haveTime now = true) :
    initTime (initTime f now) later = initTime f now := by
  unfold initTime
  cases hf : haveTime f <;> simp [hf, h]

example : haveTime ⟨5, 7⟩ = true ∧ initTime (initTime ⟨0, 0⟩ ⟨5, 7⟩) ⟨9, 9⟩ = ⟨5, 7⟩ := by decide

end Verif.Log
