import Verif.C.Basic
/-!
# Contracts of libc functions used by several models

These are part of the trusted base: the C standard's description of the functions in the "C" locale
(which the programs never change), on an LP64 machine.  A C string is given by its bytes without the
terminating NUL.
-/
namespace Verif.C

/-- `isspace`. -/
def isSpace (c : Byte) : Bool := c = 32 || (9 ≤ c && c ≤ 13)

/-- `tolower`. -/
def toLower (c : Byte) : Byte := if 65 ≤ c && c ≤ 90 then c + 32 else c

/-- `strcasecmp(a, b) == 0`. -/
def caseEq (a b : List Byte) : Bool := a.map toLower = b.map toLower

/-- Value of a digit or letter as used by `strtol` and `scanf`. -/
def digitVal (c : Byte) : Option Nat :=
  if 48 ≤ c && c ≤ 57 then some (c.toNat - 48)
  else if 97 ≤ c && c ≤ 122 then some (c.toNat - 87)
  else if 65 ≤ c && c ≤ 90 then some (c.toNat - 55)
  else none

/-- The character is a digit in the base. -/
def isDigit (base : Nat) (c : Byte) : Bool :=
  match digitVal c with
  | some v => v < base
  | none => false

/-- Value of a string of digits. -/
def digitsVal (base : Nat) (s : List Byte) : Nat :=
  s.foldl (fun acc c => acc * base + (digitVal c).getD 0) 0

/-- Number of bytes of a leading "0x" that counts (it must be followed by a hex digit), and the base. -/
def basePrefix (base : Nat) (s : List Byte) : Nat × Nat :=
  match s with
  | 48 :: x :: d :: _ =>
    if (base = 0 ∨ base = 16) ∧ (x = 120 ∨ x = 88) ∧ isDigit 16 d = true then (2, 16)
    else if base = 0 then (0, 8) else (0, base)
  | 48 :: _ => if base = 0 then (0, 8) else (0, base)
  | _ => if base = 0 then (0, 10) else (0, base)

/-- The number at the start of a string, as `strtol`/`strtoul` see it: sign, magnitude and the number
of bytes used; zero bytes if there is no number. -/
def scanNumber (base : Nat) (s : List Byte) : Bool × Nat × Nat :=
  let ws := (s.takeWhile isSpace).length
  let s1 := s.drop ws
  let neg := s1.head? = some 45
  let sg := if s1.head? = some 45 ∨ s1.head? = some 43 then 1 else 0
  let s2 := s1.drop sg
  let pb := basePrefix base s2
  let ds := (s2.drop pb.1).takeWhile (isDigit pb.2)
  if ds = [] then (false, 0, 0) else (neg, digitsVal pb.2 ds, ws + sg + pb.1 + ds.length)

/-- `strtoul`: value, offset of `*endptr`, whether `errno` becomes ERANGE. -/
def strtoul (base : Nat) (s : List Byte) : Nat × Nat × Bool :=
  let r := scanNumber base s
  if W64 ≤ r.2.1 then (W64 - 1, r.2.2, true)
  else (if r.1 then (W64 - r.2.1) % W64 else r.2.1, r.2.2, false)

/-- `strtol`: value, offset of `*endptr`, whether `errno` becomes ERANGE. -/
def strtol (base : Nat) (s : List Byte) : Int × Nat × Bool :=
  let r := scanNumber base s
  let v : Int := if r.1 then -(r.2.1 : Int) else (r.2.1 : Int)
  if v > 9223372036854775807 then (9223372036854775807, r.2.2, true)
  else if v < -9223372036854775808 then (-9223372036854775808, r.2.2, true)
  else (v, r.2.2, false)

/-- `atoi`: `(int) strtol(s, NULL, 10)`; undefined if the value is not representable. -/
def atoi (s : List Byte) : Option Int :=
  let v := (strtol 10 s).1
  if v < -2147483648 ∨ v > 2147483647 then none else some v

/-- `sscanf(s, "%d", &v)` with a 32 bit `v`: no match (`some none`) or the value; undefined if the value is
not representable. -/
def sscanfD (s : List Byte) : Option (Option Int) :=
  let r := scanNumber 10 s
  let v : Int := if r.1 then -(r.2.1 : Int) else (r.2.1 : Int)
  if r.2.2 = 0 then some none
  else if v < -2147483648 ∨ v > 2147483647 then none else some (some v)

/-- `sscanf(s, "%u", &v)` with a 32 bit `v`: no match (`some none`) or the value; undefined if the value
`strtoul` returns is not representable. -/
def sscanfU (s : List Byte) : Option (Option Nat) :=
  let r := strtoul 10 s
  if r.2.1 = 0 then some none
  else if W32 ≤ r.1 then none else some (some r.1)

/-- Decimal text, with a bound on the number of further digits. -/
def decF : Nat → Nat → List Byte
  | 0, n => [(48 + n % 10).toUInt8]
  | f + 1, n => if n < 10 then [(48 + n).toUInt8] else decF f (n / 10) ++ [(48 + n % 10).toUInt8]

/-- The decimal text of a number (`printf("%u")`). -/
def dec (n : Nat) : List Byte := decF n n

/-- `sprintf("%d")`. -/
def decInt (i : Int) : List Byte := if i < 0 then ch '-' :: dec i.natAbs else dec i.natAbs

theorem decF_eq (f n : Nat) (h : n ≤ f) : decF f n = decF n n := by
  induction f using Nat.strongRecOn generalizing n with
  | _ f ih =>
    by_cases hn : n < 10
    · cases f with
      | zero => obtain rfl : n = 0 := by omega
                rfl
      | succ f =>
        cases n with
        | zero => simp [decF]
        | succ n => simp [decF, hn]
    · obtain ⟨f, rfl⟩ : ∃ g, f = g + 1 := ⟨f - 1, by omega⟩
      obtain ⟨m, rfl⟩ : ∃ m, n = m + 1 := ⟨n - 1, by omega⟩
      simp only [decF, if_neg hn]
      rw [ih f (by omega) ((m + 1) / 10) (by omega)]
      by_cases hmf : m < f + 1
      · rw [ih m (by omega) ((m + 1) / 10) (by omega)]
      · omega

/-- The recursion equation of decimal text. -/
theorem dec_eq (n : Nat) : dec n = if n < 10 then [(48 + n).toUInt8] else dec (n / 10) ++ [(48 + n % 10).toUInt8] := by
  unfold dec
  cases n with
  | zero => rfl
  | succ n =>
    simp only [decF]
    split
    · rfl
    · rw [decF_eq n _ (by omega)]

theorem digitVal_dec (d : Nat) (h : d < 10) : digitVal (48 + d).toUInt8 = some d := by
  have : ∀ d < 10, digitVal (48 + d).toUInt8 = some d := by decide
  exact this d h

theorem digitsVal_append (base : Nat) (a b : List Byte) :
    digitsVal base (a ++ b) = digitsVal base a * base ^ b.length + digitsVal base b := by
  have : ∀ (b : List Byte) (x : Nat), b.foldl (fun acc c => acc * base + (digitVal c).getD 0) x =
      x * base ^ b.length + b.foldl (fun acc c => acc * base + (digitVal c).getD 0) 0 := by
    intro b
    induction b with
    | nil => intro x; simp
    | cons c t ih =>
      intro x
      simp only [List.foldl_cons, List.length_cons, Nat.pow_succ]
      rw [ih, ih (0 * base + _)]
      rw [Nat.zero_mul, Nat.zero_add, Nat.add_mul, Nat.mul_assoc, Nat.mul_comm (base ^ t.length) base, Nat.add_assoc]
  unfold digitsVal
  rw [List.foldl_append, this]

theorem digitsVal_dec (n : Nat) : digitsVal 10 (dec n) = n := by
  induction n using Nat.strongRecOn with
  | _ n ih =>
    rw [dec_eq]
    split
    · rename_i h
      simp only [digitsVal, List.foldl_cons, List.foldl_nil, digitVal_dec n h, Option.getD_some]; omega
    · rename_i h
      rw [digitsVal_append, ih (n / 10) (by omega)]
      simp only [digitsVal, List.foldl_cons, List.foldl_nil, digitVal_dec (n % 10) (by omega), Option.getD_some,
        List.length_cons, List.length_nil]
      omega

theorem dec_ne_nil (n : Nat) : dec n ≠ [] := by
  rw [dec_eq]; split <;> simp

/-- Every character of decimal text is a decimal digit. -/
theorem dec_digits (n : Nat) : ∀ c ∈ dec n, 48 ≤ c.toNat ∧ c.toNat ≤ 57 ∧ isDigit 10 c = true := by
  have hd : ∀ d < 10, 48 ≤ ((48 + d).toUInt8 : Byte).toNat ∧ ((48 + d).toUInt8 : Byte).toNat ≤ 57 ∧ isDigit 10 (48 + d).toUInt8 = true := by
    decide
  induction n using Nat.strongRecOn with
  | _ n ih =>
    intro c hc
    rw [dec_eq] at hc
    split at hc
    · rename_i h
      simp only [List.mem_singleton] at hc; subst hc; exact hd n h
    · rename_i h
      rcases List.mem_append.mp hc with hc | hc
      · exact ih (n / 10) (by omega) c hc
      · simp only [List.mem_singleton] at hc; subst hc; exact hd _ (by omega)

/-- Decimal text starts with '0' only for zero. -/
theorem dec_head (n : Nat) (h : (dec n).head? = some 48) : n = 0 := by
  induction n using Nat.strongRecOn with
  | _ n ih =>
    rw [dec_eq] at h
    split at h
    · rename_i hn
      have : ∀ d < 10, ([(48 + d).toUInt8] : List Byte).head? = some 48 → d = 0 := by decide
      exact this n hn h
    · rename_i hn
      have h' : (dec (n / 10)).head? = some 48 := by
        cases hd : dec (n / 10) with
        | nil => exact absurd hd (dec_ne_nil _)
        | cons a b => rw [hd] at h; exact h
      have := ih (n / 10) (by omega) h'
      omega

theorem isDigit_mono (r : Byte) (h : isDigit 10 r = false) : isDigit 8 r = false := by
  unfold isDigit at *
  cases hv : digitVal r with
  | none => rfl
  | some v => rw [hv] at h; simp only [decide_eq_false_iff_not] at *; omega

/-- A number in decimal text, followed by anything that is no digit (nor, for zero, an `x`), is read
back by `strtoul` and friends. -/
theorem scanNumber_dec (n : Nat) (rest : List Byte) (base : Nat) (hb : base = 0 ∨ base = 10)
    (hr : rest.head?.all (fun c => !isDigit 10 c) = true)
    (hx : base = 0 → n = 0 → rest.head? ≠ some 120 ∧ rest.head? ≠ some 88) :
    scanNumber base (dec n ++ rest) = (false, n, (dec n).length) := by
  have hne := dec_ne_nil n
  have hall := dec_digits n
  obtain ⟨c, t, hct⟩ : ∃ c t, dec n = c :: t := by
    cases h : dec n with
    | nil => exact absurd h hne
    | cons c t => exact ⟨c, t, rfl⟩
  have hc := hall c (by rw [hct]; simp)
  have hcs : isSpace c = false := by
    unfold isSpace
    have h1 : ¬ c = 32 := by intro e; rw [e] at hc; exact absurd hc.1 (by decide)
    have h2 : ¬ c ≤ 13 := by
      intro e; have := UInt8.le_iff_toNat_le.mp e
      have h13 : (13 : Byte).toNat = 13 := rfl
      omega
    simp [h1, h2]
  have hws : ((dec n ++ rest).takeWhile isSpace) = [] := by rw [hct]; simp [hcs]
  have hc45 : c ≠ 45 := by intro e; rw [e] at hc; exact absurd hc.1 (by decide)
  have hc43 : c ≠ 43 := by intro e; rw [e] at hc; exact absurd hc.1 (by decide)
  have hhead : (dec n ++ rest).head? = some c := by rw [hct]; rfl
  have hdone : ∀ b, (∀ x ∈ dec n, isDigit b x = true) → rest.head?.all (fun c => !isDigit b c) = true →
      (dec n ++ rest).takeWhile (isDigit b) = dec n := by
    intro b h1 h2
    rw [List.takeWhile_append_of_pos h1]
    cases rest with
    | nil => simp
    | cons r rs =>
      simp only [List.head?_cons, Option.all_some, Bool.not_eq_true'] at h2
      simp [h2]
  unfold scanNumber
  simp only [hws, List.length_nil, List.drop_zero, hhead, Option.some.injEq, hc45, hc43, or_self, if_false, decide_false]
  rcases hb with rfl | rfl
  · by_cases hn : n = 0
    · subst hn
      have hd0 : dec 0 = [48] := rfl
      have hx0 := hx rfl rfl
      have hbp : basePrefix 0 (dec 0 ++ rest) = (0, 8) := by
        rw [hd0]
        cases rest with
        | nil => rfl
        | cons x xs =>
          simp only [List.head?_cons, ne_eq, Option.some.injEq] at hx0
          cases xs with
          | nil => rfl
          | cons y ys => simp [basePrefix, hx0.1, hx0.2]
      have hr8 : rest.head?.all (fun c => !isDigit 8 c) = true := by
        cases rest with
        | nil => rfl
        | cons r rs =>
          simp only [List.head?_cons, Option.all_some, Bool.not_eq_true'] at hr ⊢
          exact isDigit_mono r hr
      rw [hbp]
      simp only [List.drop_zero]
      rw [hdone 8 (by rw [hd0]; decide) hr8, if_neg hne, hd0]
      decide
    · have h48 : c ≠ 48 := by
        intro e
        have := dec_head n (by rw [hct, e]; rfl)
        exact hn this
      have hbp : basePrefix 0 (dec n ++ rest) = (0, 10) := by
        rw [hct, List.cons_append]
        unfold basePrefix
        split
        · rename_i heq; simp only [List.cons.injEq] at heq; exact absurd heq.1 h48
        · rename_i heq; simp only [List.cons.injEq] at heq; exact absurd heq.1 h48
        · rfl
      rw [hbp]
      simp only [List.drop_zero]
      rw [hdone 10 (fun x hx => (hall x hx).2.2) hr, if_neg hne, digitsVal_dec]
      simp
  · have hbp : basePrefix 10 (dec n ++ rest) = (0, 10) := by
      unfold basePrefix
      split
      · simp
      · simp
      · simp
    rw [hbp]
    simp only [List.drop_zero]
    rw [hdone 10 (fun x hx => (hall x hx).2.2) hr, if_neg hne, digitsVal_dec]
    simp

/-- If no number is found everything is zero. -/
theorem scanNumber_none (base : Nat) (s : List Byte) (h : (scanNumber base s).2.2 = 0) :
    scanNumber base s = (false, 0, 0) := by
  revert h
  unfold scanNumber
  simp only
  generalize List.takeWhile (isDigit _) (List.drop _ (List.drop _ (List.drop _ s))) = ds
  by_cases hd : ds = []
  · intro _; rw [if_pos hd]
  · rw [if_neg hd]
    intro h
    simp only at h
    have : ds.length = 0 := by omega
    exact absurd (List.length_eq_zero_iff.mp this) hd

end Verif.C
