import Verif.Model.Timers
import Verif.Props.Options
import Verif.Proof.Wire
/-!
# C35, C42: lease timers and random link-local values
-/
namespace Verif.Timers
open Verif.C

/-! ### C35 -/

/-- **C35 (order).** Whatever lease time a packet announces (or none), if reading it is defined at all
then renewal, rebinding and expiry are scheduled in this order at positive, distinct times. -/
theorem timers_ordered (h : Wire.Host) (pkt : List Byte) (plen fuel s : Nat) (hs : getLease h pkt plen fuel = some s) :
    10 ≤ s ∧ s ≤ 0x0fffffff ∧
    0 < (bound s).t1 ∧ (bound s).t1 < (bound s).t2 ∧ (bound s).t2 < (bound s).expire ∧ (bound s).expire = s := by
  have hrange : 10 ≤ s ∧ s ≤ 0x0fffffff := by
    unfold getLease at hs
    split at hs
    · simp only [Option.some.injEq] at hs; omega
    · rename_i i _
      cases hg : Wire.getBe h 4 pkt i with
      | none => simp [hg] at hs
      | some v =>
        simp only [hg, Option.bind_eq_bind, Option.bind_some, Option.some.injEq] at hs
        have : v &&& 0x0fffffff ≤ 0x0fffffff := Nat.and_le_right
        split at hs <;> omega
    · simp at hs
  refine ⟨hrange.1, hrange.2, ?_⟩
  have e : s >>> 1 = s / 2 := by simp [Nat.shiftRight_eq_div_pow]
  obtain ⟨h1, _⟩ := hrange
  refine ⟨?_, ?_, ?_, rfl⟩
  · show 0 < s >>> 1
    rw [e]; omega
  · show s >>> 1 < s * 7 / 8
    rw [e]; omega
  · show s * 7 / 8 < s
    omega

/-- **C35 (value).** In a legal packet with a lease time option of four bytes the lease is the encoded
number of seconds, limited to 28 bits and at least ten; without one it is an hour. -/
theorem getLease_value (h : Wire.Host) (pkt : List Byte) (plen : Nat) (os fs ss : List Options.Spec.Item)
    (hL : Options.Spec.Layout pkt plen os fs ss) (fuel : Nat) (hf : 600 ≤ fuel) :
    match Options.Spec.value 0x33 (Options.Spec.all os fs ss) with
    | none => getLease h pkt plen fuel = some 3600
    | some [a, b, c, d] => getLease h pkt plen fuel =
        some (max 10 ((((a.toNat * 256 + b.toNat) * 256 + c.toNat) * 256 + d.toNat) % 2 ^ 28))
    | some _ => True := by
  have hfo := Options.getOption_first_occurrence pkt plen os fs ss hL 0x33 fuel hf
  cases hv : Options.Spec.value 0x33 (Options.Spec.all os fs ss) with
  | none => rw [hv] at hfo; simp only at hfo ⊢; unfold getLease; rw [hfo]
  | some dd =>
    rw [hv] at hfo
    match dd, hfo with
    | [a, b, c, d], hfo =>
      obtain ⟨i, hg, _, hin, _, hdat⟩ := hfo
      simp only at *
      unfold getLease
      rw [hg]
      show (Wire.getBe h 4 pkt i >>= fun v => some (if v &&& 0x0fffffff < 10 then 10 else v &&& 0x0fffffff)) = _
      simp only [List.length_cons, List.length_nil] at hdat hin
      have hrd : rd pkt i 4 = some [a, b, c, d] := by
        rw [rd_some (by have := hL.plen_le; have := hL.size; omega), hdat]
      rw [Wire.getBe_eq, hrd]
      simp only [Option.map_some, Option.bind_eq_bind, Option.bind_some, List.reverse_cons, List.reverse_nil, List.nil_append,
        List.cons_append, Wire.leVal]
      have e : d.toNat + 256 * (c.toNat + 256 * (b.toNat + 256 * (a.toNat + 256 * 0))) =
          ((a.toNat * 256 + b.toNat) * 256 + c.toNat) * 256 + d.toNat := by omega
      rw [e]
      have e2 : ∀ v : Nat, v &&& 0x0fffffff = v % 2 ^ 28 := by
        intro v
        rw [show (0x0fffffff : Nat) = 2 ^ 28 - 1 by decide, Nat.and_two_pow_sub_one_eq_mod]
      rw [e2]
      congr 1
      generalize (((a.toNat * 256 + b.toNat) * 256 + c.toNat) * 256 + d.toNat) % 2 ^ 28 = x
      split <;> omega
    | [], _ => trivial
    | [_], _ => trivial
    | [_, _], _ => trivial
    | [_, _, _], _ => trivial
    | _ :: _ :: _ :: _ :: _ :: _, _ => trivial

/-- A lease time option with fewer than four bytes at the end of a full packet: the read of the four
bytes leaves the packet. -/
theorem getLease_short_option_undefined :
    getLease .le (List.replicate 240 0 ++ [12, 255] ++ List.replicate 255 0 ++ [12, 126] ++ List.replicate 126 0 ++ [0x33, 0, 255]) 628 600 =
      none := by decide +kernel

/-- Without a lease time option: an hour. -/
example : getLease .le (List.replicate 240 0 ++ [53, 1, 5, 255] ++ List.replicate 304 0) 548 600 = some 3600 ∧
    getLease .le (List.replicate 240 0 ++ [0x33, 4, 0, 1, 0x51, 0x80, 255] ++ List.replicate 301 0) 548 600 = some 86400 := by
  decide +kernel

theorem interval_exact (t r : Nat) (ht : t ≤ 4294965) (h60 : 60 < t) :
    t * 1000 - 1000 ≤ interval t r ∧ interval t r < t * 1000 + 1000 := by
  unfold interval
  have hW : W32 = 4294967296 := rfl
  rw [hW]
  omega

/-- Strictly decreasing list. -/
def Decreasing : List Nat → Prop
  | [] => True
  | [_] => True
  | a :: b :: t => b < a ∧ Decreasing (b :: t)

/-- **C35 (retransmissions, partial).** For phases short enough for 32-bit millisecond arithmetic, and
whatever the random numbers are: the retransmissions of a renewing or rebinding phase end, every interval
is at least a minute and each is shorter than the one before, and all of them together end before
the phase does, i.e. before the rebinding resp. expiry timer fires. Missing: very long leases,
`retrans_long_lease_wrong`. -/
theorem retrans_partial (rand : Nat → Nat) (t : Nat) (ht : t ≤ 8589930) (fuel k : Nat) (hf : 25 ≤ fuel) :
    ∃ l, retrans rand fuel k t = some l ∧ Decreasing l ∧ (∀ x ∈ l, 60000 ≤ x) ∧ (l ≠ [] → l.sum < t * 1000) ∧
      (∀ x ∈ l.head?, x < t / 2 * 1000 + 1000) := by
  have key : ∀ (n : Nat) (t fuel k : Nat), t < 2 ^ n → t ≤ 8589930 → n + 1 ≤ fuel →
      ∃ l, retrans rand fuel k t = some l ∧ Decreasing l ∧ (∀ x ∈ l, 60000 ≤ x) ∧
        (l ≠ [] → l.sum + 61000 ≤ t * 1000 + 1000 * l.length) ∧ l.length ≤ n - 6 ∧ (l ≠ [] → 122 ≤ t) ∧
        (∀ x ∈ l.head?, x < t / 2 * 1000 + 1000) := by
    intro n
    induction n with
    | zero =>
      intro t fuel k h1 h2 h3
      obtain ⟨f, rfl⟩ : ∃ f, fuel = f + 1 := ⟨fuel - 1, by omega⟩
      have : t = 0 := by simp at h1; exact h1
      subst this
      exact ⟨[], rfl, trivial, by simp, by simp, by simp, by simp, by simp⟩
    | succ n ih =>
      intro t fuel k h1 h2 h3
      obtain ⟨f, rfl⟩ : ∃ f, fuel = f + 1 := ⟨fuel - 1, by omega⟩
      have hsh : t >>> 1 = t / 2 := by simp [Nat.shiftRight_eq_div_pow]
      unfold retrans
      rw [hsh]
      by_cases h60 : t / 2 > 60
      · rw [if_pos h60]
        have hp : 2 ^ (n + 1) = 2 * 2 ^ n := by rw [Nat.pow_succ]; omega
        obtain ⟨l, hl, hdec, hmin, hsum, hlen, hne, hhd⟩ := ih (t / 2) f (k + 1) (by omega) (by omega) (by omega)
        obtain ⟨hi1, hi2⟩ := interval_exact (t / 2) (rand k) (by omega) h60
        generalize interval (t / 2) (rand k) = iv at *
        have hn6 : 6 ≤ n := by
          by_cases h : n ≤ 5
          · exfalso
            have : 2 ^ n ≤ 2 ^ 5 := Nat.pow_le_pow_right (by omega) h
            simp at this; omega
          · omega
        refine ⟨iv :: l, by rw [hl]; rfl, ?_, ?_, ?_, ?_, ?_, ?_⟩
        · cases l with
          | nil => trivial
          | cons a b =>
            refine ⟨?_, hdec⟩
            have h1 := hhd a (by simp)
            have h2 := hne (by simp)
            omega
        · intro x hx
          rcases List.mem_cons.mp hx with rfl | hx
          · omega
          · exact hmin x hx
        · intro _
          simp only [List.sum_cons, List.length_cons]
          by_cases hl0 : l = []
          · subst hl0; simp only [List.sum_nil, List.length_nil]; omega
          · have := hsum hl0; omega
        · simp only [List.length_cons]; omega
        · intro _; omega
        · intro x hx; simp at hx; omega
      · rw [if_neg h60]
        exact ⟨[], rfl, trivial, by simp, by simp, by simp, by simp, by simp⟩
  have ht24 : t < 2 ^ 24 := by
    have : (2 : Nat) ^ 24 = 16777216 := by decide
    omega
  obtain ⟨l, h1, h2, h3, h4, h5, h6, h7⟩ := key 24 t fuel k ht24 ht hf
  refine ⟨l, h1, h2, h3, ?_, h7⟩
  intro hne
  have := h4 hne
  omega

/-- Both phases of every lease of at most 265 days meet the hypothesis of `retrans_partial`. -/
theorem phases_short (s : Nat) (hs : s ≤ 22906000) :
    (bound s).t2 - (bound s).t1 ≤ 8589930 ∧ (bound s).expire - (bound s).t2 ≤ 8589930 := by
  simp only [bound, Nat.shiftRight_eq_div_pow]; omega

/-- An hour: renewal after 1800 s, repeated after 675, 337, 168 and 84 s (here without jitter). -/
example : bound 3600 = { t1 := 1800, t2 := 3150, expire := 3600 } ∧
    retrans (fun _ => 1000) 24 0 (3150 - 1800) = some [675000, 337000, 168000, 84000] := by decide +kernel

/-- **C35 is false for very long leases.** The number of milliseconds overflows: with a lease of the
greatest accepted length the first retransmission of the renewing phase (which lasts over three years)
comes after 36 days instead of half the phase (582 days), and the intervals do not decrease. -/
theorem retrans_long_lease_wrong : ∃ l, retrans (fun _ => 1000) 40 0 ((bound 0x0fffffff).t2 - (bound 0x0fffffff).t1) = some l ∧
    l.head? = some 3087007744 ∧ ¬ Decreasing l := by
  have h : retrans (fun _ => 1000) 40 0 ((bound 0x0fffffff).t2 - (bound 0x0fffffff).t1) =
      some (3087007744 :: 3690987520 :: (retrans (fun _ => 1000) 38 2 25165824).getD []) := by decide +kernel
  refine ⟨_, h, rfl, ?_⟩
  intro hd
  have := hd.1
  omega

/-! ### C42 -/

/-- **C42 (address).** Every link-local candidate lies in 169.254.1.0 - 169.254.254.255, whatever numbers
the generator returns; and the draw ends with the first number whose low 16 bits are not in the upper 511. -/
theorem randomIp_range (rand : Nat → Nat) (fuel k ip : Nat) (h : randomIp rand fuel k = some ip) :
    169 * 2 ^ 24 + 254 * 2 ^ 16 + 1 * 2 ^ 8 + 0 ≤ ip ∧ ip ≤ 169 * 2 ^ 24 + 254 * 2 ^ 16 + 254 * 2 ^ 8 + 255 := by
  induction fuel generalizing k with
  | zero => simp [randomIp] at h
  | succ f ih =>
    simp only [randomIp] at h
    split at h
    · exact ih _ h
    · simp only [Option.some.injEq] at h; omega

theorem randomIp_ends (rand : Nat → Nat) (k n : Nat) (hn : rand (k + n) % 65536 ≤ 65023) (fuel : Nat) (hf : n < fuel) :
    ∃ ip, randomIp rand fuel k = some ip := by
  induction n generalizing k fuel with
  | zero =>
    obtain ⟨f, rfl⟩ : ∃ f, fuel = f + 1 := ⟨fuel - 1, by omega⟩
    simp only [randomIp]
    have e : rand k &&& 0xffff = rand k % 65536 := by
      rw [show (0xffff : Nat) = 2 ^ 16 - 1 by decide, Nat.and_two_pow_sub_one_eq_mod]
    rw [if_neg (by rw [e]; simp at hn; omega)]
    exact ⟨_, rfl⟩
  | succ n ih =>
    obtain ⟨f, rfl⟩ : ∃ f, fuel = f + 1 := ⟨fuel - 1, by omega⟩
    simp only [randomIp]
    split
    · exact ih (k + 1) (by rw [show k + 1 + n = k + (n + 1) by omega]; exact hn) f (by omega)
    · exact ⟨_, rfl⟩

/-- Every address of the range can come up. -/
theorem randomIp_onto (ip : Nat) (h1 : 169 * 2 ^ 24 + 254 * 2 ^ 16 + 1 * 2 ^ 8 ≤ ip)
    (h2 : ip ≤ 169 * 2 ^ 24 + 254 * 2 ^ 16 + 254 * 2 ^ 8 + 255) :
    randomIp (fun _ => ip - 0xa9fe0100) 1 0 = some ip := by
  have e : (ip - 0xa9fe0100) &&& 0xffff = ip - 0xa9fe0100 := by
    rw [show (0xffff : Nat) = 2 ^ 16 - 1 by decide, Nat.and_two_pow_sub_one_eq_mod]; omega
  have h3 : ip - 0xa9fe0100 ≤ 65023 := by omega
  have h4 : 0xa9fe0000 + 0x0100 + (ip - 0xa9fe0100) = ip := by omega
  generalize ip - 0xa9fe0100 = x at *
  have hx : ∀ rand : Nat → Nat, rand 0 = x → randomIp rand 1 0 = some ip := by
    intro rand hr
    unfold randomIp
    rw [hr, e]
    dsimp only
    rw [if_neg (by omega), h4]
  exact hx _ rfl

/-- **C42 (delay).** The delay is below the bound, for every number of seconds the product of which with
1000 does not overflow (the callers pass 1 and 2); zero seconds is a division by zero. -/
theorem randomDelay_range (r secs : Nat) (h0 : 0 < secs) (hs : secs ≤ 4294967) :
    ∃ d, randomDelay r secs = some d ∧ d < secs * 1000 := by
  have hW : W32 = 4294967296 := rfl
  unfold randomDelay
  have e : secs * 1000 % W32 = secs * 1000 := by rw [hW]; omega
  rw [e, if_neg (by omega)]
  exact ⟨_, rfl, Nat.mod_lt _ (by omega)⟩

theorem randomDelay_zero (r : Nat) : randomDelay r 0 = none := by rfl

example : randomIp (fun k => if k = 0 then 0xffffffff else 5) 2 0 = some 0xa9fe0105 ∧ randomDelay 123456 2 = some 1456 := by
  decide

end Verif.Timers
