import Verif.Proof.HtableAbs
/-! The encoded table refines the abstract one. -/
namespace Verif.Htable

/-! ## Bits -/

theorem bit_of {a b : W} (h : a = b) (i : Nat) : a.getLsbD i = b.getLsbD i := by rw [h]

theorem raw_enc {p m c b : W} (hp : p &&& m = c) (hb : b &&& m = b) :
    (((p &&& ~~~m) ||| b) &&& ~~~m) ||| c = p := by
  apply BitVec.eq_of_getLsbD_eq
  intro i hi
  have h1 := bit_of hp i
  have h2 := bit_of hb i
  simp only [BitVec.getLsbD_and, BitVec.getLsbD_or, BitVec.getLsbD_not, BitVec.getLsbD_xor, BitVec.getLsbD_zero, hi, decide_true, Bool.true_and] at h1 h2 ⊢
  rw [← h1]
  revert h2
  cases m.getLsbD i <;> cases p.getLsbD i <;> cases b.getLsbD i <;> simp

theorem extra_enc {p m b : W} (hb : b &&& m = b) : ((p &&& ~~~m) ||| b) &&& m = b := by
  apply BitVec.eq_of_getLsbD_eq
  intro i hi
  have h2 := bit_of hb i
  simp only [BitVec.getLsbD_and, BitVec.getLsbD_or, BitVec.getLsbD_not, BitVec.getLsbD_xor, BitVec.getLsbD_zero, hi, decide_true, Bool.true_and] at h2 ⊢
  revert h2
  cases m.getLsbD i <;> cases p.getLsbD i <;> cases b.getLsbD i <;> simp

theorem hb_mask (ht : HT) (h : W) : hashBits ht h &&& ht.mask = hashBits ht h := by
  unfold hashBits
  apply BitVec.eq_of_getLsbD_eq
  intro i hi
  simp only [BitVec.getLsbD_and, BitVec.getLsbD_or, BitVec.getLsbD_not, BitVec.getLsbD_xor, BitVec.getLsbD_zero, hi, decide_true, Bool.true_and]
  generalize (h.getLsbD i ^^ (h >>> ht.bits).getLsbD i) = x
  cases ht.mask.getLsbD i <;> cases x <;> cases ht.perfect.getLsbD i <;> simp

theorem hb_perfect (ht : HT) (h : W) : hashBits ht h &&& ht.perfect = 0#64 := by
  unfold hashBits
  apply BitVec.eq_of_getLsbD_eq
  intro i hi
  simp [hi]

theorem or_mask {a b m : W} (ha : a &&& m = a) (hb : b &&& m = b) : (a ||| b) &&& m = a ||| b := by
  apply BitVec.eq_of_getLsbD_eq
  intro i hi
  have h1 := bit_of ha i
  have h2 := bit_of hb i
  simp only [BitVec.getLsbD_and, BitVec.getLsbD_or, BitVec.getLsbD_not, BitVec.getLsbD_xor, BitVec.getLsbD_zero, hi, decide_true, Bool.true_and] at h1 h2 ⊢
  revert h1 h2
  cases m.getLsbD i <;> cases a.getLsbD i <;> cases b.getLsbD i <;> simp

theorem drop_perfect {a p : W} (h : a &&& p = 0#64) : (a ||| p) &&& ~~~p = a := by
  apply BitVec.eq_of_getLsbD_eq
  intro i hi
  have h1 := bit_of h i
  simp only [BitVec.getLsbD_and, BitVec.getLsbD_or, BitVec.getLsbD_not, BitVec.getLsbD_xor, BitVec.getLsbD_zero, hi, decide_true, Bool.true_and] at h1 ⊢
  revert h1
  cases p.getLsbD i <;> cases a.getLsbD i <;> simp

theorem keep_nonperfect {a p : W} (h : a &&& p = 0#64) : a &&& ~~~p = a := by
  apply BitVec.eq_of_getLsbD_eq
  intro i hi
  have h1 := bit_of h i
  simp only [BitVec.getLsbD_and, BitVec.getLsbD_or, BitVec.getLsbD_not, BitVec.getLsbD_xor, BitVec.getLsbD_zero, hi, decide_true, Bool.true_and] at h1 ⊢
  revert h1
  cases p.getLsbD i <;> cases a.getLsbD i <;> simp

theorem enc_perfect {q m a p : W} (hp : p &&& m = p) (ha : a &&& p = 0#64) :
    ((q &&& ~~~m) ||| (a ||| 0#64)) &&& p = 0#64 ∧ ((q &&& ~~~m) ||| (a ||| p)) &&& p = p := by
  constructor <;>
  · apply BitVec.eq_of_getLsbD_eq
    intro i hi
    have h1 := bit_of hp i
    have h2 := bit_of ha i
    simp only [BitVec.getLsbD_and, BitVec.getLsbD_or, BitVec.getLsbD_not, BitVec.getLsbD_xor, BitVec.getLsbD_zero, hi, decide_true, Bool.true_and] at h1 h2 ⊢
    revert h1 h2
    cases p.getLsbD i <;> cases a.getLsbD i <;> cases m.getLsbD i <;> simp

theorem update_enc {p0 m c b p d : W} (hp0 : p0 &&& m = c) (hd : d = c ^^^ (p &&& m)) :
    (((p0 &&& ~~~m) ||| b) &&& ~~~d) ||| (c &&& d) =
      (p0 &&& ~~~(m &&& ~~~d)) ||| (b &&& ~~~d) := by
  subst hd
  apply BitVec.eq_of_getLsbD_eq
  intro i hi
  have h1 := bit_of hp0 i
  simp only [BitVec.getLsbD_and, BitVec.getLsbD_or, BitVec.getLsbD_not, BitVec.getLsbD_xor, BitVec.getLsbD_zero, hi, decide_true, Bool.true_and] at h1 ⊢
  rw [← h1]
  cases m.getLsbD i <;> cases p.getLsbD i <;> cases b.getLsbD i <;> cases p0.getLsbD i <;> simp

theorem update_common_bits {p0 m c d : W} (hp0 : p0 &&& m = c) : p0 &&& (m &&& ~~~d) = c &&& ~~~d := by
  subst hp0
  apply BitVec.eq_of_getLsbD_eq
  intro i hi
  simp [hi, Bool.and_assoc]

theorem update_common_new {m c p : W} (hc : c &&& m = c) :
    p &&& (m &&& ~~~(c ^^^ (p &&& m))) = c &&& ~~~(c ^^^ (p &&& m)) := by
  apply BitVec.eq_of_getLsbD_eq
  intro i hi
  have h1 := bit_of hc i
  simp only [BitVec.getLsbD_and, BitVec.getLsbD_or, BitVec.getLsbD_not, BitVec.getLsbD_xor, BitVec.getLsbD_zero, hi, decide_true, Bool.true_and] at h1 ⊢
  revert h1
  cases m.getLsbD i <;> cases p.getLsbD i <;> cases c.getLsbD i <;> simp

theorem and_sub {a m d : W} (h : a &&& m = a) : (a &&& ~~~d) &&& (m &&& ~~~d) = a &&& ~~~d := by
  apply BitVec.eq_of_getLsbD_eq
  intro i hi
  have h1 := bit_of h i
  simp only [BitVec.getLsbD_and, BitVec.getLsbD_or, BitVec.getLsbD_not, BitVec.getLsbD_xor, BitVec.getLsbD_zero, hi, decide_true, Bool.true_and] at h1 ⊢
  revert h1
  cases m.getLsbD i <;> cases d.getLsbD i <;> cases a.getLsbD i <;> simp

theorem hash_update {x m f d : W} :
    (x &&& m &&& ~~~f) &&& ~~~d = x &&& (m &&& ~~~d) &&& ~~~(f &&& ~~~d) := by
  apply BitVec.eq_of_getLsbD_eq
  intro i hi
  simp only [BitVec.getLsbD_and, BitVec.getLsbD_or, BitVec.getLsbD_not, BitVec.getLsbD_xor, BitVec.getLsbD_zero, hi, decide_true, Bool.true_and]
  cases m.getLsbD i <;> cases d.getLsbD i <;> cases x.getLsbD i <;> cases f.getLsbD i <;> simp

theorem lowBit_mask (mask : W) : ∀ n i, i + n ≤ 64 → lowBit mask n i &&& mask = lowBit mask n i := by
  intro n
  induction n with
  | zero => intro i _; simp [lowBit]
  | succ n ih =>
    intro i h
    rw [lowBit]
    split
    · rename_i hm
      apply BitVec.eq_of_getLsbD_eq
      intro q hq
      by_cases hqi : q = i
      · subst hqi; simp [hm]
      · have : (1#64 <<< i).getLsbD q = false := by
          simp only [BitVec.getLsbD_shiftLeft, BitVec.getLsbD_one]
          by_cases h1 : q < i
          · simp [h1]
          · have : q - i ≠ 0 := by omega
            simp [h1, this]
        simp [this]
    · exact ih (i + 1) (by omega)

theorem valid_of_bit {e : W} {K : Nat} (hK : 1 ≤ K) (h : e.getLsbD K = true) : isValid e = true := by
  have h1 : e.toNat.testBit K = true := h
  have h2 := Nat.ge_two_pow_of_testBit h1
  have h3 : 2 ^ 1 ≤ 2 ^ K := Nat.pow_le_pow_right (by omega) hK
  unfold isValid DELETED
  simp only [decide_eq_true_eq]
  show 1 < e.toNat
  omega

theorem not_valid_zero : isValid 0#64 = false := by decide
theorem not_valid_one : isValid 1#64 = false := by decide

theorem bits_of_range {p : W} {K : Nat} (h1 : 2 ^ K ≤ p.toNat) (h2 : p.toNat < 2 ^ (K + 1)) :
    p.getLsbD K = true ∧ ∀ i > K, p.getLsbD i = false := by
  constructor
  · show p.toNat.testBit K = true
    rw [Nat.testBit, Nat.shiftRight_eq_div_pow]
    have : p.toNat / 2 ^ K = 1 := by
      rw [Nat.div_eq_iff (Nat.two_pow_pos K)]
      rw [Nat.pow_succ] at h2
      omega
    simp [this]
  · intro i hi
    show p.toNat.testBit i = false
    apply Nat.testBit_lt_two_pow
    exact Nat.lt_of_lt_of_le h2 (Nat.pow_le_pow_right (by omega) hi)

theorem topBit_eq {p : W} {K : Nat} (h1 : p.getLsbD K = true) (h2 : ∀ i > K, p.getLsbD i = false) :
    ∀ m, K ≤ m → topBit p m = K := by
  intro m
  induction m with
  | zero => intro h; simp [topBit]; omega
  | succ m ih =>
    intro h
    rw [topBit]
    by_cases hk : K = m + 1
    · rw [← hk, if_pos h1]
    · rw [if_neg (by simp [h2 (m + 1) (by omega)]), ih (by omega)]

theorem reset_bits {K : Nat} (hK : 1 ≤ K) (hK2 : K ≤ 63) :
    (~~~(1#64 <<< K)).getLsbD K = false ∧ 1#64 &&& ~~~(1#64 <<< K) = 1#64 := by
  constructor
  · simp
  · apply BitVec.eq_of_getLsbD_eq
    intro i hi
    by_cases h0 : i = 0
    · subst h0
      simp
      omega
    · have : (1#64).getLsbD i = false := by simp [BitVec.getLsbD_one, h0]
      simp [h0]

end Verif.Htable
