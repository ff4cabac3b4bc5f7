import Verif.Model.Atoi
import Verif.Spec.Atoi
/-! Helper lemmas for the integer parsers. -/
namespace Verif.Atoi
open Verif.C Verif.Mult

theorem digit_of_36 (b : Nat) (hb : b ≤ 36) (c : Byte) :
    Spec.digit b c = (Spec.digit 36 c).bind fun v => if v < b then some v else none := by
  unfold Spec.digit
  generalize (fun v : Nat => decide (Spec.lower[v]? = some c ∨ Spec.upper[v]? = some c)) = p
  cases h : (List.range 36).find? p with
  | none =>
    rw [List.find?_range_eq_none] at h
    simp only [Option.bind_none]
    rw [List.find?_range_eq_none]
    intro i hi; exact h i (by omega)
  | some v =>
    rw [List.find?_range_eq_some] at h
    simp only [Option.bind_some]
    split
    · rw [List.find?_range_eq_some]
      exact ⟨h.1, by simpa using ‹v < b›, h.2.2⟩
    · rw [List.find?_range_eq_none]
      intro i hi; exact h.2.2 i (by omega)

theorem ctoi_spec36 : ∀ n < 256,
    ctoi (UInt8.ofNat n) 36 = ((Spec.digit 36 (UInt8.ofNat n)).map Int.ofNat).getD (-EINVAL) := by
  decide +kernel

theorem ctoi_of_36 (c : Byte) (b : Nat) (hb : b ≤ 36) :
    ctoi c b = if ctoi c 36 < b then ctoi c 36 else -EINVAL := by
  unfold ctoi EINVAL
  grind

theorem ctoi_spec (c : Byte) (b : Nat) (hb : b ≤ 36) :
    ctoi c b = ((Spec.digit b c).map Int.ofNat).getD (-EINVAL) := by
  have h := ctoi_spec36 c.toNat (UInt8.toNat_lt c)
  rw [UInt8.ofNat_toNat] at h
  rw [ctoi_of_36 c b hb, h, digit_of_36 b hb]
  unfold EINVAL
  cases Spec.digit 36 c with
  | none => simp; 
  | some v =>
    simp only [Option.map_some, Option.getD_some, Option.bind_some]
    by_cases hv : v < b
    · simp [hv]
    · simp [hv]

theorem digit_lt {b : Nat} {c : Byte} {v : Nat} (h : Spec.digit b c = some v) : v < b := by
  unfold Spec.digit at h
  rw [List.find?_range_eq_some] at h
  simpa using h.2.1

theorem skipBase_spec (s : List Byte) : skipBase s = Spec.base0 s := by
  have h8 : ∀ c, (ctoi c 8 ≥ 0) = ((Spec.digit 8 c).isSome = true) := by
    intro c; rw [ctoi_spec c 8 (by omega)]; unfold EINVAL; cases Spec.digit 8 c <;> simp
  have h16 : ∀ c, (ctoi c 16 ≥ 0) = ((Spec.digit 16 c).isSome = true) := by
    intro c; rw [ctoi_spec c 16 (by omega)]; unfold EINVAL; cases Spec.digit 16 c <;> simp
  unfold skipBase Spec.base0
  match s with
  | [] => simp
  | [a] => simp
  | [a, b] => simp [h8]
  | a :: b :: c :: t => simp [h8, h16]

theorem value_snoc (b : Nat) (ds : List Nat) (d : Nat) :
    Spec.value b (ds ++ [d]) = Spec.value b ds * b + d := by
  simp [Spec.value, List.foldl_append]

/-- what the loop has computed after the digits `ds` with value `V` and last digit `c` -/
inductive Track (b : Nat) : Nat → Nat → St → Prop
  | small {V c s} : s.r = 0 → s.huge = false → s.val1 = V → V < W32 → Track b V c s
  | big {V c s} : s.r = 0 → s.huge = true → s.val2 = V → V < W64 → Track b V c s
  | bug {V c s} : s.r = 0 → s.huge = true → s.val2 = V - c → V - c < W64 → W64 ≤ V → c < b →
      Track b V c s
  | err {V c s} : s.r = -ERANGE → W64 ≤ V - c → Track b V c s

theorem multUll_eq (v f : Nat) (hf : 0 < f) :
    multUll v f = if v * f < W64 then (0, v * f) else (-ERANGE, v) := by
  unfold multUll realMult
  have hle : v ≤ (W64 - 1) / f ↔ v * f < W64 := by
    rw [Nat.le_div_iff_mul_le hf]; simp only [W64]; omega
  have hne : ¬ f = 0 := by omega
  simp only [hne, false_or, hle]
  split
  · rw [Nat.mod_eq_of_lt]; simpa [W64] using ‹_›
  · rfl

theorem multU32_eq (v f : Nat) (hv : v < W32) (hf : f ≤ 36) :
    multU32 v f = if v * f < W32 then (0, v * f) else (-ERANGE, v) := by
  unfold multU32 upcastMult
  have h1 : v * f ≤ v * 36 := Nat.mul_le_mul_left v hf
  have h2 : v * f % W64 = v * f := Nat.mod_eq_of_lt (by simp only [W64, W32] at *; omega)
  simp only [h2]
  by_cases h : v * f < W32
  · rw [if_pos h, if_pos (by simp only [W32] at *; omega), Nat.mod_eq_of_lt (by simpa [W32] using h)]
  · rw [if_neg h, if_neg (by simp only [W32] at *; omega)]

theorem phase2_spec {b V c : Nat} {s : St} (hb0 : 0 < b) (hb : b ≤ 36) (hc : c < b)
    (hh : s.huge = true) (hv : s.val2 = V) :
    Track b (V * b + c) c (phase2 b s c) := by
  have h64 : W64 = 18446744073709551616 := rfl
  unfold phase2
  rw [hv, multUll_eq V b hb0]
  by_cases hm : V * b < W64
  · simp only [if_pos hm]
    by_cases ha : V * b + c < W64
    · have : (V * b + c) % W64 = V * b + c := Nat.mod_eq_of_lt ha
      rw [this, if_pos ⟨by omega, by omega⟩]
      exact .big rfl hh rfl ha
    · have : (V * b + c) % W64 = V * b + c - W64 := by
        rw [Nat.mod_eq_sub_mod (by omega), Nat.mod_eq_of_lt (by omega)]
      rw [this, if_neg (by omega)]
      exact .bug rfl hh (by simp) (by omega) (by omega) hc
  · simp only [if_neg hm]
    rw [if_neg (by simp only [ERANGE]; omega)]
    exact .err rfl (by omega)

theorem phase1_spec {b V c : Nat} {s : St} (hb : b ≤ 36) (hc : c < b)
    (hh : s.huge = false) (hv : s.val1 = V) (hV : V < W32) :
    ((phase1 b s c).huge = false ∧ Track b (V * b + c) c (phase1 b s c)) ∨
    ((phase1 b s c).huge = true ∧ (phase1 b s c).val2 = V) := by
  have h32 : W32 = 4294967296 := rfl
  unfold phase1
  rw [hv, multU32_eq V b hV hb]
  by_cases hm : V * b < W32
  · simp only [if_pos hm]
    by_cases ha : V * b + c < W32
    · have : (V * b + c) % W32 = V * b + c := Nat.mod_eq_of_lt ha
      rw [this, if_pos ⟨by omega, by omega⟩]
      exact Or.inl ⟨hh, .small rfl hh rfl ha⟩
    · have : (V * b + c) % W32 = V * b + c - W32 := by
        rw [Nat.mod_eq_sub_mod (by omega), Nat.mod_eq_of_lt (by omega)]
      rw [this, if_neg (by omega)]
      exact Or.inr ⟨rfl, rfl⟩
  · simp only [if_neg hm]
    rw [if_neg (by simp only [ERANGE]; omega)]
    exact Or.inr ⟨rfl, rfl⟩

theorem track_step {b V c0 : Nat} {s : St} (hb0 : 0 < b) (hb : b ≤ 36) (h : Track b V c0 s)
    (c : Nat) (hc : c < b) : Track b (V * b + c) c (digitStep b s c) := by
  have hERR : (-ERANGE : Int) < 0 := by decide
  have h64 : W64 = 18446744073709551616 := rfl
  have h32 : W32 = 4294967296 := rfl
  unfold digitStep
  cases h with
  | small hr hh hv hV =>
    rw [if_neg (by omega)]
    simp only [hh, Bool.false_eq_true, if_false]
    rcases phase1_spec hb hc hh hv hV with ⟨h1, h2⟩ | ⟨h1, h2⟩
    · rw [if_neg (by simp [h1])]; exact h2
    · rw [if_pos h1]; exact phase2_spec hb0 hb hc h1 h2
  | big hr hh hv hV =>
    rw [if_neg (by omega)]
    simp only [hh, if_true]
    exact phase2_spec hb0 hb hc hh hv
  | bug hr hh hv hlt hge hc0 =>
    rw [if_neg (by omega)]
    simp only [hh, if_true]
    have hb2 : 2 ≤ b := by omega
    have h1 : (V - c0) * 2 ≤ (V - c0) * b := Nat.mul_le_mul_left _ hb2
    have h2 : V * 2 ≤ V * b := Nat.mul_le_mul_left _ hb2
    unfold phase2
    have hm : ¬ (V - c0) * b < W64 := by omega
    simp only [hv, multUll_eq (V - c0) b hb0, if_neg hm]
    rw [if_neg (by simp only [ERANGE]; omega)]
    exact .err rfl (by omega)
  | err hr hge =>
    rw [if_pos (by rw [hr]; exact hERR)]
    have : V * 1 ≤ V * b := Nat.mul_le_mul_left _ hb0
    exact .err hr (by omega)

theorem loop_spec (b : Nat) (hb0 : 0 < b) (hb : b ≤ 36) (t : List Byte) :
    ∀ (ds0 : List Nat) (s : St) (pos : Nat),
      Track b (Spec.value b ds0) (ds0.getLast?.getD 0) s →
      (loop b t s pos).2 = pos + (Spec.digits b t).length ∧
      Track b (Spec.value b (ds0 ++ Spec.digits b t)) ((ds0 ++ Spec.digits b t).getLast?.getD 0)
        (loop b t s pos).1 := by
  induction t with
  | nil => intro ds0 s pos h; simpa [loop, Spec.digits] using h
  | cons c t ih =>
    intro ds0 s pos h
    unfold loop Spec.digits
    rw [ctoi_spec c b hb]
    cases hd : Spec.digit b c with
    | none => simp only [Option.map_none, Option.getD_none]; simpa [EINVAL] using h
    | some v =>
      have hv := digit_lt hd
      simp only [Option.map_some, Option.getD_some]
      rw [if_neg (by simp)]
      have h1 := track_step hb0 hb h v hv
      have h2 := ih (ds0 ++ [v]) (digitStep b s v) (pos + 1)
        (by rw [value_snoc]; simpa using h1)
      simp only [List.append_assoc, List.singleton_append] at h2
      refine ⟨?_, ?_⟩
      · have := h2.1; simp only [Int.ofNat_eq_natCast, Int.toNat_natCast, List.length_cons]; omega
      · simpa using h2.2

theorem effBase_ok (s : List Byte) (base : Nat) (hb : base ≤ 36) :
    0 < (Spec.effBase s base).2 ∧ (Spec.effBase s base).2 ≤ 36 := by
  unfold Spec.effBase Spec.base0
  grind

/-- the parser as a function of the specification notions -/
theorem atoiUlln_spec (s : List Byte) (base : Nat) (hb : base ≤ 36) :
    (atoiUlln s base).next = Spec.stop s base ∧
    ((Spec.number s base < W64 ∧ (atoiUlln s base).code = 0 ∧
        (atoiUlln s base).out = Spec.number s base) ∨
     (W64 ≤ Spec.number s base ∧ Spec.number s base - Spec.lastDigit s base < W64 ∧
        (atoiUlln s base).code = 0 ∧
        (atoiUlln s base).out = Spec.number s base - Spec.lastDigit s base) ∨
     (W64 ≤ Spec.number s base - Spec.lastDigit s base ∧
        (atoiUlln s base).code = -ERANGE ∧ (atoiUlln s base).out = W64 - 1)) := by
  have ⟨hb0, hb36⟩ := effBase_ok s base hb
  have he : (if base = 0 then skipBase s else (0, base)) = Spec.effBase s base := by
    rw [skipBase_spec]; rfl
  have hl := loop_spec (Spec.effBase s base).2 hb0 hb36 (s.drop (Spec.effBase s base).1) []
    ⟨false, 0, 0, 0⟩ 0 (.small rfl rfl rfl (by simp [Spec.value, W32]))
  simp only [List.nil_append, Nat.zero_add] at hl
  obtain ⟨h1, h2⟩ := hl
  have h64 : W64 = 18446744073709551616 := rfl
  have h32 : W32 = 4294967296 := rfl
  have hE : (-ERANGE : Int) < 0 := by decide
  unfold atoiUlln
  rw [if_neg (by omega)]
  simp only [he, Spec.stop, Spec.number, Spec.lastDigit, h1, true_and]
  generalize loop (Spec.effBase s base).2 (s.drop (Spec.effBase s base).1) ⟨false, 0, 0, 0⟩ 0 = L at *
  obtain ⟨st, pos⟩ := L
  simp only at *
  cases h2 with
  | small hr hh hv hV =>
    left; rw [hr, hh, hv]; exact ⟨by omega, rfl, by simp⟩
  | big hr hh hv hV => left; rw [hr, hh, hv]; exact ⟨by omega, rfl, by simp⟩
  | bug hr hh hv hlt hge hc =>
    right; left; rw [hr, hh, hv]; exact ⟨by omega, by omega, rfl, by simp⟩
  | err hr hge =>
    right; right; rw [hr]; exact ⟨by omega, rfl, if_pos hE⟩

theorem digits_length_le (b : Nat) (s : List Byte) : (Spec.digits b s).length ≤ s.length := by
  induction s with
  | nil => simp [Spec.digits]
  | cons c t ih => unfold Spec.digits; split <;> simp; exact ih

theorem effBase_le (s : List Byte) (base : Nat) : (Spec.effBase s base).1 ≤ s.length := by
  unfold Spec.effBase Spec.base0
  match s with
  | [] => grind
  | [a] => grind
  | [a, b] => grind
  | a :: b :: c :: t => grind

end Verif.Atoi
