import Verif.Model.Wfd
import Verif.Spec.Wfd
/-!
# C53: resolution choice
-/
namespace Verif.Wfd
open Verif.C

theorem and_bit (b m : Nat) : (1 <<< b) &&& m ≠ 0 ↔ m.testBit b = true := by
  constructor
  · intro h
    cases hb : m.testBit b with
    | true => rfl
    | false =>
      exfalso; apply h
      apply Nat.eq_of_testBit_eq
      intro i
      simp only [Nat.testBit_and, Nat.one_shiftLeft, Nat.zero_testBit, Nat.testBit_two_pow]
      by_cases hi : b = i
      · subst hi; simp [hb]
      · simp [hi]
  · intro h h0
    have := congrArg (fun n => n.testBit b) h0
    simp only [Nat.testBit_and, Nat.one_shiftLeft, Nat.zero_testBit, Nat.testBit_two_pow, h] at this
    simp at this

/-- What the scan does on a table sorted by bit number and closed by an empty entry. -/
theorem scan_spec (mask : Nat) (t : List Res) (k : List Spec.Known)
    (hk : k = t.map (fun r => (r.index, r.hres, r.vres)))
    (hs : k.Pairwise (fun a b => a.1 < b.1)) (hb : ∀ r ∈ t, r.hres ≠ 0 ∧ r.index < 31) :
    (∃ w h, scan mask (t ++ [⟨0, 0, 0, 0⟩]) = some (some (w, h)) ∧ Spec.Lowest k mask w h) ∨
    (scan mask (t ++ [⟨0, 0, 0, 0⟩]) = some none ∧ Spec.Nothing k mask) := by
  induction t generalizing k with
  | nil => right; subst hk; exact ⟨rfl, by intro x hx; simp at hx⟩
  | cons r t ih =>
    subst hk
    have hr := hb r (by simp)
    simp only [List.map_cons, List.pairwise_cons] at hs
    simp only [List.cons_append, scan]
    rw [if_neg hr.1, if_neg (by omega)]
    by_cases hbit : (1 <<< r.index) &&& mask ≠ 0
    · rw [if_pos hbit]
      left
      refine ⟨_, _, rfl, r.index, by simp, (and_bit _ _).mp hbit, ?_⟩
      intro x hx _
      rcases List.mem_cons.mp hx with rfl | hx
      · exact Nat.le_refl _
      · exact Nat.le_of_lt (hs.1 x hx)
    · rw [if_neg hbit]
      have hf : mask.testBit r.index = false := by
        cases h : mask.testBit r.index with
        | false => rfl
        | true => exact absurd ((and_bit _ _).mpr h) hbit
      rcases ih _ rfl hs.2 (fun x hx => hb x (by simp [hx])) with ⟨w, h, h1, b, h2, h3, h4⟩ | ⟨h1, h2⟩
      · left
        refine ⟨w, h, h1, b, by simp [h2], h3, ?_⟩
        intro x hx hbx
        simp only [List.map_cons, List.mem_cons] at hx
        rcases hx with rfl | hx
        · rw [hf] at hbx; simp at hbx
        · exact h4 x hx hbx
      · right
        refine ⟨h1, ?_⟩
        intro x hx
        simp only [List.map_cons, List.mem_cons] at hx
        rcases hx with rfl | hx
        · exact hf
        · exact h2 x hx

/-- The three tables of the code, with what they mean. -/
inductive Table : List Res → List Spec.Known → Prop
  | cea : Table cea Spec.cea
  | vesa : Table vesa Spec.vesa
  | hh : Table hh Spec.hh

/-- **C53.** For each of the three tables and every 32-bit mask the lookup is defined; it yields the
resolution of the lowest set bit that is known, and fails exactly if no known bit is set. -/
theorem getRes_lowest (t : List Res) (k : List Spec.Known) (ht : Table t k) (mask : Nat) :
    (∃ w h, getRes t mask = some (some (w, h)) ∧ Spec.Lowest k mask w h) ∨
    (getRes t mask = some none ∧ Spec.Nothing k mask) := by
  unfold getRes
  by_cases h0 : mask = 0
  · rw [if_pos h0]; right
    refine ⟨rfl, ?_⟩
    intro x _; rw [h0]; exact Nat.zero_testBit _
  · rw [if_neg h0]
    cases ht with
    | cea => exact scan_spec mask (cea.dropLast) _ (by decide) (by decide) (by decide)
    | vesa => exact scan_spec mask (vesa.dropLast) _ (by decide) (by decide) (by decide)
    | hh => exact scan_spec mask (hh.dropLast) _ (by decide) (by decide) (by decide)

example : getRes cea 0x20100 = some (some (1920, 1080)) ∧ getRes vesa 0x80000000 = some none ∧
    (0x20100 : Nat).testBit 8 = true := by decide

/-- **C53 (negotiation).** On a video format announcement the sink either takes the first resolution
both sides know (CEA, then VESA, then handheld; lowest bit first), storing exactly it and notifying
once, or, if there is none, reports EINVAL and keeps what it had. -/
theorem setFormat_chooses (s : Sink) (c v h : Nat) :
    (∃ x y, setFormat s c v h = some (0, { hres := x, vres := y, notified := s.notified + 1 }) ∧
      Spec.Chosen c v h x y) ∨
    (setFormat s c v h = some (-EINVAL, s) ∧ Spec.Nothing Spec.cea c ∧ Spec.Nothing Spec.vesa v ∧ Spec.Nothing Spec.hh h) := by
  have hz : ∀ k ∈ Spec.cea ++ Spec.vesa ++ Spec.hh, k.2.1 ≠ 0 ∧ k.2.2 ≠ 0 := by decide
  have hnz : ∀ (t : List Spec.Known) m x y, (∀ k ∈ t, k ∈ Spec.cea ++ Spec.vesa ++ Spec.hh) → Spec.Lowest t m x y → x ≠ 0 ∧ y ≠ 0 := by
    intro t m x y ht ⟨b, hb, _⟩
    exact hz _ (ht _ hb)
  unfold setFormat
  rcases getRes_lowest _ _ .cea c with ⟨x, y, h1, h2⟩ | ⟨h1, h2⟩
  · left
    refine ⟨x, y, ?_, Or.inl h2⟩
    simp only [h1, Option.bind_eq_bind, Option.bind_some]
    rw [if_pos (hnz _ _ _ _ (by intro k hk; simp [hk]) h2)]
  · rcases getRes_lowest _ _ .vesa v with ⟨x, y, h3, h4⟩ | ⟨h3, h4⟩
    · left
      refine ⟨x, y, ?_, Or.inr ⟨h2, Or.inl h4⟩⟩
      simp only [h1, h3, Option.bind_eq_bind, Option.bind_some]
      rw [if_pos (hnz _ _ _ _ (by intro k hk; simp [hk]) h4)]
    · rcases getRes_lowest _ _ .hh h with ⟨x, y, h5, h6⟩ | ⟨h5, h6⟩
      · left
        refine ⟨x, y, ?_, Or.inr ⟨h2, Or.inr ⟨h4, h6⟩⟩⟩
        simp only [h1, h3, h5, Option.bind_eq_bind, Option.bind_some]
        rw [if_pos (hnz _ _ _ _ (by intro k hk; simp [hk]) h6)]
      · right
        refine ⟨?_, h2, h4, h6⟩
        simp only [h1, h3, h5, Option.bind_eq_bind, Option.bind_some]

example : setFormat ⟨1, 2, 3⟩ 0 0x10 0x1 = some (0, ⟨1152, 854, 4⟩) ∧
    setFormat ⟨1, 2, 3⟩ 0x80000 0 0x1000 = some (-EINVAL, ⟨1, 2, 3⟩) := by decide

/-- The handheld mask the sink announces by default (`src/ctl/sinkctl.c:84`, sent by
`src/ctl/ctl-sink.c:103`) has a bit the sink does not know: a source picking it is refused. -/
theorem default_hh_mask_has_unknown_bit (s : Sink) :
    ∃ bit, (0x00001fff : Nat).testBit bit = true ∧ setFormat s 0 0 (1 <<< bit) = some (-EINVAL, s) :=
  ⟨12, by decide, rfl⟩

/-- The default CEA and VESA masks (`src/ctl/sinkctl.c:82-83`) announce exactly the known bits. -/
theorem default_masks_known (bit : Nat) :
    ((0x0001ffff : Nat).testBit bit = true ↔ bit ∈ Spec.cea.map Prod.fst) ∧
    ((0x1fffffff : Nat).testBit bit = true ↔ bit ∈ Spec.vesa.map Prod.fst) := by
  have e1 : (0x0001ffff : Nat) = 2 ^ 17 - 1 := by decide
  have e2 : (0x1fffffff : Nat) = 2 ^ 29 - 1 := by decide
  rw [e1, e2, Nat.testBit_two_pow_sub_one, Nat.testBit_two_pow_sub_one]
  have m1 : Spec.cea.map Prod.fst = List.range 17 := by decide
  have m2 : Spec.vesa.map Prod.fst = List.range 29 := by decide
  rw [m1, m2]
  simp

example : (0x0001ffff : Nat).testBit 16 = true ∧ (16, 1920, 1080) ∈ Spec.cea ∧ (0x0001ffff : Nat).testBit 17 = false := by
  decide

/-- The helper building a mask of all resolutions up to an index does so for indices up to 29 and
has undefined behaviour for larger ones (up to the wrap-around). -/
theorem genMask_spec (index : Nat) (hi : index < W32) :
    (index ≤ 29 → ∃ m, genMask index = some m ∧ ∀ b, m.testBit b = true ↔ b ≤ index) ∧
    (30 ≤ index → index + 1 < W32 → genMask index = none) := by
  have hW : W32 = 4294967296 := rfl
  constructor
  · intro h
    refine ⟨2 ^ (index + 1) - 1, ?_, ?_⟩
    · unfold genMask
      have : (index + 1) % W32 = index + 1 := by rw [hW]; omega
      simp only [this]
      rw [if_neg (by omega), Nat.one_shiftLeft]
    · intro b
      rw [Nat.testBit_two_pow_sub_one]
      simp; omega
  · intro h h2
    unfold genMask
    have : (index + 1) % W32 = index + 1 := by rw [hW] at *; omega
    simp only [this]
    rw [if_pos (by omega)]

example : genMask 16 = some 0x1ffff ∧ genMask 28 = some 0x1fffffff ∧ genMask 30 = none := by decide

end Verif.Wfd
