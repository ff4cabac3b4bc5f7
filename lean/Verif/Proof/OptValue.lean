import Verif.Model.OptValue
import Verif.Spec.OptValue
import Verif.Proof.Options
import Verif.Props.Wire
/-!
# Helper lemmas for option values
-/
namespace Verif.OptValue
open Verif.C Verif.Options

theorem dec_length (k n : Nat) (h : n < 10 ^ (k + 1)) : (dec n).length ≤ k + 1 := by
  induction k generalizing n with
  | zero =>
    rw [dec_eq, if_pos (by simpa using h)]; simp
  | succ k ih =>
    rw [dec_eq]
    split
    · simp
    · rw [List.length_append]
      have := ih (n / 10) (by
        rw [Nat.div_lt_iff_lt_mul (by decide)]
        rw [Nat.pow_succ] at h; exact h)
      simp only [List.length_cons, List.length_nil]; omega

theorem dec_no (n : Nat) (c : Byte) (h : c.toNat < 48 ∨ 57 < c.toNat) : c ∉ dec n := by
  intro hc
  have := dec_digits n c hc
  omega

theorem nip_length (b t : List Byte) (h : nip b = some t) : t.length ≤ 15 := by
  unfold nip at h
  split at h
  · rename_i a b c d
    cases h
    have ha := dec_length 2 a.toNat (by have := a.toNat_lt; omega)
    have hb := dec_length 2 b.toNat (by have := b.toNat_lt; omega)
    have hc := dec_length 2 c.toNat (by have := c.toNat_lt; omega)
    have hd := dec_length 2 d.toNat (by have := d.toNat_lt; omega)
    simp only [List.length_append, List.length_cons]; omega
  · cases h

theorem leVal_lt (bs : List Byte) : Wire.leVal bs < 256 ^ bs.length := by
  induction bs with
  | nil => simp [Wire.leVal]
  | cons b t ih =>
    have := b.toNat_lt
    simp only [Wire.leVal, List.length_cons, Nat.pow_succ]; omega

theorem length_leBytes (w v : Nat) : (Wire.leBytes w v).length = w := by
  induction w generalizing v with
  | zero => rfl
  | succ w ih => simp [Wire.leBytes, ih]

theorem getBe_lt (h : Wire.Host) (w : Nat) (buf : List Byte) (off v : Nat) (hv : Wire.getBe h w buf off = some v) :
    v < 256 ^ w := by
  cases h with
  | le =>
    simp only [Wire.getBe, Option.map_eq_some_iff] at hv
    obtain ⟨a, _, rfl⟩ := hv
    have := leVal_lt (Wire.leBytes w a).reverse
    rw [List.length_reverse, length_leBytes] at this
    exact this
  | be =>
    simp only [Wire.getBe, Wire.getUnaligned, Option.pure_def, Option.bind_eq_bind] at hv
    cases hb : rd buf off w with
    | none => rw [hb] at hv; cases hv
    | some bs =>
      rw [hb] at hv
      simp only [Option.bind_some, Option.some.injEq] at hv
      subst hv
      have := leVal_lt bs.reverse
      rw [List.length_reverse, length_of_rd hb] at this
      exact this

theorem getBe_ex (h : Wire.Host) (w : Nat) (buf : List Byte) (off : Nat) (hl : off + w ≤ buf.length) :
    ∃ v, Wire.getBe h w buf off = some v := by
  obtain ⟨bs, hb, -⟩ := rd_ex hl
  cases h <;> simp [Wire.getBe, Wire.getUnaligned, hb]

/-- What one round prints fits, with the blank behind it. -/
theorem printItem_ex (h : Wire.Host) (ty : OType) (pkt : List Byte) (opt : Nat) (hl : opt + typeLen ty ≤ pkt.length)
    (ht : ty ≠ .unknown) (hs : ty ≠ .string) :
    ∃ s, printItem h ty pkt opt = some s ∧ (s.getD []).length + 2 ≤ textLen ty := by
  cases ty with
  | unknown => exact absurd rfl ht
  | string => exact absurd rfl hs
  | ip =>
    obtain ⟨b, hb, -⟩ := rd_ex (b := pkt) (i := opt) (n := 4) hl
    have hbl := length_of_rd hb
    match b, hbl with
    | [a, b, c, d], _ =>
      refine ⟨nip [a, b, c, d], by simp only [printItem, hb, Option.bind_eq_bind, Option.bind_some, nip], ?_⟩
      have := nip_length [a, b, c, d] _ rfl
      simp only [nip, Option.getD_some, textLen] at this ⊢; omega
  | u8 => exact ⟨none, rfl, by simp [textLen]⟩
  | u16 =>
    obtain ⟨v, hv⟩ := getBe_ex h 2 pkt opt hl
    refine ⟨some (dec v), by simp only [printItem, hv, Option.bind_eq_bind, Option.bind_some], ?_⟩
    have := dec_length 4 v (by have := getBe_lt h 2 pkt opt v hv; omega)
    simp only [Option.getD_some, textLen]; omega
  | u32 =>
    obtain ⟨v, hv⟩ := getBe_ex h 4 pkt opt hl
    refine ⟨some (dec v), by simp only [printItem, hv, Option.bind_eq_bind, Option.bind_some], ?_⟩
    have := dec_length 9 v (by have := getBe_lt h 4 pkt opt v hv; omega)
    simp only [Option.getD_some, textLen]; omega

theorem valueLoop_safe (h : Wire.Host) (ty : OType) (pkt : List Byte) (ht : ty ≠ .unknown) (fuel : Nat) :
    ∀ (blk : List Byte) (dest opt len : Nat), dest + textLen ty * (len / typeLen ty) + 1 ≤ blk.length →
      opt + len ≤ pkt.length → ∃ b, valueLoop h ty pkt fuel blk dest opt len = some b ∧ b.length = blk.length := by
  have h0 : 0 < typeLen ty := by cases ty <;> first | exact absurd rfl ht | decide
  induction fuel with
  | zero => intro blk dest opt len _ _; exact ⟨blk, rfl, rfl⟩
  | succ fuel ih =>
    intro blk dest opt len hroom hpk
    unfold valueLoop
    split
    · exact ⟨blk, rfl, rfl⟩
    rename_i hlen
    split
    · rename_i hstr
      subst hstr
      simp only [textLen, typeLen, Nat.div_one, Nat.one_mul] at hroom
      obtain ⟨d, hd, -⟩ := rd_ex (b := pkt) (i := opt) (n := len) hpk
      have hdl := length_of_rd hd
      obtain ⟨b, hb, -⟩ := wr_ex (b := blk) (d := d) (i := dest) (by omega)
      have hbl := length_of_wr hb
      obtain ⟨c, hc, -⟩ := wr_ex (b := b) (d := [0]) (i := dest + len) (by simp only [List.length_cons, List.length_nil]; omega)
      refine ⟨c, by simp only [hd, hb, hc, Option.bind_eq_bind, Option.bind_some], ?_⟩
      rw [length_of_wr hc, hbl]
    · rename_i hstr
      have hdiv : len / typeLen ty = (len - typeLen ty) / typeLen ty + 1 := by
        rw [Nat.div_eq, if_pos ⟨h0, by omega⟩]
      rw [hdiv, Nat.mul_add, Nat.mul_one] at hroom
      obtain ⟨s, hs, hsl⟩ := printItem_ex h ty pkt opt (by omega) ht hstr
      have key : ∀ b : List Byte, b.length = blk.length → ∃ z, (if len - typeLen ty = 0 then some b
          else (wr b (dest + (s.getD []).length) [ch ' ']).bind fun b =>
            (wr b (dest + (s.getD []).length + 1) [0]).bind fun b =>
              valueLoop h ty pkt fuel b (dest + (s.getD []).length + 1) (opt + typeLen ty) (len - typeLen ty)) = some z ∧
          z.length = blk.length := by
        intro b hbl
        split
        · exact ⟨b, rfl, hbl⟩
        · obtain ⟨c, hc, -⟩ := wr_ex (b := b) (d := [ch ' ']) (i := dest + (s.getD []).length)
            (by simp only [List.length_cons, List.length_nil]; omega)
          have hcl := length_of_wr hc
          obtain ⟨e, he, -⟩ := wr_ex (b := c) (d := [0]) (i := dest + (s.getD []).length + 1)
            (by simp only [List.length_cons, List.length_nil]; omega)
          have hel := length_of_wr he
          simp only [hc, he, Option.bind_some]
          obtain ⟨z, hz, hzl⟩ := ih e (dest + (s.getD []).length + 1) (opt + typeLen ty) (len - typeLen ty)
            (by omega) (by omega)
          exact ⟨z, hz, by omega⟩
      simp only [hs, Option.bind_eq_bind, Option.bind_some]
      cases s with
      | none => exact key blk rfl
      | some t =>
        simp only [Option.getD_some] at hsl
        obtain ⟨b, hb, -⟩ := wr_ex (b := blk) (d := t ++ [0]) (i := dest)
          (by simp only [List.length_append, List.length_cons, List.length_nil]; omega)
        simp only [hb, Option.bind_some]
        exact key b (length_of_wr hb)

/-! ### Addresses -/

theorem nip_dotted (a : Byte × Byte × Byte × Byte) : nip [a.1, a.2.1, a.2.2.1, a.2.2.2] = some (Spec.dotted a) := by
  have : bytes "." = [ch '.'] := by decide
  simp [nip, Spec.dotted, this, List.append_assoc]

theorem dotted_clean (a : Byte × Byte × Byte × Byte) (c : Byte) (h : c.toNat < 46) : c ∉ Spec.dotted a := by
  have hb : bytes "." = [46] := by decide
  have h46 : c ≠ 46 := by intro e; subst e; simp at h
  simp only [Spec.dotted, List.mem_append, hb, List.mem_singleton, not_or]
  exact ⟨⟨⟨⟨⟨⟨dec_no _ _ (by omega), h46⟩, dec_no _ _ (by omega)⟩, h46⟩, dec_no _ _ (by omega)⟩, h46⟩, dec_no _ _ (by omega)⟩

/-- The texts with a blank between any two of them. -/
def joined : List (List Byte) → List Byte
  | [] => []
  | [x] => x
  | x :: y :: t => x ++ ch ' ' :: joined (y :: t)

theorem cut_word (w : List Byte) (hw : ch ' ' ∉ w) (cur : List Byte) : cut cur w = [cur ++ w] := by
  induction w generalizing cur with
  | nil => simp [cut]
  | cons c t ih =>
    simp only [List.mem_cons, not_or] at hw
    rw [cut, if_neg (fun e => hw.1 e.symm), ih hw.2]; simp

theorem cut_blank (w rest : List Byte) (hw : ch ' ' ∉ w) (cur : List Byte) :
    cut cur (w ++ ch ' ' :: rest) = (cur ++ w) :: cut [] rest := by
  induction w generalizing cur with
  | nil => simp [cut]
  | cons c t ih =>
    simp only [List.mem_cons, not_or] at hw
    rw [List.cons_append, cut, if_neg (fun e => hw.1 e.symm), ih hw.2]; simp

theorem cut_joined (l : List (List Byte)) (hne : l ≠ []) (hl : ∀ w ∈ l, ch ' ' ∉ w) : cut [] (joined l) = l := by
  induction l with
  | nil => exact absurd rfl hne
  | cons x t ih =>
    cases t with
    | nil => rw [joined, cut_word x (hl x (by simp))]; simp
    | cons y t =>
      rw [joined, cut_blank x _ (hl x (by simp)), ih (by simp) (fun w hw => hl w (by simp [hw]))]; simp

theorem wr_eq {b d b' : List Byte} {i : Nat} (h : wr b i d = some b') :
    b' = b.take i ++ d ++ b.drop (i + d.length) ∧ i + d.length ≤ b.length := by
  unfold wr at h
  split at h
  · rename_i hl
    cases h
    exact ⟨by simp, hl⟩
  · cases h

theorem take_wr {b d b' : List Byte} {i : Nat} (h : wr b i d = some b') :
    b'.take (i + d.length) = b.take i ++ d := by
  obtain ⟨rfl, hl⟩ := wr_eq h
  have : (b.take i ++ d).length = i + d.length := by rw [List.length_append, List.length_take]; omega
  rw [← this, List.take_append_length]

theorem take_le {b : List Byte} {i j : Nat} (h : i ≤ j) : (b.take j).take i = b.take i := by
  rw [List.take_take, Nat.min_eq_left h]

/-- The loop on a list of addresses. -/
theorem valueLoop_addrs (h : Wire.Host) (pkt : List Byte) (l : List (Byte × Byte × Byte × Byte)) :
    ∀ (fuel : Nat) (blk : List Byte) (dest opt : Nat) (rest : List Byte), l ≠ [] → l.length ≤ fuel →
      dest + 17 * l.length + 1 ≤ blk.length → pkt.drop opt = Spec.addrBytes l ++ rest →
      ∃ b tail, valueLoop h .ip pkt fuel blk dest opt (4 * l.length) = some b ∧
        b = blk.take dest ++ joined (l.map Spec.dotted) ++ 0 :: tail := by
  induction l with
  | nil => intro _ _ _ _ _ hne; exact absurd rfl hne
  | cons a t ih =>
    intro fuel blk dest opt rest _ hf hroom hd
    obtain ⟨f, rfl⟩ : ∃ f, fuel = f + 1 := ⟨fuel - 1, by simp only [List.length_cons] at hf; omega⟩
    simp only [List.length_cons] at hroom hf
    have hd4 : pkt.drop opt = [a.1, a.2.1, a.2.2.1, a.2.2.2] ++ (Spec.addrBytes t ++ rest) := by
      rw [hd]; simp [Spec.addrBytes]
    have hrd : rd pkt opt 4 = some [a.1, a.2.1, a.2.2.1, a.2.2.2] := by
      have hl4 : opt + 4 ≤ pkt.length := by
        have := congrArg List.length hd4
        simp only [List.length_drop, List.length_append, List.length_cons] at this; omega
      rw [rd_some hl4, hd4]; rfl
    have hdl : (Spec.dotted a).length ≤ 15 := nip_length _ _ (nip_dotted a)
    obtain ⟨b, hb, -⟩ := wr_ex (b := blk) (d := Spec.dotted a ++ [0]) (i := dest)
      (by simp only [List.length_append, List.length_cons, List.length_nil]; omega)
    have hbl := length_of_wr hb
    have htk := take_wr hb
    simp only [List.length_append, List.length_cons, List.length_nil] at htk
    unfold valueLoop
    rw [if_neg (by simp only [typeLen, List.length_cons]; omega), if_neg (by simp)]
    simp only [printItem, hrd, nip_dotted, hb, Option.bind_eq_bind, Option.bind_some, Option.getD_some]
    cases t with
    | nil =>
      rw [if_pos (by simp [typeLen])]
      refine ⟨b, b.drop (dest + ((Spec.dotted a).length + (0 + 1))), rfl, ?_⟩
      conv => lhs; rw [← List.take_append_drop (dest + ((Spec.dotted a).length + (0 + 1))) b]
      rw [htk]; simp [joined]
    | cons a2 t =>
      rw [if_neg (by simp only [typeLen, List.length_cons]; omega)]
      obtain ⟨c, hc, -⟩ := wr_ex (b := b) (d := [ch ' ']) (i := dest + (Spec.dotted a).length)
        (by simp only [List.length_cons, List.length_nil] at *; omega)
      have hcl := length_of_wr hc
      have hct := take_wr hc
      simp only [List.length_cons, List.length_nil] at hct hroom
      obtain ⟨e, he, -⟩ := wr_ex (b := c) (d := [0]) (i := dest + (Spec.dotted a).length + 1)
        (by simp only [List.length_cons, List.length_nil] at *; omega)
      have hel := length_of_wr he
      have het := take_wr he
      simp only [List.length_cons, List.length_nil] at het
      simp only [hc, he, Option.bind_some]
      obtain ⟨z, tail, hz, hzb⟩ := ih f e (dest + (Spec.dotted a).length + 1) (opt + 4) rest (by simp)
        (by simp only [List.length_cons] at hf ⊢; omega)
        (by simp only [List.length_cons]; omega)
        (by rw [← List.drop_drop, hd4]; rfl)
      refine ⟨z, tail, ?_, ?_⟩
      · rw [← hz]
        congr 1
      · rw [hzb]
        have h1 : e.take (dest + (Spec.dotted a).length + 1) = blk.take dest ++ Spec.dotted a ++ [ch ' '] := by
          have e1 : e.take (dest + (Spec.dotted a).length + 1) = c.take (dest + (Spec.dotted a).length + 1) := by
            rw [← take_le (Nat.le_add_right _ (0 + 1)), het]
            rw [List.take_append_of_le_length (by rw [List.length_take]; omega), List.take_take]
            congr 1; omega
          rw [e1, show dest + (Spec.dotted a).length + 1 = dest + (Spec.dotted a).length + (0 + 1) from rfl, hct]
          congr 1
          rw [← take_le (show dest + (Spec.dotted a).length ≤ dest + ((Spec.dotted a).length + (0 + 1)) by omega), htk,
            ← List.append_assoc, List.take_append_of_le_length (by rw [List.length_append, List.length_take]; omega)]
          rw [List.take_of_length_le (by rw [List.length_append, List.length_take]; omega)]
        rw [h1]
        simp [joined]

theorem cstr_at (p tail : List Byte) (h : (0 : Byte) ∉ p) : cstr (p ++ 0 :: tail) = some p := by
  unfold cstr
  rw [if_pos (by simp)]
  congr 1
  rw [List.takeWhile_append_of_pos (by
    intro a ha
    have : a ≠ 0 := fun e => h (e ▸ ha)
    simp [this])]
  simp

theorem joined_clean (l : List (List Byte)) (hl : ∀ w ∈ l, (0 : Byte) ∉ w) : (0 : Byte) ∉ joined l := by
  induction l with
  | nil => simp [joined]
  | cons x t ih =>
    cases t with
    | nil => simpa [joined] using hl x (by simp)
    | cons y t =>
      rw [joined]
      simp only [List.mem_append, List.mem_cons, not_or]
      exact ⟨hl x (by simp), by decide, ih (fun w hw => hl w (by simp [hw]))⟩

end Verif.OptValue
