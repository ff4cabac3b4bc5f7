import Verif.Model.Mac
import Verif.Spec.Mac
/-!
# C51: canonical MAC addresses
-/
namespace Verif.Mac
open Verif.C

theorem scan_length (zx : Bool) (n : Nat) (s : List Byte) : (scan zx n s).length = n := by
  induction n generalizing s with
  | zero => rfl
  | succ n ih =>
    unfold scan
    split
    · simp
    · simp only [List.length_cons]
      split
      · simp_all
      · split
        · rw [ih]
        · simp

theorem hexDigit_lower (n : Nat) (h : n < 16) : Spec.lower[n]? = some (hexDigit n) := by
  have : ∀ n < 16, Spec.lower[n]? = some (hexDigit n) := by decide
  exact this n h

theorem format_canon (bs : List Byte) (h : bs.length = 6) : Spec.IsCanon (format bs) bs := by
  match bs, h with
  | [a, b, c, d, e, f], _ =>
    refine ⟨rfl, [hex2 a, hex2 b, hex2 c, hex2 d, hex2 e, hex2 f], rfl, rfl, ?_⟩
    intro i x y hx hy
    have key : ∀ z : Byte, ∃ c d, hex2 z = [c, d] ∧ Spec.lower[z.toNat / 16]? = some c ∧ Spec.lower[z.toNat % 16]? = some d := by
      intro z
      have := z.toNat_lt
      exact ⟨_, _, rfl, hexDigit_lower _ (by omega), hexDigit_lower _ (by omega)⟩
    match i with
    | 0 | 1 | 2 | 3 | 4 | 5 =>
      simp only [List.getElem?_cons_zero, List.getElem?_cons_succ, Option.some.injEq] at hx hy
      subst hx hy; exact key _
    | n + 6 => simp at hx

theorem format_length (bs : List Byte) (h : bs.length = 6) : (format bs).length = 17 := by
  match bs, h with
  | [a, b, c, d, e, f], _ => rfl

/-- **C51 (shape).** Whatever the source string, a destination of `MAC_STRLEN` (18) bytes is enough: the
call is defined and leaves there the canonical text of some six bytes, 17 characters and a NUL. -/
theorem reformat_canonical (zx : Bool) (dst src : List Byte) (hd : 18 ≤ dst.length) :
    ∃ bs text, Spec.IsCanon text bs ∧ text.length = 17 ∧ reformat zx dst src = some (text ++ 0 :: dst.drop 18) := by
  have hl := scan_length zx 6 src
  have hf := format_length _ hl
  refine ⟨_, _, format_canon _ hl, hf, ?_⟩
  unfold reformat
  rw [wr_some (by simp [hf]; omega)]
  simp [hf]

/-- One byte of room less is not enough. -/
theorem reformat_needs_18 (zx : Bool) (dst src : List Byte) (hd : dst.length < 18) : reformat zx dst src = none := by
  have hf := format_length _ (scan_length zx 6 src)
  unfold reformat wr
  rw [if_neg (by simp [hf]; omega)]

example : reformat false (List.replicate 18 7) (bytes "A:b:0C:d:e:FF") = some (bytes "0a:0b:0c:0d:0e:ff" ++ [0]) ∧
    reformat false (List.replicate 17 7) (bytes "A:b:0C:d:e:FF") = none := by decide +kernel

theorem digit_facts (c : Byte) (v : Nat) (h : Spec.Digit c v) :
    v < 16 ∧ digitVal c = some v ∧ isSpace c = false ∧ c ≠ 45 ∧ c ≠ 43 ∧ c ≠ 120 ∧ c ≠ 88 := by
  have hv : v < 16 := by
    rcases h with h | h
    · have := (List.getElem?_eq_some_iff.mp h).1; exact this
    · have := (List.getElem?_eq_some_iff.mp h).1; exact this
  have : ∀ v < 16, ∀ c : Byte, (Spec.lower[v]? = some c ∨ Spec.upper[v]? = some c) →
      digitVal c = some v ∧ isSpace c = false ∧ c ≠ 45 ∧ c ≠ 43 ∧ c ≠ 120 ∧ c ≠ 88 := by
    intro v hv c hc
    have h1 : ∀ v : Fin 16, ∀ c : Fin 256, (Spec.lower[v.val]? = some (UInt8.ofNat c.val) ∨ Spec.upper[v.val]? = some (UInt8.ofNat c.val)) →
        digitVal (UInt8.ofNat c.val) = some v.val ∧ isSpace (UInt8.ofNat c.val) = false ∧ UInt8.ofNat c.val ≠ 45 ∧
        UInt8.ofNat c.val ≠ 43 ∧ UInt8.ofNat c.val ≠ 120 ∧ UInt8.ofNat c.val ≠ 88 := by decide +kernel
    have h2 := h1 ⟨v, hv⟩ ⟨c.toNat, c.toNat_lt⟩
    simp only [UInt8.ofNat_toNat] at h2
    exact h2 hc
  exact ⟨hv, this v hv c h⟩

/-- A field written with one or two digits is read back if a colon or the end follows. -/
theorem scanHex2_writes (zx : Bool) (s : List Byte) (b : Byte) (h : Spec.Writes s b) (rest : List Byte)
    (hr : rest = [] ∨ rest.head? = some 58) : scanHex2 zx (s ++ rest) = some (b, rest) := by
  have hrd : ∀ r ∈ rest.head?, isDigit 16 r = false := by
    intro r hr'
    rcases hr with rfl | hr
    · simp at hr'
    · rw [hr] at hr'; simp at hr'; subst hr'; decide
  have hrx : rest.head? ≠ some 120 ∧ rest.head? ≠ some 88 := by
    rcases hr with rfl | hr
    · simp
    · rw [hr]; decide
  rcases h with ⟨c, rfl, hc⟩ | ⟨c, d, hi, lo, rfl, hc, hd, hb⟩
  · obtain ⟨hv, hdv, hsp, h45, h43, _, _⟩ := digit_facts c _ hc
    have hdig : isDigit 16 c = true := by simp [isDigit, hdv]; exact hv
    unfold scanHex2
    simp only [List.cons_append, List.nil_append, List.dropWhile_cons, hsp, Bool.false_eq_true, if_false,
      List.head?_cons, Option.some.injEq, h45, h43, or_self, List.drop_zero]
    rw [if_neg (by
      simp only [List.getElem?_cons_succ, ← List.head?_eq_getElem?]
      intro hh; rcases hh.2.2 with h | h
      · exact hrx.1 h
      · exact hrx.2 h)]
    have htw : List.takeWhile (isDigit 16) (List.take (2 - 0) (c :: rest)) = [c] := by
      cases rest with
      | nil => simp [hdig]
      | cons r rs =>
        have := hrd r (by simp)
        simp [hdig, this]
    rw [htw, if_neg (by simp)]
    simp only [digitsVal, List.foldl_cons, List.foldl_nil, hdv, Option.getD_some, List.length_cons, List.length_nil, Nat.zero_mul, Nat.zero_add,
      List.drop_succ_cons, List.drop_zero]
    congr 2
    apply UInt8.toNat_inj.mp; simp
  · obtain ⟨hv, hdv, hsp, h45, h43, _, _⟩ := digit_facts c _ hc
    obtain ⟨hv2, hdv2, _, _, _, hx, hX⟩ := digit_facts d _ hd
    have hdig : isDigit 16 c = true := by simp [isDigit, hdv]; exact hv
    have hdig2 : isDigit 16 d = true := by simp [isDigit, hdv2]; exact hv2
    unfold scanHex2
    simp only [List.cons_append, List.nil_append, List.dropWhile_cons, hsp, Bool.false_eq_true, if_false,
      List.head?_cons, Option.some.injEq, h45, h43, or_self, List.drop_zero]
    rw [if_neg (by
      simp only [List.getElem?_cons_succ, List.getElem?_cons_zero, Option.some.injEq]
      intro hh; rcases hh.2.2 with h | h
      · exact hx h
      · exact hX h)]
    have htw : List.takeWhile (isDigit 16) (List.take (2 - 0) (c :: d :: rest)) = [c, d] := by
      simp [hdig, hdig2]
    rw [htw, if_neg (by simp)]
    simp only [digitsVal, List.foldl_cons, List.foldl_nil, hdv, hdv2, Option.getD_some, List.length_cons, List.length_nil, Nat.zero_mul, Nat.zero_add,
      List.drop_succ_cons, List.drop_zero]
    congr 2
    apply UInt8.toNat_inj.mp
    have := b.toNat_lt
    simp; omega

theorem scan_join (zx : Bool) (fs : List (List Byte)) (bs : List Byte) (h : Spec.WritesAll fs bs) :
    scan zx fs.length (Spec.join fs) = bs := by
  induction h with
  | nil => rfl
  | @cons s b fs bs hw hrest ih =>
    cases hrest with
    | nil =>
      simp only [Spec.join, List.length_cons, List.length_nil, scan]
      have := scanHex2_writes zx s b hw [] (Or.inl rfl)
      rw [List.append_nil] at this
      rw [this]; simp
    | @cons s2 b2 fs2 bs2 hw2 hrest2 =>
      simp only [Spec.join, List.length_cons] at ih ⊢
      rw [show scan zx (fs2.length + 1 + 1) (s ++ 58 :: Spec.join (s2 :: fs2)) = b :: b2 :: bs2 from ?_]
      rw [scan, scanHex2_writes zx s b hw _ (Or.inr rfl)]
      simp only [Nat.add_one_ne_zero, if_false]
      rw [ih]

/-- **C51 (variants).** Every way to write an address — one or two digits per byte, any case — is turned
into one and the same text. -/
theorem reformat_variants (zx : Bool) (dst : List Byte) (bs : List Byte) (f1 f2 : List (List Byte)) (hb : bs.length = 6)
    (h1 : Spec.WritesAll f1 bs) (h2 : Spec.WritesAll f2 bs) :
    reformat zx dst (Spec.join f1) = reformat zx dst (Spec.join f2) := by
  have hlen : ∀ fs bs, Spec.WritesAll fs bs → fs.length = bs.length := by
    intro fs bs h
    induction h with
    | nil => rfl
    | cons _ _ ih => simp [ih]
  have e1 := scan_join zx f1 bs h1
  have e2 := scan_join zx f2 bs h2
  rw [hlen _ _ h1, hb] at e1
  rw [hlen _ _ h2, hb] at e2
  unfold reformat
  rw [e1, e2]

example : Spec.Writes [65] 10 ∧ Spec.Writes (bytes "0a") 10 ∧ Spec.Writes (bytes "Ff") 255 ∧
    reformat false (List.replicate 18 7) (bytes "A:b:0C:D:1:fF") = some (bytes "0a:0b:0c:0d:01:ff" ++ [0]) := by
  refine ⟨Or.inl ⟨65, rfl, Or.inr (by decide)⟩, Or.inr ⟨48, 97, 0, 10, by decide, Or.inl (by decide), Or.inl (by decide), by decide⟩,
    Or.inr ⟨70, 102, 15, 15, by decide, Or.inr (by decide), Or.inl (by decide), by decide⟩, by decide +kernel⟩

theorem canon_writes (bs : List Byte) (h : bs.length = 6) :
    ∃ fs, format bs = Spec.join fs ∧ Spec.WritesAll fs bs := by
  have w : ∀ z : Byte, Spec.Writes (hex2 z) z := by
    intro z
    have := z.toNat_lt
    exact Or.inr ⟨_, _, z.toNat / 16, z.toNat % 16, rfl, Or.inl (hexDigit_lower _ (by omega)), Or.inl (hexDigit_lower _ (by omega)), by omega⟩
  match bs, h with
  | [a, b, c, d, e, f], _ =>
    exact ⟨[hex2 a, hex2 b, hex2 c, hex2 d, hex2 e, hex2 f], rfl,
      .cons (w a) (.cons (w b) (.cons (w c) (.cons (w d) (.cons (w e) (.cons (w f) .nil)))))⟩

/-- **C51 (idempotent).** Reformatting the text left by a call gives the same text again. -/
theorem reformat_idempotent (zx : Bool) (dst dst2 src out : List Byte) (hd : 18 ≤ dst.length) (hd2 : 18 ≤ dst2.length)
    (h : reformat zx dst src = some out) :
    ∃ out2, reformat zx dst2 (out.take 17) = some out2 ∧ out2.take 18 = out.take 18 ∧ out[17]? = some 0 := by
  have hl := scan_length zx 6 src
  have hf := format_length _ hl
  obtain ⟨fs, hj, hw⟩ := canon_writes _ hl
  have hout : out = format (scan zx 6 src) ++ 0 :: dst.drop 18 := by
    unfold reformat at h
    rw [wr_some (by simp [hf]; omega)] at h
    simp [hf] at h
    rw [← h]
  have htake : out.take 17 = format (scan zx 6 src) := by rw [hout, ← hf, List.take_left]
  have hfl : fs.length = 6 := by
    have hlen : ∀ fs bs, Spec.WritesAll fs bs → fs.length = bs.length := by
      intro fs bs h
      induction h with
      | nil => rfl
      | cons _ _ ih => simp [ih]
    rw [hlen _ _ hw, hl]
  have hscan : scan zx 6 (format (scan zx 6 src)) = scan zx 6 src := by
    have := scan_join zx fs _ hw
    rw [hfl, ← hj] at this
    exact this
  rw [htake]
  refine ⟨format (scan zx 6 src) ++ 0 :: dst2.drop 18, ?_, ?_, ?_⟩
  · unfold reformat
    rw [hscan, wr_some (by simp [hf]; omega)]
    simp [hf]
  · rw [hout]
    simp [List.take_append, hf]
  · rw [hout, List.getElem?_append_right (by omega), hf]; rfl

/-- **C51 (distinct).** Different addresses have different texts. -/
theorem reformat_injective (zx : Bool) (a b : List Byte) (fa fb : List (List Byte)) (ha : a.length = 6) (hb : b.length = 6)
    (h1 : Spec.WritesAll fa a) (h2 : Spec.WritesAll fb b) (dst : List Byte) (hd : 18 ≤ dst.length)
    (h : reformat zx dst (Spec.join fa) = reformat zx dst (Spec.join fb)) : a = b := by
  have hlen : ∀ fs bs, Spec.WritesAll fs bs → fs.length = bs.length := by
    intro fs bs h
    induction h with
    | nil => rfl
    | cons _ _ ih => simp [ih]
  have e1 := scan_join zx fa a h1
  have e2 := scan_join zx fb b h2
  rw [hlen _ _ h1, ha] at e1
  rw [hlen _ _ h2, hb] at e2
  have l1 := format_length a ha
  have l2 := format_length b hb
  unfold reformat at h
  rw [e1, e2, wr_some (by simp [l1]; omega), wr_some (by simp [l2]; omega)] at h
  simp only [List.take_zero, List.nil_append, Option.some.injEq, List.append_assoc] at h
  have hfmt : format a = format b := by
    have := congrArg (List.take 17) h
    rwa [← l1, List.take_left, l1, ← l2, List.take_left] at this
  obtain ⟨f1, hj1, hw1⟩ := canon_writes a ha
  obtain ⟨f2, hj2, hw2⟩ := canon_writes b hb
  have s1 := scan_join zx f1 a hw1
  have s2 := scan_join zx f2 b hw2
  rw [hlen _ _ hw1, ha, ← hj1] at s1
  rw [hlen _ _ hw2, hb, ← hj2] at s2
  rw [← s1, ← s2, hfmt]

example : reformat false (List.replicate 18 0) (bytes "1:2:3:4:5:6") ≠ reformat false (List.replicate 18 0) (bytes "1:2:3:4:5:60") ∧
    Spec.join [[49], [50], [51], [52], [53], [54, 48]] = bytes "1:2:3:4:5:60" := by decide +kernel

end Verif.Mac
