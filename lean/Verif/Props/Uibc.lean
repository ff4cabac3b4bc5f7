import Verif.Proof.Uibc
import Verif.Proof.Wpas
/-! # The user input back channel: C58, C59, C60, C80, C81 -/
namespace Verif.Uibc
open Verif.C Spec

/-! ### C60 -/

/-- The fields are the text cut at the delimiters: no field has one, and written with delimiters between them they are the text. -/
theorem fields_spec (d : Byte) (s : List Byte) : join d (fields d s) = s ∧ ∀ f ∈ fields d s, d ∉ f := ⟨join_fields d s, fields_free d s⟩

/-- **C60**: a text that does not end with a delimiter is split into its fields, in order, inside the array. -/
theorem split_partial (s : List Byte) (h : s.getLast? ≠ some comma) : strSplit s = some (fields comma s) := by
  rw [split_eq, if_neg h]

/-- **C60** refuted: whenever the text ends with a delimiter, `str_split` writes behind the array it allocated. -/
theorem split_overflow (s : List Byte) (h : s.getLast? = some comma) : strSplit s = none := by
  rw [split_eq, if_pos h]

example : strSplit (bytes "0,1,,20") = some [bytes "0", bytes "1", [], bytes "20"] := by decide +kernel
example : strSplit (bytes "0,1,") = none ∧ strSplit [] = some [[]] := by decide +kernel

/-! ### C58 -/

/-- **C58** refuted: no touch packet is ever built inside its buffer. Whatever the input, the builder either refuses it or
writes behind the memory it allocated (or worse). -/
theorem touch_never (junk : Nat → Byte) (s p : List Byte) (h : touch id junk s = some p) : p = [] := by
  obtain ⟨toks, _, h1 | ⟨n, _, _, len, h2⟩⟩ := touch_some h
  · exact h1
  · exact absurd h2 (Nat.lt_irrefl _)

/-- **C58** refuted: more pointers than there are tokens for are read from behind the array of tokens, however much memory there is. -/
theorem touch_overread (room : Nat → Nat) (junk : Nat → Byte) (s : List Byte) (n : Nat) (h5 : 5 ≤ (fields comma s).length) (h3 : ((fields comma s).length - 5) % 3 = 0)
    (hn : (fields comma s)[1]?.bind atoi = some (n : Int)) (hbig : (fields comma s).length < 2 + n * 3) : touch room junk s = none := by
  cases ht : touch room junk s with
  | none => rfl
  | some p =>
    exfalso
    obtain ⟨toks, h1, h2 | ⟨m, h2, h4, _⟩⟩ := touch_some ht
    · subst h2
      rw [split_eq] at h1
      split at h1
      · cases h1
      · rename_i hc
        cases h1
        -- an accepted event is never answered with an empty packet
        unfold touch at ht
        rw [split_eq, if_neg hc] at ht
        simp only [Option.bind_eq_bind, Option.bind_some] at ht
        rw [if_neg (by omega)] at ht
        simp only [Option.bind_eq_some_iff] at ht
        obtain ⟨t0, g0, ty, e0, t1, g1, k, e1, m, i1, g, i2, len0, i3, h3⟩ := ht
        rw [g1] at hn
        simp only [Option.bind_some] at hn
        rw [e1] at hn
        obtain rfl : k = n := Option.some.inj hn
        split at h3
        · cases h3
        · simp only [Option.bind_eq_some_iff] at h3
          obtain ⟨b1, w1, b2, w2, _⟩ := h3
          have := pointers_reads _ _ _ _ _ w2
          omega
    · rw [split_eq] at h1
      split at h1
      · cases h1
      · cases h1
        rw [hn] at h2
        obtain rfl : (n : Int) = m := Option.some.inj h2
        omega

/-- A number as it is written. -/
structure Num where
  text : List Byte
  val : Int
  reads : atoi text = some val

/-- **C58**, what remains: if there is at least one more byte than asked for, an event whose number of pointers is positive and
covered by tokens gives exactly the packet for it. Missing: everything if `malloc` gives no more than it must, and inputs with a wrong
number of pointers. -/
theorem touch_partial (room : Nat → Nat) (hroom : ∀ n, n < room n) (junk : Nat → Byte) (s : List Byte) (h : s.getLast? ≠ some comma)
    (ty cnt : Num) (ps : List (Num × Num × Num)) (extra : List (List Byte))
    (hf : fields comma s = [ty.text, cnt.text] ++ ((ps.flatMap fun p => [p.1.text, p.2.1.text, p.2.2.text]) ++ extra)) (hx : extra.length % 3 = 0)
    (hcnt : cnt.val = ps.length) (h1 : ps ≠ []) (h2 : ps.length * 5 + 9 < 2147483648) :
    touch room junk s = some (message (touchBody ty.val (ps.map fun p => (p.1.val, p.2.1.val, p.2.2.val)))) := by
  have hpos : 0 < ps.length := List.length_pos_iff.mpr h1
  have hlen := triple_length (fun p : Num × Num × Num => (p.1.text, p.2.1.text, p.2.2.text)) ps
  have hget := triple_get (fun p : Num × Num × Num => (p.1.text, p.2.1.text, p.2.2.text)) extra ps
  simp only [] at hlen hget
  generalize hT : ((ps.flatMap fun p => [p.1.text, p.2.1.text, p.2.2.text]) ++ extra) = T at *
  have hTl : T.length = ps.length * 3 + extra.length := by rw [← hT, List.length_append, hlen]
  unfold touch
  rw [split_partial s h, hf]
  simp only [Option.bind_eq_bind, Option.bind_some]
  rw [if_neg (by simp only [List.length_append, List.length_cons, List.length_nil, hTl]; omega)]
  have hg0 : ([ty.text, cnt.text] ++ T)[0]? = some ty.text := rfl
  have hg1 : ([ty.text, cnt.text] ++ T)[1]? = some cnt.text := rfl
  rw [hg0, hg1]
  simp only [Option.bind_some, ty.reads, cnt.reads, hcnt]
  rw [int32_ok (by omega) (by omega)]
  simp only [Option.bind_some]
  rw [int32_ok (by omega) (by omega)]
  simp only [Option.bind_some]
  rw [int32_ok (by omega) (by omega)]
  simp only [Option.bind_some]
  have hb : bodyLen ((ps.length : Int) * 5 + 1 + 7) = if (ps.length * 5 + 8) % 2 = 0 then ps.length * 5 + 8 else ps.length * 5 + 8 + 1 := by
    rw [← bodyLen_nat]; congr 1
  have hL2 : (bodyLen ((ps.length : Int) * 5 + 1 + 7) = ps.length * 5 + 8 ∧ ps.length % 2 = 0) ∨ (bodyLen ((ps.length : Int) * 5 + 1 + 7) = ps.length * 5 + 9 ∧ ps.length % 2 = 1) := by
    rw [hb]; split
    · left; omega
    · right; omega
  clear hb
  generalize bodyLen ((ps.length : Int) * 5 + 1 + 7) = L at *
  have hW : W64 = 18446744073709551616 := rfl
  rw [if_neg (by omega)]
  have hr := hroom L
  obtain ⟨b1, w1, l1, _⟩ := wr_ex (b := fresh junk (room L)) (d := [0, 0, hi L, lo L, lo ty.val, hi ((ps.length : Int) * 5 + 1), lo ((ps.length : Int) * 5 + 1), lo (ps.length : Int)]) (i := 0)
    (by rw [length_fresh]; simp; omega)
  rw [w1]
  simp only [Option.bind_some, Int.toNat_natCast]
  rw [length_fresh] at l1
  have t1 := OptValue.take_wr w1
  simp only [List.length_cons, List.length_nil, List.take_zero, List.nil_append] at t1
  obtain ⟨b2, w2, q2⟩ := pointers_ok ([ty.text, cnt.text] ++ T) (fun j => ((ps[j]?).map fun p => (p.1.val, p.2.1.val, p.2.2.val)).getD (0, 0, 0)) ps.length 0 b1 (by
    intro j _ hj
    have hj : j < ps.length := by omega
    obtain ⟨p, hp⟩ : ∃ p, ps[j]? = some p := ⟨_, List.getElem?_eq_getElem hj⟩
    obtain ⟨x, y, z⟩ := hget j p hp
    have e : ∀ k, ([ty.text, cnt.text] ++ T)[2 + k]? = T[k]? := by
      intro k; rw [Nat.add_comm]; rfl
    rw [Nat.add_assoc, Nat.add_assoc, e, e, e, x, y, z]
    simp only [Option.bind_some, hp, Option.map_some, Option.getD_some]
    exact ⟨p.1.reads, p.2.1.reads, p.2.2.reads⟩) (by omega)
  rw [w2]
  simp only [Option.bind_some]
  have l2 := pointers_length _ _ _ _ _ w2
  rw [if_pos (by omega)]
  obtain ⟨b3, w3⟩ := clear_ok (L + 1 - (8 + ps.length * 5)) (8 + ps.length * 5) b2 (by omega)
  rw [w3]
  simp only [Option.bind_some]
  obtain ⟨_, l3, q3⟩ := clear_some _ _ _ _ w3
  rw [rd_some (by omega)]
  have q3 := q3 (by omega)
  rw [List.drop_zero]
  have e1 : b3.take L = (b3.take (8 + ps.length * 5 + (L + 1 - (8 + ps.length * 5)))).take L := by
    rw [List.take_take]; congr 1; omega
  have e2 : b2.take (8 + ps.length * 5) = b1.take 8 ++ ((ps.map fun p => (p.1.val, p.2.1.val, p.2.2.val)).map fun p => u8 p.1 ++ u16 p.2.1 ++ u16 p.2.2).flatten := by
    have := range_map (fun p : Int × Int × Int => u8 p.1 ++ u16 p.2.1 ++ u16 p.2.2) (0, 0, 0) (ps.map fun p => (p.1.val, p.2.1.val, p.2.2.val))
    simp only [List.getElem?_map, List.length_map] at this
    rw [Nat.zero_add, Nat.zero_mul, Nat.add_zero] at q2
    rw [q2, this]
  rw [e1, q3, e2, t1]
  generalize hV : (ps.map fun p => (p.1.val, p.2.1.val, p.2.2.val)) = V
  have hVl : V.length = ps.length := by rw [← hV, List.length_map]
  have hd := flat5 id V
  simp only [id] at hd
  rw [hVl] at hd
  unfold message touchBody
  generalize hD : (V.map fun p => u8 p.1 ++ u16 p.2.1 ++ u16 p.2.2).flatten = D at *
  congr 1
  simp only [hVl, List.length_append, hd, u8, u16, List.length_cons, List.length_nil]
  rcases hL2 with ⟨hL, hp⟩ | ⟨hL, hp⟩
  · rw [if_pos (by omega)]
    rw [hL]
    simp only [List.length_append, hd, u8, u16, List.length_cons, List.length_nil]
    rw [List.take_append_of_le_length (by simp [hd]; try omega), List.take_of_length_le (by simp [hd]; try omega)]
    simp only [lo, hi, List.cons_append, List.nil_append, List.append_assoc]
    have x1 : ((ps.length * 5 + 8 : Nat) : Int) = ((0 + 1 + (0 + 1 + 1) + (0 + 1 + ps.length * 5) : Nat) : Int) + 4 := by omega
    have x2 : ((ps.length : Int) * 5 + 1) = ((0 + 1 + ps.length * 5 : Nat) : Int) := by omega
    rw [x1, x2]
  · rw [if_neg (by omega)]
    rw [hL]
    simp only [List.length_append, hd, u8, u16, List.length_cons, List.length_nil]
    have x0 : ps.length * 5 + 9 + 1 - (8 + ps.length * 5) = 2 := by omega
    have x1 : ((ps.length * 5 + 9 : Nat) : Int) = ((0 + 1 + (0 + 1 + 1) + (0 + 1 + ps.length * 5) + (0 + 1) : Nat) : Int) + 4 := by omega
    have x2 : ((ps.length : Int) * 5 + 1) = ((0 + 1 + ps.length * 5 : Nat) : Int) := by omega
    rw [x0, List.take_append]
    rw [List.take_of_length_le (by simp [hd]; try omega)]
    have x3 : (List.replicate 2 (0 : Byte)).take (ps.length * 5 + 9 - ([0, 0, hi ((ps.length * 5 + 9 : Nat) : Int), lo ((ps.length * 5 + 9 : Nat) : Int), lo ty.val, hi ((ps.length : Int) * 5 + 1), lo ((ps.length : Int) * 5 + 1), lo (ps.length : Int)] ++ D).length) = [0] := by
      rw [show ps.length * 5 + 9 - _ = 1 by simp [hd]; try omega]; rfl
    rw [x3]
    simp only [lo, hi, List.cons_append, List.nil_append, List.append_assoc]
    rw [x1, x2]

/-- A pointer count of zero passes the check of the tokens; the packet announces no length at all for its eight bytes, and nothing of it
is what was asked for (with room to spare). -/
theorem touch_zero : touch (· + 1) (fun _ => 7) (bytes "0,0,5,6,7") = some (List.replicate 8 0)
    ∧ message (touchBody 0 []) = [0, 0, 0, 8, 0, 0, 1, 0] := by decide +kernel

/-- Refusals: too few tokens or a number of tokens that does not fit whole pointers. -/
theorem touch_refused (room : Nat → Nat) (junk : Nat → Byte) (s : List Byte) (h : s.getLast? ≠ some comma)
    (hb : (fields comma s).length < 5 ∨ (fields comma s).length % 3 ≠ 2) : touch room junk s = some [] := by
  unfold touch
  rw [split_partial s h]
  simp only [Option.bind_eq_bind, Option.bind_some]
  rw [if_pos (by omega)]

example : touch (· + 1) (fun _ => 7) (bytes "1,2,0,300,400,1,-1,65537\n") = some [0, 0, 0, 18, 1, 0, 11, 2, 0, 1, 44, 1, 144, 1, 255, 255, 0, 1]
    ∧ message (touchBody 1 [(0, 300, 400), (1, -1, 65537)]) = [0, 0, 0, 18, 1, 0, 11, 2, 0, 1, 44, 1, 144, 1, 255, 255, 0, 1] := by decide +kernel
example : touch (· + 1) (fun _ => 7) (bytes "0,1,0,300,400\n") = some [0, 0, 0, 14, 0, 0, 6, 1, 0, 1, 44, 1, 144, 0]
    ∧ touch id (fun _ => 7) (bytes "0,1,0,300,400\n") = none ∧ touch (· + 1000) (fun _ => 7) (bytes "0,2,0,300,400\n") = none := by decide +kernel
example : touch id (fun _ => 7) (bytes "0,1,0,300\n") = some [] := by decide +kernel
/-- The hypotheses of `touch_partial` are met by an event with two pointers. -/
example : ∃ (ty cnt : Num) (ps : List (Num × Num × Num)), fields comma (bytes "1,2,0,300,400,1,-1,65537\n") = [ty.text, cnt.text] ++ ((ps.flatMap fun p => [p.1.text, p.2.1.text, p.2.2.text]) ++ [])
    ∧ cnt.val = ps.length ∧ ps ≠ [] :=
  ⟨⟨bytes "1", 1, by decide +kernel⟩, ⟨bytes "2", 2, by decide +kernel⟩,
    [(⟨bytes "0", 0, by decide +kernel⟩, ⟨bytes "300", 300, by decide +kernel⟩, ⟨bytes "400", 400, by decide +kernel⟩),
     (⟨bytes "1", 1, by decide +kernel⟩, ⟨bytes "-1", -1, by decide +kernel⟩, ⟨bytes "65537\n", 65537, by decide +kernel⟩)], by decide +kernel, by decide, by simp⟩

/-! ### C59 -/

/-- Text that is a key code: spaces, the prefix, one to four hexadecimal digits, and nothing or white space behind fewer than four digits. -/
def KeyText (t : List Byte) (v : Nat) : Prop :=
  ∃ sp ds tail, t = sp ++ bytes "0x" ++ ds ++ tail ∧ (∀ c ∈ sp, isSpace c = true) ∧ ds ≠ [] ∧ ds.length ≤ 4 ∧ (∀ c ∈ ds, (hexOf c).isSome = true)
    ∧ (ds.length = 4 ∨ tail = [] ∨ ∃ c u, tail = c :: u ∧ isSpace c = true) ∧ v = hexVal ds

theorem message_key (ty k1 k2 : Int) : message (keyBody ty k1 k2) = [0, 0, 0, 12] ++ u8 ty ++ [0, 5] ++ [0] ++ u16 k1 ++ u16 k2 := by
  have e2 : u16 ((5 : Nat) : Int) = [0, 5] ∧ u16 (((8 : Nat) : Int) + 4) = [0, 12] := by decide +kernel
  have h1 : keyBody ty k1 k2 = u8 ty ++ [0, 5] ++ ([0] ++ u16 k1 ++ u16 k2) := by
    unfold keyBody
    show u8 ty ++ u16 ((5 : Nat) : Int) ++ _ = _
    rw [e2.1]
  rw [h1]
  have h8 : (u8 ty ++ [0, 5] ++ ([0] ++ u16 k1 ++ u16 k2)).length = 8 := rfl
  unfold message
  simp only [h8, Nat.reduceMod, if_true]
  rw [e2.2]
  rfl

/-- The packet `key` builds for three tokens, whatever they are. -/
theorem key_eq (zx : Bool) (junk : Nat → Byte) (s : List Byte) (h : s.getLast? ≠ some comma) (t0 t1 t2 : List Byte) (extra : List (List Byte))
    (hf : fields comma s = t0 :: t1 :: t2 :: extra) (hx : extra.length % 3 = 0) (ty : Int) (hty : atoi t0 = some ty) :
    key zx junk s = some (message (keyBody ty ((sscanfKey zx t1).getD 0) ((sscanfKey zx t2).getD ((sscanfKey zx t1).getD 0)))) := by
  unfold key
  rw [split_partial s h, hf]
  simp only [Option.bind_eq_bind, Option.bind_some]
  rw [if_neg (by simp only [List.length_cons]; omega)]
  simp only [List.getElem?_cons_zero, List.getElem?_cons_succ, Option.bind_some, hty]
  generalize (sscanfKey zx t1).getD 0 = k1
  generalize (sscanfKey zx t2).getD k1 = k2
  obtain ⟨b1, w1, l1, _⟩ := wr_ex (b := fresh junk 13) (d := [0, 0, hi 12, lo 12, lo ty, hi 5, lo 5, 0]) (i := 0) (by rw [length_fresh]; simp)
  rw [length_fresh] at l1
  obtain ⟨b2, w2, l2, _⟩ := wr_ex (b := b1) (d := [hi k1, lo k1]) (i := 8) (by rw [l1]; simp)
  obtain ⟨b3, w3, l3, _⟩ := wr_ex (b := b2) (d := [hi k2, lo k2]) (i := 10) (by rw [l2, l1]; simp)
  rw [w1]; simp only [Option.bind_some]
  rw [w2]; simp only [Option.bind_some]
  rw [w3]; simp only [Option.bind_some]
  have t1' := OptValue.take_wr w1
  have t2' := OptValue.take_wr w2
  have t3' := OptValue.take_wr w3
  simp only [List.length_cons, List.length_nil, List.take_zero, List.nil_append] at t1' t2' t3'
  rw [rd_some (by omega)]
  show some (b3.take 12) = _
  rw [t3', t2', t1']
  have e1 : hi 12 = 0 ∧ lo 12 = 12 ∧ hi 5 = 0 ∧ lo 5 = 5 := by decide +kernel
  rw [message_key, e1.1, e1.2.1, e1.2.2.1, e1.2.2.2]
  rfl

/-- **C59**: a key event with well-formed key codes gives exactly its packet, inside the buffer. Missing: malformed key codes, and a trailing delimiter. -/
theorem key_partial (zx : Bool) (junk : Nat → Byte) (s : List Byte) (h : s.getLast? ≠ some comma) (t0 t1 t2 : List Byte) (extra : List (List Byte))
    (hf : fields comma s = t0 :: t1 :: t2 :: extra) (hx : extra.length % 3 = 0) (ty : Int) (hty : atoi t0 = some ty) (v1 v2 : Nat)
    (h1 : KeyText t1 v1) (h2 : KeyText t2 v2) : key zx junk s = some (message (keyBody ty v1 v2)) ∧ v1 < 65536 ∧ v2 < 65536 := by
  obtain ⟨sp1, d1, r1, rfl, a1, b1, c1, e1, g1, rfl⟩ := h1
  obtain ⟨sp2, d2, r2, rfl, a2, b2, c2, e2, g2, rfl⟩ := h2
  refine ⟨?_, ?_, ?_⟩
  · rw [key_eq zx junk s h _ _ _ extra hf hx ty hty, sscanfKey_hex zx sp1 d1 r1 a1 b1 c1 e1 g1, sscanfKey_hex zx sp2 d2 r2 a2 b2 c2 e2 g2]
    rfl
  · exact Nat.lt_of_lt_of_le (hexVal_lt d1) (by rw [show 65536 = 16 ^ 4 by decide]; exact Nat.pow_le_pow_right (by decide) c1)
  · exact Nat.lt_of_lt_of_le (hexVal_lt d2) (by rw [show 65536 = 16 ^ 4 by decide]; exact Nat.pow_le_pow_right (by decide) c2)

/-- A number of tokens that is no multiple of three is refused. -/
theorem key_refused (zx : Bool) (junk : Nat → Byte) (s : List Byte) (h : s.getLast? ≠ some comma) (hb : (fields comma s).length % 3 ≠ 0) :
    key zx junk s = some [] := by
  unfold key
  rw [split_partial s h]
  simp only [Option.bind_eq_bind, Option.bind_some]
  rw [if_pos hb]

/-- **C59**, safety: an event that does not end with a delimiter and has a type `atoi` can represent is handled inside its buffer; the packet
is empty or has the twelve bytes it announces. -/
theorem key_safe (zx : Bool) (junk : Nat → Byte) (s : List Byte) (h : s.getLast? ≠ some comma) (hty : ∀ t, (fields comma s).head? = some t → (atoi t).isSome = true) :
    ∃ p, key zx junk s = some p ∧ (p = [] ∨ p.length = 12 ∧ p.take 4 = [0, 0, 0, 12]) := by
  by_cases hb : (fields comma s).length % 3 = 0
  · obtain ⟨t0, t1, t2, extra, hf⟩ : ∃ t0 t1 t2 extra, fields comma s = t0 :: t1 :: t2 :: extra := by
      have hne := fields_ne comma s
      rcases hfs : fields comma s with _ | ⟨a, _ | ⟨b, _ | ⟨c, u⟩⟩⟩
      · exact absurd hfs hne
      · rw [hfs] at hb; simp at hb
      · rw [hfs] at hb; simp at hb
      · exact ⟨a, b, c, u, rfl⟩
    have h0 := hty t0 (by rw [hf]; rfl)
    obtain ⟨ty, hty⟩ := Option.isSome_iff_exists.mp h0
    refine ⟨_, key_eq zx junk s h t0 t1 t2 extra hf (by rw [hf] at hb; simp only [List.length_cons] at hb; omega) ty hty, Or.inr ?_⟩
    rw [message_key]; exact ⟨rfl, rfl⟩
  · exact ⟨[], key_refused zx junk s h hb, Or.inl rfl⟩

/-- **C59** refuted: a second key code that cannot be read is replaced by the first, so that a key is sent that nobody pressed. -/
theorem key_repeated (zx : Bool) (junk : Nat → Byte) (s : List Byte) (h : s.getLast? ≠ some comma) (t0 t1 t2 : List Byte)
    (hf : fields comma s = [t0, t1, t2]) (ty : Int) (hty : atoi t0 = some ty) (v1 : Nat) (h1 : KeyText t1 v1) (h2 : (t2.dropWhile isSpace).take 2 ≠ bytes "0x") :
    key zx junk s = some (message (keyBody ty v1 v1)) := by
  obtain ⟨sp1, d1, r1, rfl, a1, b1, c1, e1, g1, rfl⟩ := h1
  rw [key_eq zx junk s h _ _ _ [] hf rfl ty hty, sscanfKey_hex zx sp1 d1 r1 a1 b1 c1 e1 g1]
  have : sscanfKey zx t2 = none := by
    unfold sscanfKey
    simp only []
    rw [if_neg h2]
  rw [this]; rfl

example : key true (fun _ => 7) (bytes "3,0x0041,0x0000\n") = some [0, 0, 0, 12, 3, 0, 5, 0, 0, 65, 0, 0]
    ∧ message (keyBody 3 65 0) = [0, 0, 0, 12, 3, 0, 5, 0, 0, 65, 0, 0] := by decide +kernel
example : key true (fun _ => 7) (bytes "3,0x41,none\n") = some [0, 0, 0, 12, 3, 0, 5, 0, 0, 65, 0, 65] := by decide +kernel
example : key true (fun _ => 7) (bytes "3,0x41\n") = some [] ∧ key true (fun _ => 7) (bytes "3,0x41,") = none := by decide +kernel
example : KeyText (bytes " 0x41\n") 65 := ⟨[32], bytes "41", [10], by decide +kernel, by decide +kernel, by decide +kernel, by decide +kernel, by decide +kernel, by
  right; right; exact ⟨10, [], rfl, by decide⟩, by decide +kernel⟩

/-! ### C80 -/

/-- **C80** refuted: the builders for zoom, scroll and rotate events read behind the array of tokens for every input, whatever they do with a token. -/
theorem gesture_overread (body : Nat → List Byte → List Byte → Option (List Byte)) (s : List Byte) : gesture body s = none := by
  have hl : ∀ toks f i b, toks.length < f + i → gestureLoop body toks f i b = none := by
    intro toks f
    induction f with
    | zero => intro i b _; rfl
    | succ f ih =>
      intro i b h
      unfold gestureLoop
      cases ht : toks[i]? with
      | none => rfl
      | some t =>
        simp only [Option.bind_eq_bind, Option.bind_some]
        cases hb : body i t b with
        | none => rfl
        | some b' => exact ih (i + 1) b' (by omega)
  unfold gesture
  cases hs : strSplit s with
  | none => rfl
  | some toks => exact hl toks _ 0 [] (by omega)

/-- The command never gets there: a line whose first character is another digit is dropped (`main`). -/
theorem gestures_unreachable (room : Nat → Nat) (zx : Bool) (junk : Nat → Byte) (line : List Byte) (c : Byte) (hc : line.head? = some c)
    (h : c ≠ ch '0' ∧ c ≠ ch '1' ∧ c ≠ ch '3' ∧ c ≠ ch '4') : event room zx junk line = some none := by
  unfold event
  rw [hc, if_neg (by simp [h]), if_neg (by simp [h])]

example : gesture (fun _ _ b => some b) (bytes "5,1,2,3,4") = none ∧ event id true (fun _ => 7) (bytes "6,1,2,3\n") = some none := by decide +kernel

/-! ### C81 -/

/-- **C81**: if no line is longer than 254 characters with its newline, the lines seen are the lines of the input, in order. -/
theorem inputs_partial (s : List Byte) (h : ∀ l ∈ lines s, l.length ≤ 254) : inputs s = lines s := inputs_short _ s (by omega) h

/-- **C81** refuted: whenever a line is longer, what the program handles as events are not the lines; nothing is lost, so the rest of the long line
becomes an event of its own. -/
theorem inputs_cut (s l : List Byte) (hl : l ∈ lines s) (h : 254 < l.length) : inputs s ≠ lines s ∧ (inputs s).flatten = s := by
  refine ⟨?_, inputs_all _ s (by omega)⟩
  intro e
  rw [← e] at hl
  have := inputs_le _ s l hl
  omega

/-- A touch event padded with spaces is followed by a key event nobody entered. -/
example : (inputs (bytes "0,1,0,1,2" ++ List.replicate 245 32 ++ bytes "3,0x41,0x42\n")).map (fun l => l.head?) = [some (ch '0'), some (ch '3')]
    ∧ (lines (bytes "0,1,0,1,2" ++ List.replicate 245 32 ++ bytes "3,0x41,0x42\n")).length = 1 := by decide +kernel
example : inputs (bytes "0,1\n\n3,4") = [bytes "0,1\n", bytes "\n", bytes "3,4"] := by decide +kernel

end Verif.Uibc
