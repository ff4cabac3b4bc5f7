import Verif.Model.Wire
import Verif.Spec.Wire
/-!
# Helper lemmas for the wire helpers
-/
namespace Verif.Wire
open Verif.C

@[simp] theorem length_leBytes (w v : Nat) : (leBytes w v).length = w := by
  induction w generalizing v with
  | zero => rfl
  | succ w ih => simp [leBytes, ih]

@[simp] theorem length_layout (h : Host) (w v : Nat) : (layout h w v).length = w := by
  cases h <;> simp [layout]

theorem getElem?_leBytes (w v i : Nat) (hi : i < w) :
    (leBytes w v)[i]? = some (v / 256 ^ i % 256).toUInt8 := by
  induction w generalizing v i with
  | zero => omega
  | succ w ih =>
    cases i with
    | zero =>
      simp only [leBytes, List.getElem?_cons_zero, Nat.pow_zero, Nat.div_one, Option.some.injEq]
      apply UInt8.toNat.inj; simp
    | succ i =>
      simp only [leBytes, List.getElem?_cons_succ]
      rw [ih _ _ (by omega), Nat.div_div_eq_div_mul, Nat.pow_succ, Nat.mul_comm 256]

theorem leVal_lt (l : List Byte) : leVal l < 256 ^ l.length := by
  induction l with
  | nil => simp [leVal]
  | cons b t ih =>
    simp only [leVal, List.length_cons, Nat.pow_succ]
    have := b.toNat_lt
    omega

theorem leVal_leBytes (w v : Nat) (hv : v < 256 ^ w) : leVal (leBytes w v) = v := by
  induction w generalizing v with
  | zero => simp at hv; simp [leBytes, leVal, hv]
  | succ w ih =>
    simp only [leBytes, leVal]
    rw [ih _ (by rw [Nat.pow_succ] at hv; omega)]
    simp; omega

theorem leBytes_leVal (l : List Byte) : leBytes l.length (leVal l) = l := by
  induction l with
  | nil => rfl
  | cons b t ih =>
    have hb := b.toNat_lt
    simp only [leVal, leBytes, List.length_cons]
    rw [show (b.toNat + 256 * leVal t) / 256 = leVal t by omega, ih]
    congr 1
    apply UInt8.toNat.inj
    simp

theorem leBytes_bswap (w v : Nat) : leBytes w (bswap w v) = (leBytes w v).reverse := by
  have := leBytes_leVal (leBytes w v).reverse
  simpa [bswap] using this

theorem bswap_lt (w v : Nat) : bswap w v < 256 ^ w := by
  have := leVal_lt (leBytes w v).reverse
  simpa [bswap] using this

theorem bswap_bswap (w v : Nat) (hv : v < 256 ^ w) : bswap w (bswap w v) = v := by
  rw [bswap, leBytes_bswap, List.reverse_reverse, leVal_leBytes _ _ hv]

/-- What ends up in memory is independent of the host. -/
theorem putBe_eq (h : Host) (w v : Nat) (buf : List Byte) (off : Nat) :
    putBe h w v buf off = wr buf off (leBytes w v).reverse := by
  cases h <;> simp [putBe, putUnaligned, layout, leBytes_bswap]

theorem putLe_eq (h : Host) (w v : Nat) (buf : List Byte) (off : Nat) :
    putLe h w v buf off = wr buf off (leBytes w v) := by
  cases h <;> simp [putLe, putUnaligned, layout, leBytes_bswap]

theorem getLe_eq (h : Host) (w : Nat) (buf : List Byte) (off : Nat) :
    getLe h w buf off = (rd buf off w).map leVal := by
  cases h
  · simp [getLe, getUnaligned, native]; cases rd buf off w <;> rfl
  · cases hr : rd buf off w with
    | none => simp [getLe, getUnaligned, hr]
    | some bs =>
      have hl := length_of_rd hr
      simp only [getLe, getUnaligned, hr, native, Option.bind_eq_bind, Option.bind_some,
        Option.pure_def, Option.map_some, Option.some.injEq]
      have := leBytes_leVal bs.reverse
      rw [List.length_reverse, hl] at this
      rw [bswap, this, List.reverse_reverse]

theorem getBe_eq (h : Host) (w : Nat) (buf : List Byte) (off : Nat) :
    getBe h w buf off = (rd buf off w).map (fun bs => leVal bs.reverse) := by
  cases h
  · cases hr : rd buf off w with
    | none => simp [getBe, getUnaligned, hr]
    | some bs =>
      have hl := length_of_rd hr
      simp only [getBe, getUnaligned, hr, native, Option.bind_eq_bind, Option.bind_some,
        Option.pure_def, Option.map_some, Option.some.injEq]
      have := leBytes_leVal bs
      rw [hl] at this
      rw [bswap, this]
  · simp [getBe, getUnaligned, native]; cases rd buf off w <;> rfl

theorem beAt_reverse (w v : Nat) (hv : v < 256 ^ w) : Spec.BeAt (leBytes w v).reverse 0 w v := by
  refine ⟨hv, fun i hi => ?_⟩
  rw [Nat.zero_add, List.getElem?_reverse (by simpa using hi), length_leBytes,
    getElem?_leBytes _ _ _ (by omega)]

theorem leAt_leBytes (w v : Nat) (hv : v < 256 ^ w) : Spec.LeAt (leBytes w v) 0 w v := by
  refine ⟨hv, fun i hi => ?_⟩
  rw [Nat.zero_add, getElem?_leBytes _ _ _ (by omega)]

/-! ### Checksum -/

theorem ocAdd_lt {a b : Nat} (ha : a < 65536) (hb : b < 65536) : Spec.ocAdd a b < 65536 := by
  unfold Spec.ocAdd; split <;> omega

theorem ocAdd_mod (a b : Nat) : Spec.ocAdd a b % 65535 = (a + b) % 65535 := by
  unfold Spec.ocAdd; split <;> omega

theorem ocAdd_zero (a b : Nat) : Spec.ocAdd a b = 0 ↔ a + b = 0 := by
  unfold Spec.ocAdd; split <;> omega

theorem foldl_ocAdd (l : List Nat) (hl : ∀ x ∈ l, x < 65536) (a : Nat) (ha : a < 65536) :
    l.foldl Spec.ocAdd a < 65536 ∧ l.foldl Spec.ocAdd a % 65535 = (a + l.sum) % 65535 ∧
      (l.foldl Spec.ocAdd a = 0 ↔ a + l.sum = 0) := by
  induction l generalizing a with
  | nil => simp [ha]
  | cons x t ih =>
    have hx := hl x (by simp)
    have := ih (fun y hy => hl y (by simp [hy])) (Spec.ocAdd a x) (ocAdd_lt ha hx)
    have h1 := ocAdd_mod a x
    have h2 := ocAdd_zero a x
    simp only [List.foldl_cons, List.sum_cons]
    omega

theorem words_lt : ∀ (l : List Byte), ∀ x ∈ Spec.words l, x < 65536
  | a :: b :: t, x, hx => by
    simp only [Spec.words, List.mem_cons] at hx
    have := a.toNat_lt; have := b.toNat_lt
    rcases hx with rfl | hx
    · omega
    · exact words_lt t x hx
  | [a], x, hx => by
    simp only [Spec.words, List.mem_cons, List.not_mem_nil, or_false] at hx
    have := a.toNat_lt; omega
  | [], x, hx => by simp [Spec.words] at hx

/-- The integer sum of the words as the host reads them. -/
def hostSum (h : Host) : List Byte → Nat
  | a :: b :: t => native h [a, b] + hostSum h t
  | [a] => native h [a, 0]
  | [] => 0

theorem native2 (h : Host) (a b : Byte) :
    native h [a, b] = match h with | .le => a.toNat + 256 * b.toNat | .be => 256 * a.toNat + b.toNat := by
  cases h <;> simp [native, leVal] <;> omega

theorem hostSum_bound (h : Host) : ∀ l : List Byte, hostSum h l ≤ 65535 * ((l.length + 1) / 2)
  | a :: b :: t => by
    have := hostSum_bound h t
    have := a.toNat_lt; have := b.toNat_lt
    have h2 := native2 h a b
    simp only [hostSum, List.length_cons]
    cases h <;> simp only at h2 <;> omega
  | [a] => by
    have := a.toNat_lt
    have h2 := native2 h a 0
    simp only [hostSum, List.length_cons, List.length_nil]
    cases h <;> simp at h2 <;> omega
  | [] => by simp [hostSum]

theorem sumWords_eq (h : Host) : ∀ (l : List Byte) (s : Nat), s + hostSum h l < 2147483648 →
    sumWords h l s = some (s + hostSum h l)
  | a :: b :: t, s, hs => by
    simp only [hostSum] at hs ⊢
    rw [sumWords, addI32, if_pos (by omega)]
    simp only [Option.bind_eq_bind, Option.bind_some]
    rw [sumWords_eq h t _ (by omega)]
    simp; omega
  | [a], s, hs => by
    simp only [hostSum] at hs ⊢
    rw [sumWords, addI32, if_pos (by omega)]
  | [], s, hs => by simp [sumWords, hostSum]

theorem foldLoop_spec (fuel s : Nat) (hf : s ≤ fuel) :
    foldLoop fuel s < 65536 ∧ foldLoop fuel s % 65535 = s % 65535 ∧ (foldLoop fuel s = 0 ↔ s = 0) := by
  induction fuel generalizing s with
  | zero => rw [foldLoop]; omega
  | succ f ih =>
    rw [foldLoop]
    split
    · omega
    · have := ih (s % 65536 + s / 65536) (by omega)
      omega

theorem foldSum_spec (s : Nat) :
    foldSum s < 65536 ∧ foldSum s % 65535 = s % 65535 ∧ (foldSum s = 0 ↔ s = 0) :=
  foldLoop_spec s s (Nat.le_refl s)

theorem hostSum_words (h : Host) : ∀ l : List Byte,
    hostSum h l % 65535 = (match h with | .le => 256 * (Spec.words l).sum | .be => (Spec.words l).sum) % 65535
    ∧ (hostSum h l = 0 ↔ (Spec.words l).sum = 0)
  | a :: b :: t => by
    have ih := hostSum_words h t
    have h2 := native2 h a b
    simp only [hostSum, Spec.words, List.sum_cons]
    cases h <;> simp only at h2 ih ⊢ <;> omega
  | [a] => by
    have h2 := native2 h a 0
    simp only [hostSum, Spec.words, List.sum_cons, List.sum_nil]
    cases h <;> simp at h2 ⊢ <;> omega
  | [] => by cases h <;> simp [hostSum, Spec.words]

theorem ocSum_spec (l : List Byte) :
    Spec.ocSum l < 65536 ∧ Spec.ocSum l % 65535 = (Spec.words l).sum % 65535 ∧
      (Spec.ocSum l = 0 ↔ (Spec.words l).sum = 0) := by
  have := foldl_ocAdd (Spec.words l) (words_lt l) 0 (by omega)
  simpa [Spec.ocSum] using this

theorem bswap2 (v : Nat) : bswap 2 v = v / 256 % 256 + 256 * (v % 256) := by
  simp [bswap, leBytes, leVal]

theorem bswap2_mk (a b : Nat) (ha : a < 256) (hb : b < 256) : bswap 2 (256 * a + b) = 256 * b + a := by
  rw [bswap2]; omega

theorem split16 {v : Nat} (hv : v < 65536) : ∃ a b, a < 256 ∧ b < 256 ∧ v = 256 * a + b :=
  ⟨v / 256, v % 256, by omega, by omega, by omega⟩

theorem foldSum_host (h : Host) (l : List Byte) : foldSum (hostSum h l) = htons h (Spec.ocSum l) := by
  have h1 := foldSum_spec (hostSum h l)
  have h2 := hostSum_words h l
  have h3 := ocSum_spec l
  cases h
  · obtain ⟨a, b, ha, hb, he⟩ := split16 h3.1
    simp only [htons] at *
    rw [he, bswap2_mk a b ha hb]
    rw [he] at h3
    have e1 : (256 * (Spec.words l).sum) % 65535 = (256 * (256 * a + b)) % 65535 := by
      rw [Nat.mul_mod, ← h3.2.1, ← Nat.mul_mod]
    omega
  · simp only [htons] at *
    omega

theorem checksum_eq (h : Host) (buf : List Byte) (off count : Nat) (hb : off + count ≤ buf.length)
    (hc : count ≤ 65536) :
    checksum h buf off count = some (65535 - htons h (Spec.ocSum ((buf.drop off).take count))) := by
  have hl : ((buf.drop off).take count).length = count := by simp; omega
  have hbound := hostSum_bound h ((buf.drop off).take count)
  rw [hl] at hbound
  simp only [checksum, rd_some hb, Option.bind_eq_bind, Option.bind_some]
  rw [sumWords_eq _ _ _ (by omega), Nat.zero_add]
  simp [foldSum_host]

theorem htons_lt (h : Host) (v : Nat) (hv : v < 65536) : htons h v < 65536 := by
  cases h <;> simp [htons, bswap2] <;> omega

theorem htons_compl (h : Host) (v : Nat) (hv : v < 65536) :
    65535 - htons h v = htons h (65535 - v) := by
  obtain ⟨a, b, ha, hb, rfl⟩ := split16 hv
  cases h <;> simp only [htons]
  rw [show 65535 - (256 * a + b) = 256 * (255 - a) + (255 - b) by omega, bswap2_mk _ _ ha hb,
    bswap2_mk _ _ (by omega) (by omega)]
  omega

theorem htons_htons (h : Host) (v : Nat) (hv : v < 65536) : htons h (htons h v) = v := by
  obtain ⟨a, b, ha, hb, rfl⟩ := split16 hv
  cases h <;> simp only [htons]
  rw [bswap2_mk _ _ ha hb, bswap2_mk _ _ hb ha]

theorem layout_htons (h : Host) (v : Nat) (hv : v < 65536) :
    layout h 2 (htons h v) = [(v / 256).toUInt8, v.toUInt8] := by
  cases h
  · simp only [htons, layout, leBytes_bswap]; simp [leBytes]
  · simp only [htons, layout]; simp [leBytes]

/-! ### Frames -/

theorem cons28 (p : List Byte) (h : 28 ≤ p.length) : ∃ b0 b1 b2 b3 b4 b5 b6 b7 b8 b9 b10 b11 b12 b13 b14 b15 b16 b17 b18 b19 b20 b21 b22 b23 b24 b25 b26 b27 : Byte, ∃ q : List Byte,
    p = [b0, b1, b2, b3, b4, b5, b6, b7, b8, b9, b10, b11, b12, b13, b14, b15, b16, b17, b18, b19, b20, b21, b22, b23, b24, b25, b26, b27] ++ q := by
  obtain ⟨b0, p, rfl⟩ := List.exists_cons_of_length_pos (l := p) (by omega)
  obtain ⟨b1, p, rfl⟩ := List.exists_cons_of_length_pos (l := p) (by simp only [List.length_cons] at h; omega)
  obtain ⟨b2, p, rfl⟩ := List.exists_cons_of_length_pos (l := p) (by simp only [List.length_cons] at h; omega)
  obtain ⟨b3, p, rfl⟩ := List.exists_cons_of_length_pos (l := p) (by simp only [List.length_cons] at h; omega)
  obtain ⟨b4, p, rfl⟩ := List.exists_cons_of_length_pos (l := p) (by simp only [List.length_cons] at h; omega)
  obtain ⟨b5, p, rfl⟩ := List.exists_cons_of_length_pos (l := p) (by simp only [List.length_cons] at h; omega)
  obtain ⟨b6, p, rfl⟩ := List.exists_cons_of_length_pos (l := p) (by simp only [List.length_cons] at h; omega)
  obtain ⟨b7, p, rfl⟩ := List.exists_cons_of_length_pos (l := p) (by simp only [List.length_cons] at h; omega)
  obtain ⟨b8, p, rfl⟩ := List.exists_cons_of_length_pos (l := p) (by simp only [List.length_cons] at h; omega)
  obtain ⟨b9, p, rfl⟩ := List.exists_cons_of_length_pos (l := p) (by simp only [List.length_cons] at h; omega)
  obtain ⟨b10, p, rfl⟩ := List.exists_cons_of_length_pos (l := p) (by simp only [List.length_cons] at h; omega)
  obtain ⟨b11, p, rfl⟩ := List.exists_cons_of_length_pos (l := p) (by simp only [List.length_cons] at h; omega)
  obtain ⟨b12, p, rfl⟩ := List.exists_cons_of_length_pos (l := p) (by simp only [List.length_cons] at h; omega)
  obtain ⟨b13, p, rfl⟩ := List.exists_cons_of_length_pos (l := p) (by simp only [List.length_cons] at h; omega)
  obtain ⟨b14, p, rfl⟩ := List.exists_cons_of_length_pos (l := p) (by simp only [List.length_cons] at h; omega)
  obtain ⟨b15, p, rfl⟩ := List.exists_cons_of_length_pos (l := p) (by simp only [List.length_cons] at h; omega)
  obtain ⟨b16, p, rfl⟩ := List.exists_cons_of_length_pos (l := p) (by simp only [List.length_cons] at h; omega)
  obtain ⟨b17, p, rfl⟩ := List.exists_cons_of_length_pos (l := p) (by simp only [List.length_cons] at h; omega)
  obtain ⟨b18, p, rfl⟩ := List.exists_cons_of_length_pos (l := p) (by simp only [List.length_cons] at h; omega)
  obtain ⟨b19, p, rfl⟩ := List.exists_cons_of_length_pos (l := p) (by simp only [List.length_cons] at h; omega)
  obtain ⟨b20, p, rfl⟩ := List.exists_cons_of_length_pos (l := p) (by simp only [List.length_cons] at h; omega)
  obtain ⟨b21, p, rfl⟩ := List.exists_cons_of_length_pos (l := p) (by simp only [List.length_cons] at h; omega)
  obtain ⟨b22, p, rfl⟩ := List.exists_cons_of_length_pos (l := p) (by simp only [List.length_cons] at h; omega)
  obtain ⟨b23, p, rfl⟩ := List.exists_cons_of_length_pos (l := p) (by simp only [List.length_cons] at h; omega)
  obtain ⟨b24, p, rfl⟩ := List.exists_cons_of_length_pos (l := p) (by simp only [List.length_cons] at h; omega)
  obtain ⟨b25, p, rfl⟩ := List.exists_cons_of_length_pos (l := p) (by simp only [List.length_cons] at h; omega)
  obtain ⟨b26, p, rfl⟩ := List.exists_cons_of_length_pos (l := p) (by simp only [List.length_cons] at h; omega)
  obtain ⟨b27, p, rfl⟩ := List.exists_cons_of_length_pos (l := p) (by simp only [List.length_cons] at h; omega)
  exact ⟨b0, b1, b2, b3, b4, b5, b6, b7, b8, b9, b10, b11, b12, b13, b14, b15, b16, b17, b18, b19, b20, b21, b22, b23, b24, b25, b26, b27, p, rfl⟩

theorem beVal2 (a b : Byte) : Spec.beVal [a, b] = 256 * a.toNat + b.toNat := by simp [Spec.beVal]

theorem htons_native2 (h : Host) (a b : Byte) : htons h (native h [a, b]) = Spec.beVal [a, b] := by
  have := a.toNat_lt; have := b.toNat_lt
  rw [native2, beVal2]
  cases h <;> simp only [htons]
  rw [show a.toNat + 256 * b.toNat = 256 * b.toNat + a.toNat by omega, bswap2_mk _ _ (by omega) (by omega)]

theorem native2_eq (h : Host) (a b : Byte) : native h [a, b] = htons h (Spec.beVal [a, b]) := by
  rw [← htons_native2 h, htons_htons]
  have := a.toNat_lt; have := b.toNat_lt
  rw [native2]; cases h <;> simp only <;> omega

theorem layout_native2 (h : Host) (a b : Byte) : layout h 2 (native h [a, b]) = [a, b] := by
  have := a.toNat_lt; have := b.toNat_lt
  rw [native2_eq, layout_htons, beVal2]
  · congr 1
    · apply UInt8.toNat.inj; simp; omega
    · congr 1
      apply UInt8.toNat.inj; simp
  · rw [beVal2]; omega

theorem layout_zero2 (h : Host) : layout h 2 0 = [0, 0] := by cases h <;> decide

theorem beVal2_lt (a b : Byte) : Spec.beVal [a, b] < 65536 := by
  have := a.toNat_lt; have := b.toNat_lt
  rw [beVal2]; omega

theorem htons_inj (h : Host) {a b : Nat} (ha : a < 65536) (hb : b < 65536) :
    htons h a = htons h b ↔ a = b :=
  ⟨fun e => by rw [← htons_htons h a ha, e, htons_htons h b hb], fun e => by rw [e]⟩

theorem checksum_inet (h : Host) (buf : List Byte) (off count : Nat) (hb : off + count ≤ buf.length)
    (hc : count ≤ 65536) :
    checksum h buf off count = some (htons h (Spec.inetChecksum ((buf.drop off).take count))) := by
  rw [checksum_eq h buf off count hb hc, htons_compl h _ (ocSum_spec _).1]; rfl

theorem ocSum_congr {l m : List Byte} (h : (Spec.words l).sum = (Spec.words m).sum) :
    Spec.ocSum l = Spec.ocSum m := by
  have h1 := ocSum_spec l; have h2 := ocSum_spec m
  omega

theorem words_append : ∀ (l m : List Byte), l.length % 2 = 0 →
    Spec.words (l ++ m) = Spec.words l ++ Spec.words m
  | a :: b :: t, m, h => by
    simp only [List.cons_append, Spec.words]
    rw [words_append t m (by simp only [List.length_cons] at h; omega)]
  | [a], m, h => by simp at h
  | [], m, _ => by simp [Spec.words]

theorem words_pad (l : List Byte) (h : l.length % 2 = 1) : Spec.words l = Spec.words (l ++ [0]) := by
  induction l using Spec.words.induct with
  | case1 a b t ih =>
    simp only [List.cons_append, Spec.words]
    rw [ih (by simp only [List.length_cons] at h; omega)]
  | case2 a => simp [Spec.words]
  | case3 => simp at h

theorem recvL2_eq (h : Host) (frame pkt : List Byte) :
    recvL2 h frame pkt = recvBody h (min frame.length 656)
      (frame.take 656 ++ List.replicate (656 - frame.length) 0) pkt := by
  unfold recvL2
  rw [wr_some (by simp only [packetSize, List.length_replicate, List.length_take]; omega)]
  simp only [Option.bind_eq_bind, Option.bind_some, packetSize]
  congr 1
  simp only [List.take_zero, List.nil_append, List.length_take, List.drop_replicate]
  congr 2
  omega

theorem recvBody_eval (h : Host) (n : Nat) (b0 b1 b2 b3 b4 b5 b6 b7 b8 b9 b10 b11 b12 b13 b14 b15 b16 b17 b18 b19 b20 b21 b22 b23 b24 b25 b26 b27 : Byte) (q pkt : List Byte)
    (hn : n ≤ 656) (hq : q.length = 628) :
    recvBody h n ([b0, b1, b2, b3, b4, b5, b6, b7, b8, b9, b10, b11, b12, b13, b14, b15, b16, b17, b18, b19, b20, b21, b22, b23, b24, b25, b26, b27] ++ q) pkt =
      (if n < 28 ∨ n < Spec.beVal [b2, b3] ∨ ¬ (b9 = 17 ∧ b0 = 0x45 ∧ Spec.beVal [b22, b23] = 68 ∧
          Spec.beVal [b24, b25] = (Spec.beVal [b2, b3] + 65536 - 20) % 65536) ∨
          Spec.beVal [b10, b11] ≠ Spec.inetChecksum [b0, b1, b2, b3, b4, b5, b6, b7, b8, b9, 0, 0, b12, b13, b14, b15, b16, b17, b18, b19] ∨
          (Spec.beVal [b26, b27] ≠ 0 ∧ Spec.beVal [b26, b27] ≠ Spec.inetChecksum
            (([0, 0, b24, b25, 0, 0, 0, 0, 0, b9, 0, 0, b12, b13, b14, b15, b16, b17, b18, b19, b20, b21, b22, b23, b24, b25, 0, 0] ++ q).take (Spec.beVal [b2, b3])))
      then some ⟨-1, pkt⟩ else do
        let d ← rd ([0, 0, b24, b25, 0, 0, 0, 0, 0, b9, 0, 0, b12, b13, b14, b15, b16, b17, b18, b19, b20, b21, b22, b23, b24, b25, 0, 0] ++ q) 28
          ((Spec.beVal [b2, b3] + W64 - 28) % W64)
        let pkt ← wr pkt 0 d
        let cookie ← getUnaligned h 4 pkt 236
        if cookie ≠ htonl h 0x63825363 then some ⟨-1, pkt⟩ else
        some ⟨(Spec.beVal [b2, b3] : Int) - 28, pkt⟩) := by
  unfold recvBody
  by_cases h1 : n < 28
  · simp [h1]
  simp only [h1, if_false, false_or]
  have g2 : get16 h ([b0, b1, b2, b3, b4, b5, b6, b7, b8, b9, b10, b11, b12, b13, b14, b15, b16, b17, b18, b19, b20, b21, b22, b23, b24, b25, b26, b27] ++ q) 2 = some (native h [b2, b3]) := by
    simp [get16, getUnaligned, rd]
  simp only [g2, Option.bind_eq_bind, Option.bind_some, htons_native2]
  by_cases h2 : n < Spec.beVal [b2, b3]
  · simp [h2]
  simp only [h2, if_false, false_or]
  have hs : sanity h ([b0, b1, b2, b3, b4, b5, b6, b7, b8, b9, b10, b11, b12, b13, b14, b15, b16, b17, b18, b19, b20, b21, b22, b23, b24, b25, b26, b27] ++ q) (Spec.beVal [b2, b3]) = some (decide (b9 = 17 ∧ b0 = 0x45 ∧ Spec.beVal [b22, b23] = 68 ∧
          Spec.beVal [b24, b25] = (Spec.beVal [b2, b3] + 65536 - 20) % 65536)) := by
    have g22 : get16 h ([b0, b1, b2, b3, b4, b5, b6, b7, b8, b9, b10, b11, b12, b13, b14, b15, b16, b17, b18, b19, b20, b21, b22, b23, b24, b25, b26, b27] ++ q) 22 = some (native h [b22, b23]) := by
      simp [get16, getUnaligned, rd]
    have g24 : get16 h ([b0, b1, b2, b3, b4, b5, b6, b7, b8, b9, b10, b11, b12, b13, b14, b15, b16, b17, b18, b19, b20, b21, b22, b23, b24, b25, b26, b27] ++ q) 24 = some (native h [b24, b25]) := by
      simp [get16, getUnaligned, rd]
    have r9 : rd ([b0, b1, b2, b3, b4, b5, b6, b7, b8, b9, b10, b11, b12, b13, b14, b15, b16, b17, b18, b19, b20, b21, b22, b23, b24, b25, b26, b27] ++ q) 9 1 = some [b9] := by simp [rd]
    have r0 : rd ([b0, b1, b2, b3, b4, b5, b6, b7, b8, b9, b10, b11, b12, b13, b14, b15, b16, b17, b18, b19, b20, b21, b22, b23, b24, b25, b26, b27] ++ q) 0 1 = some [b0] := by simp [rd]
    simp only [sanity, g22, g24, r9, r0, Option.bind_eq_bind, Option.bind_some, htons_native2, Option.pure_def]
    rw [native2_eq]
    simp only [htons_inj h (beVal2_lt b22 b23) (by omega : 68 < 65536), List.cons.injEq, and_true]
  simp only [hs, Option.bind_some]
  by_cases h3 : (b9 = 17 ∧ b0 = 0x45 ∧ Spec.beVal [b22, b23] = 68 ∧
          Spec.beVal [b24, b25] = (Spec.beVal [b2, b3] + 65536 - 20) % 65536)
  rotate_left
  · rw [decide_eq_false h3, if_pos (Or.inl h3)]; rfl
  rw [decide_eq_true h3]
  have hC := eq_false (not_not_intro h3)
  simp only [hC, Bool.not_true, Bool.false_eq_true, if_false, false_or]
  have g10 : get16 h ([b0, b1, b2, b3, b4, b5, b6, b7, b8, b9, b10, b11, b12, b13, b14, b15, b16, b17, b18, b19, b20, b21, b22, b23, b24, b25, b26, b27] ++ q) 10 = some (native h [b10, b11]) := by
    simp [get16, getUnaligned, rd]
  have p10 : put16 h ([b0, b1, b2, b3, b4, b5, b6, b7, b8, b9, b10, b11, b12, b13, b14, b15, b16, b17, b18, b19, b20, b21, b22, b23, b24, b25, b26, b27] ++ q) 10 0 = some ([b0, b1, b2, b3, b4, b5, b6, b7, b8, b9, 0, 0, b12, b13, b14, b15, b16, b17, b18, b19, b20, b21, b22, b23, b24, b25, b26, b27] ++ q) := by
    simp [put16, putUnaligned, layout_zero2, wr]
  simp only [g10, p10, Option.bind_some]
  rw [checksum_inet _ _ _ _ (by simp) (by omega), Option.bind_some, native2_eq]
  have hlt : ∀ l, Spec.inetChecksum l < 65536 := fun l => by unfold Spec.inetChecksum; omega
  simp only [ne_eq, htons_inj h (beVal2_lt _ _) (hlt _)]
  rw [show (List.take 20 (List.drop 0 ([b0, b1, b2, b3, b4, b5, b6, b7, b8, b9, 0, 0, b12, b13, b14, b15, b16, b17, b18, b19, b20, b21, b22, b23, b24, b25, b26, b27] ++ q))) = [b0, b1, b2, b3, b4, b5, b6, b7, b8, b9, 0, 0, b12, b13, b14, b15, b16, b17, b18, b19] by simp]
  by_cases h4 : Spec.beVal [b10, b11] = Spec.inetChecksum [b0, b1, b2, b3, b4, b5, b6, b7, b8, b9, 0, 0, b12, b13, b14, b15, b16, b17, b18, b19]
  rotate_left
  · simp [h4]
  simp only [h4, not_true_eq_false, if_false, false_or]
  have w0 : wr ([b0, b1, b2, b3, b4, b5, b6, b7, b8, b9, 0, 0, b12, b13, b14, b15, b16, b17, b18, b19, b20, b21, b22, b23, b24, b25, b26, b27] ++ q) 0 (List.replicate 9 0) =
      some ([0, 0, 0, 0, 0, 0, 0, 0, 0, b9, 0, 0, b12, b13, b14, b15, b16, b17, b18, b19, b20, b21, b22, b23, b24, b25, b26, b27] ++ q) := by
    simp [wr, List.replicate]
  have g24 : get16 h ([0, 0, 0, 0, 0, 0, 0, 0, 0, b9, 0, 0, b12, b13, b14, b15, b16, b17, b18, b19, b20, b21, b22, b23, b24, b25, b26, b27] ++ q) 24 = some (native h [b24, b25]) := by
    simp [get16, getUnaligned, rd]
  have p2 : put16 h ([0, 0, 0, 0, 0, 0, 0, 0, 0, b9, 0, 0, b12, b13, b14, b15, b16, b17, b18, b19, b20, b21, b22, b23, b24, b25, b26, b27] ++ q) 2 (native h [b24, b25]) =
      some ([0, 0, b24, b25, 0, 0, 0, 0, 0, b9, 0, 0, b12, b13, b14, b15, b16, b17, b18, b19, b20, b21, b22, b23, b24, b25, b26, b27] ++ q) := by
    simp [put16, putUnaligned, layout_native2, wr]
  have g26 : get16 h ([0, 0, b24, b25, 0, 0, 0, 0, 0, b9, 0, 0, b12, b13, b14, b15, b16, b17, b18, b19, b20, b21, b22, b23, b24, b25, b26, b27] ++ q) 26 = some (native h [b26, b27]) := by
    simp [get16, getUnaligned, rd]
  have p26 : put16 h ([0, 0, b24, b25, 0, 0, 0, 0, 0, b9, 0, 0, b12, b13, b14, b15, b16, b17, b18, b19, b20, b21, b22, b23, b24, b25, b26, b27] ++ q) 26 0 =
      some ([0, 0, b24, b25, 0, 0, 0, 0, 0, b9, 0, 0, b12, b13, b14, b15, b16, b17, b18, b19, b20, b21, b22, b23, b24, b25, 0, 0] ++ q) := by
    simp [put16, putUnaligned, layout_zero2, wr]
  simp only [w0, g24, p2, g26, p26, Option.bind_some]
  rw [checksum_inet _ _ _ _ (by simp only [List.length_append, List.length_cons, List.length_nil, hq]; omega) (by omega)]
  rw [Option.bind_some, List.drop_zero, native2_eq]
  have hz : htons h (Spec.beVal [b26, b27]) = 0 ↔ Spec.beVal [b26, b27] = 0 := by
    rw [← htons_inj h (beVal2_lt _ _) (by omega : 0 < 65536)]
    rw [show htons h 0 = 0 by cases h <;> decide]
  simp only [htons_inj h (beVal2_lt _ _) (hlt _), hz]

theorem oc_store (S o o' : Nat) (h : o < 65536 ∧ o % 65535 = S % 65535 ∧ (o = 0 ↔ S = 0))
    (h' : o' < 65536 ∧ o' % 65535 = (S + (65535 - o)) % 65535 ∧ (o' = 0 ↔ S + (65535 - o) = 0)) :
    o' = 65535 := by omega

theorem oc_detect (S x x' o : Nat) (hx : x < 65536) (hx' : x' < 65536)
    (h : o < 65536 ∧ o % 65535 = (S + x) % 65535 ∧ (o = 0 ↔ S + x = 0))
    (h' : o < 65536 ∧ o % 65535 = (S + x') % 65535 ∧ (o = 0 ↔ S + x' = 0)) :
    x = x' ∨ (x = 0 ∧ x' = 65535) ∨ (x = 65535 ∧ x' = 0) := by omega

theorem cons4 (p : List Byte) (h : p.length = 4) : ∃ a b c d : Byte, p = [a, b, c, d] := by
  match p, h with
  | [a, b, c, d], _ => exact ⟨a, b, c, d, rfl⟩

/-- The packet as sent: broadcast flag set. -/
def withBroadcast (dhcp : List Byte) : List Byte :=
  dhcp.take 10 ++ ((dhcp.drop 10).take 1).map (· ||| 0x80) ++ dhcp.drop 11

theorem withBroadcast_length (dhcp : List Byte) : (withBroadcast dhcp).length = dhcp.length := by
  simp [withBroadcast]; omega

/-- The bytes of a 16-bit number in network order. -/
def hi (v : Nat) : Byte := (v / 256).toUInt8
def lo (v : Nat) : Byte := v.toUInt8

theorem beVal_hilo (v : Nat) (hv : v < 65536) : Spec.beVal [hi v, lo v] = v := by
  rw [beVal2]; simp [hi, lo]; omega

theorem put16_htons (h : Host) (p : List Byte) (off v : Nat) (hv : v < 65536) :
    put16 h p off (htons h v) = wr p off [hi v, lo v] := by
  rw [put16, putUnaligned, layout_htons h v hv]; rfl

theorem sendRaw_eval (h : Host) (dhcp saddr daddr : List Byte) (sport dport : Nat)
    (hd : dhcp.length = 628) (hs : saddr.length = 4) (hda : daddr.length = 4)
    (hsp : sport < 65536) (hdp : dport < 65536) :
    let c1 := Spec.inetChecksum ([0, 0, 2, 44, 0, 0, 0, 0, 0, 17, 0, 0] ++ saddr ++ daddr ++
      [hi sport, lo sport, hi dport, lo dport, 2, 44, 0, 0] ++ (withBroadcast dhcp).take 548)
    let c2 := Spec.inetChecksum ([0x45, 0, 2, 64, 0, 0, 0, 0, 64, 17, 0, 0] ++ saddr ++ daddr)
    sendRaw h dhcp saddr daddr sport dport = some
      ([0x45, 0, 2, 64, 0, 0, 0, 0, 64, 17, hi c2, lo c2] ++ saddr ++ daddr ++
       [hi sport, lo sport, hi dport, lo dport, 2, 44, hi c1, lo c1] ++ (withBroadcast dhcp).take 548) := by
  intro c1 c2
  obtain ⟨s0, s1, s2, s3, rfl⟩ := cons4 saddr hs
  obtain ⟨d0, d1, d2, d3, rfl⟩ := cons4 daddr hda
  have hw := withBroadcast_length dhcp
  unfold sendRaw
  rw [rd_some (by omega)]
  simp only [Option.bind_eq_bind, Option.bind_some]
  rw [wr_some (by simp; omega)]
  simp only [Option.bind_some]
  have e1 : dhcp.take 10 ++ ((dhcp.drop 10).take 1).map (· ||| 0x80) ++
      dhcp.drop (10 + (((dhcp.drop 10).take 1).map (· ||| 0x80)).length) = withBroadcast dhcp := by
    have : (((dhcp.drop 10).take 1).map (· ||| (0x80 : Byte))).length = 1 := by simp; omega
    rw [this]; rfl
  rw [e1]
  generalize hD : withBroadcast dhcp = D at *
  have hDl : D.length = 628 := by omega
  have e2 : wr (List.replicate packetSize 0) 28 D = some ([0, 0, 0, 0, 0, 0, 0, 0, 0, 0, 0, 0, 0, 0, 0, 0, 0, 0, 0, 0, 0, 0, 0, 0, 0, 0, 0, 0] ++ D) := by
    rw [wr_some (by rw [hDl, List.length_replicate]; exact Nat.le_refl _), List.take_replicate, List.drop_replicate, hDl]
    show some ((List.replicate 28 (0 : Byte) ++ D) ++ List.replicate 0 0) = _
    rw [show List.replicate 0 (0 : Byte) = [] from rfl, List.append_nil]; rfl
  rw [e2]
  simp only [Option.bind_some]
  have e3 : wr ([0, 0, 0, 0, 0, 0, 0, 0, 0, 0, 0, 0, 0, 0, 0, 0, 0, 0, 0, 0, 0, 0, 0, 0, 0, 0, 0, 0] ++ D) 9 [17] =
      some ([0, 0, 0, 0, 0, 0, 0, 0, 0, 17, 0, 0, 0, 0, 0, 0, 0, 0, 0, 0, 0, 0, 0, 0, 0, 0, 0, 0] ++ D) := by simp [wr]
  have e4 : wr ([0, 0, 0, 0, 0, 0, 0, 0, 0, 17, 0, 0, 0, 0, 0, 0, 0, 0, 0, 0, 0, 0, 0, 0, 0, 0, 0, 0] ++ D) 12 [s0, s1, s2, s3] =
      some ([0, 0, 0, 0, 0, 0, 0, 0, 0, 17, 0, 0, s0, s1, s2, s3, 0, 0, 0, 0, 0, 0, 0, 0, 0, 0, 0, 0] ++ D) := by simp [wr]
  have e5 : wr ([0, 0, 0, 0, 0, 0, 0, 0, 0, 17, 0, 0, s0, s1, s2, s3, 0, 0, 0, 0, 0, 0, 0, 0, 0, 0, 0, 0] ++ D) 16 [d0, d1, d2, d3] =
      some ([0, 0, 0, 0, 0, 0, 0, 0, 0, 17, 0, 0, s0, s1, s2, s3, d0, d1, d2, d3, 0, 0, 0, 0, 0, 0, 0, 0] ++ D) := by simp [wr]
  have e6 : put16 h ([0, 0, 0, 0, 0, 0, 0, 0, 0, 17, 0, 0, s0, s1, s2, s3, d0, d1, d2, d3, 0, 0, 0, 0, 0, 0, 0, 0] ++ D) 20 (htons h sport) =
      some ([0, 0, 0, 0, 0, 0, 0, 0, 0, 17, 0, 0, s0, s1, s2, s3, d0, d1, d2, d3, hi sport, lo sport, 0, 0, 0, 0, 0, 0] ++ D) := by
    rw [put16_htons _ _ _ _ hsp]; simp [wr]
  have e7 : put16 h ([0, 0, 0, 0, 0, 0, 0, 0, 0, 17, 0, 0, s0, s1, s2, s3, d0, d1, d2, d3, hi sport, lo sport, 0, 0, 0, 0, 0, 0] ++ D) 22 (htons h dport) =
      some ([0, 0, 0, 0, 0, 0, 0, 0, 0, 17, 0, 0, s0, s1, s2, s3, d0, d1, d2, d3, hi sport, lo sport, hi dport, lo dport, 0, 0, 0, 0] ++ D) := by
    rw [put16_htons _ _ _ _ hdp]; simp [wr]
  have e8 : put16 h ([0, 0, 0, 0, 0, 0, 0, 0, 0, 17, 0, 0, s0, s1, s2, s3, d0, d1, d2, d3, hi sport, lo sport, hi dport, lo dport, 0, 0, 0, 0] ++ D) 24 (htons h (sendSize - 20)) =
      some ([0, 0, 0, 0, 0, 0, 0, 0, 0, 17, 0, 0, s0, s1, s2, s3, d0, d1, d2, d3, hi sport, lo sport, hi dport, lo dport, 2, 44, 0, 0] ++ D) := by
    rw [put16_htons _ _ _ _ (by decide), show hi (sendSize - 20) = 2 by decide, show lo (sendSize - 20) = 44 by decide]; simp [wr]
  have e9 : get16 h ([0, 0, 0, 0, 0, 0, 0, 0, 0, 17, 0, 0, s0, s1, s2, s3, d0, d1, d2, d3, hi sport, lo sport, hi dport, lo dport, 2, 44, 0, 0] ++ D) 24 =
      some (native h [2, 44]) := by simp [get16, getUnaligned, rd]
  have e10 : put16 h ([0, 0, 0, 0, 0, 0, 0, 0, 0, 17, 0, 0, s0, s1, s2, s3, d0, d1, d2, d3, hi sport, lo sport, hi dport, lo dport, 2, 44, 0, 0] ++ D) 2 (native h [2, 44]) =
      some ([0, 0, 2, 44, 0, 0, 0, 0, 0, 17, 0, 0, s0, s1, s2, s3, d0, d1, d2, d3, hi sport, lo sport, hi dport, lo dport, 2, 44, 0, 0] ++ D) := by
    rw [put16, putUnaligned, layout_native2]; simp [wr]
  simp only [e3, e4, e5, e6, e7, e8, e9, e10, Option.bind_some]
  rw [checksum_inet _ _ _ _ (by simp [sendSize, hDl]) (by decide), Option.bind_some]
  have hlt : ∀ l, Spec.inetChecksum l < 65536 := fun l => by unfold Spec.inetChecksum; omega
  have e11 : Spec.inetChecksum (List.take sendSize (List.drop 0 ([0, 0, 2, 44, 0, 0, 0, 0, 0, 17, 0, 0, s0, s1, s2, s3, d0, d1, d2, d3, hi sport, lo sport, hi dport, lo dport, 2, 44, 0, 0] ++ D))) = c1 := by
    simp [c1, sendSize, hD]
  rw [e11]
  have hc1 : c1 < 65536 := hlt _
  have hc2 : c2 < 65536 := hlt _
  generalize c1 = c1 at *
  have e12 : put16 h ([0, 0, 2, 44, 0, 0, 0, 0, 0, 17, 0, 0, s0, s1, s2, s3, d0, d1, d2, d3, hi sport, lo sport, hi dport, lo dport, 2, 44, 0, 0] ++ D) 26 (htons h c1) =
      some ([0, 0, 2, 44, 0, 0, 0, 0, 0, 17, 0, 0, s0, s1, s2, s3, d0, d1, d2, d3, hi sport, lo sport, hi dport, lo dport, 2, 44, hi c1, lo c1] ++ D) := by
    rw [put16_htons _ _ _ _ hc1]; simp [wr]
  have e13 : put16 h ([0, 0, 2, 44, 0, 0, 0, 0, 0, 17, 0, 0, s0, s1, s2, s3, d0, d1, d2, d3, hi sport, lo sport, hi dport, lo dport, 2, 44, hi c1, lo c1] ++ D) 2 (htons h sendSize) =
      some ([0, 0, 2, 64, 0, 0, 0, 0, 0, 17, 0, 0, s0, s1, s2, s3, d0, d1, d2, d3, hi sport, lo sport, hi dport, lo dport, 2, 44, hi c1, lo c1] ++ D) := by
    rw [put16_htons _ _ _ _ (by decide), show hi sendSize = 2 by decide, show lo sendSize = 64 by decide]; simp [wr]
  have e14 : wr ([0, 0, 2, 64, 0, 0, 0, 0, 0, 17, 0, 0, s0, s1, s2, s3, d0, d1, d2, d3, hi sport, lo sport, hi dport, lo dport, 2, 44, hi c1, lo c1] ++ D) 0 [0x45] =
      some ([0x45, 0, 2, 64, 0, 0, 0, 0, 0, 17, 0, 0, s0, s1, s2, s3, d0, d1, d2, d3, hi sport, lo sport, hi dport, lo dport, 2, 44, hi c1, lo c1] ++ D) := by simp [wr]
  have e15 : wr ([0x45, 0, 2, 64, 0, 0, 0, 0, 0, 17, 0, 0, s0, s1, s2, s3, d0, d1, d2, d3, hi sport, lo sport, hi dport, lo dport, 2, 44, hi c1, lo c1] ++ D) 8 [64] =
      some ([0x45, 0, 2, 64, 0, 0, 0, 0, 64, 17, 0, 0, s0, s1, s2, s3, d0, d1, d2, d3, hi sport, lo sport, hi dport, lo dport, 2, 44, hi c1, lo c1] ++ D) := by simp [wr]
  simp only [e12, e13, e14, e15, Option.bind_some]
  rw [checksum_inet _ _ _ _ (by simp) (by decide), Option.bind_some]
  have e16 : Spec.inetChecksum (List.take 20 (List.drop 0 ([0x45, 0, 2, 64, 0, 0, 0, 0, 64, 17, 0, 0, s0, s1, s2, s3, d0, d1, d2, d3, hi sport, lo sport, hi dport, lo dport, 2, 44, hi c1, lo c1] ++ D))) = c2 := by
    simp [c2]
  rw [e16]
  generalize c2 = c2 at *
  have e17 : put16 h ([0x45, 0, 2, 64, 0, 0, 0, 0, 64, 17, 0, 0, s0, s1, s2, s3, d0, d1, d2, d3, hi sport, lo sport, hi dport, lo dport, 2, 44, hi c1, lo c1] ++ D) 10 (htons h c2) =
      some ([0x45, 0, 2, 64, 0, 0, 0, 0, 64, 17, hi c2, lo c2, s0, s1, s2, s3, d0, d1, d2, d3, hi sport, lo sport, hi dport, lo dport, 2, 44, hi c1, lo c1] ++ D) := by
    rw [put16_htons _ _ _ _ hc2]; simp [wr]
  rw [e17]
  simp [rd, sendSize, hDl]

theorem htonl_native4 (h : Host) (a b c d : Byte) :
    (native h [a, b, c, d] = htonl h 0x63825363) ↔ [a, b, c, d] = [0x63, 0x82, 0x53, 0x63] := by
  constructor
  · intro e
    have ha := a.toNat_lt; have hb := b.toNat_lt; have hc := c.toNat_lt; have hd := d.toNat_lt
    have key : a.toNat = 0x63 ∧ b.toNat = 0x82 ∧ c.toNat = 0x53 ∧ d.toNat = 0x63 := by
      cases h
      · rw [show htonl .le 0x63825363 = 0x63538263 by decide] at e
        simp only [native, leVal] at e; omega
      · rw [show htonl .be 0x63825363 = 0x63825363 by decide] at e
        simp [native, leVal] at e; omega
    have f : ∀ (x : Byte) (n : Nat), x.toNat = n → x = n.toUInt8 := by
      intro x n hx; subst hx; simp
    rw [f a _ key.1, f b _ key.2.1, f c _ key.2.2.1, f d _ key.2.2.2]; rfl
  · intro e
    simp only [List.cons.injEq, and_true] at e
    obtain ⟨rfl, rfl, rfl, rfl⟩ := e
    cases h <;> decide

/-- The core of the receive theorem: what happens for a frame of at least 28 bytes. -/
theorem recvL2_core (h : Host) (frame pkt : List Byte) (hp : pkt.length = 628) (h28 : 28 ≤ frame.length)
    (tot : Nat) (ht : Spec.beVal ((frame.drop 2).take 2) = tot) (ht28 : 28 ≤ tot) :
    (¬ (Spec.Accepts frame tot ∧ tot ≤ 656) ∧ recvL2 h frame pkt = some ⟨-1, pkt⟩) ∨
    (Spec.Accepts frame tot ∧ tot ≤ 656 ∧
      recvL2 h frame pkt =
        if ((((frame.drop 28).take (tot - 28) ++ pkt.drop (tot - 28)).drop 236).take 4) = [0x63, 0x82, 0x53, 0x63]
        then some ⟨(tot : Int) - 28, (frame.drop 28).take (tot - 28) ++ pkt.drop (tot - 28)⟩
        else some ⟨-1, (frame.drop 28).take (tot - 28) ++ pkt.drop (tot - 28)⟩) := by
  obtain ⟨b0, b1, b2, b3, b4, b5, b6, b7, b8, b9, b10, b11, b12, b13, b14, b15, b16, b17, b18, b19, b20, b21, b22, b23, b24, b25, b26, b27, r, rfl⟩ := cons28 frame h28
  have ht' : Spec.beVal [b2, b3] = tot := by simpa using ht
  have htlt : tot < 65536 := ht' ▸ beVal2_lt b2 b3
  have hlen : ([b0, b1, b2, b3, b4, b5, b6, b7, b8, b9, b10, b11, b12, b13, b14, b15, b16, b17, b18, b19, b20, b21, b22, b23, b24, b25, b26, b27] ++ r).length = r.length + 28 := by simp
  rw [recvL2_eq]
  have hP : List.take 656 ([b0, b1, b2, b3, b4, b5, b6, b7, b8, b9, b10, b11, b12, b13, b14, b15, b16, b17, b18, b19, b20, b21, b22, b23, b24, b25, b26, b27] ++ r) ++ List.replicate (656 - ([b0, b1, b2, b3, b4, b5, b6, b7, b8, b9, b10, b11, b12, b13, b14, b15, b16, b17, b18, b19, b20, b21, b22, b23, b24, b25, b26, b27] ++ r).length) 0 =
      [b0, b1, b2, b3, b4, b5, b6, b7, b8, b9, b10, b11, b12, b13, b14, b15, b16, b17, b18, b19, b20, b21, b22, b23, b24, b25, b26, b27] ++ (r.take 628 ++ List.replicate (628 - r.length) 0) := by
    rw [hlen, show 656 - (r.length + 28) = 628 - r.length by omega]; simp
  rw [hP, recvBody_eval _ _ b0 b1 b2 b3 b4 b5 b6 b7 b8 b9 b10 b11 b12 b13 b14 b15 b16 b17 b18 b19 b20 b21 b22 b23 b24 b25 b26 b27 _ _ (Nat.min_le_right _ _) (by rw [List.length_append, List.length_take, List.length_replicate]; omega), ht', hlen]
  have hq : tot ≤ min (r.length + 28) 656 → (r.take 628 ++ List.replicate (628 - r.length) (0 : Byte)).take (tot - 28) = r.take (tot - 28) := by
    intro hm
    rw [List.take_append_of_le_length (by rw [List.length_take]; omega), List.take_take]
    congr 1; omega
  have hsum : tot ≤ min (r.length + 28) 656 →
      Spec.inetChecksum (([0, 0, b24, b25, 0, 0, 0, 0, 0, b9, 0, 0, b12, b13, b14, b15, b16, b17, b18, b19, b20, b21, b22, b23, b24, b25, 0, 0] ++
        (r.take 628 ++ List.replicate (628 - r.length) 0)).take tot) =
      Spec.inetChecksum (Spec.pseudo ([b0, b1, b2, b3, b4, b5, b6, b7, b8, b9, b10, b11, b12, b13, b14, b15, b16, b17, b18, b19, b20, b21, b22, b23, b24, b25, b26, b27] ++ r) ++ Spec.udpBlank ([b0, b1, b2, b3, b4, b5, b6, b7, b8, b9, b10, b11, b12, b13, b14, b15, b16, b17, b18, b19, b20, b21, b22, b23, b24, b25, b26, b27] ++ r) tot) := by
    intro hm
    have e1 : ([0, 0, b24, b25, 0, 0, 0, 0, 0, b9, 0, 0, b12, b13, b14, b15, b16, b17, b18, b19, b20, b21, b22, b23, b24, b25, 0, 0] ++
        (r.take 628 ++ List.replicate (628 - r.length) 0)).take tot =
        [0, 0, b24, b25, 0, 0, 0, 0, 0, b9, 0, 0, b12, b13, b14, b15, b16, b17, b18, b19, b20, b21, b22, b23, b24, b25, 0, 0] ++ r.take (tot - 28) := by
      rw [List.take_append, List.take_of_length_le (by simpa using ht28)]
      congr 1
      rw [← hq hm]; rfl
    have e2 : Spec.pseudo ([b0, b1, b2, b3, b4, b5, b6, b7, b8, b9, b10, b11, b12, b13, b14, b15, b16, b17, b18, b19, b20, b21, b22, b23, b24, b25, b26, b27] ++ r) ++ Spec.udpBlank ([b0, b1, b2, b3, b4, b5, b6, b7, b8, b9, b10, b11, b12, b13, b14, b15, b16, b17, b18, b19, b20, b21, b22, b23, b24, b25, b26, b27] ++ r) tot =
        [b12, b13, b14, b15, b16, b17, b18, b19, 0, b9, b24, b25, b20, b21, b22, b23, b24, b25, 0, 0] ++ r.take (tot - 28) := by
      simp [Spec.pseudo, Spec.udpBlank]
    rw [e1, e2]
    unfold Spec.inetChecksum
    rw [ocSum_congr]
    rw [words_append _ _ (by simp), words_append _ _ (by simp), List.sum_append, List.sum_append]
    congr 1
    simp [Spec.words]
    omega
  have hz : Spec.beVal [b26, b27] = 0 ↔ ([b26, b27] : List Byte) = [0, 0] := by
    rw [beVal2]
    constructor
    · intro e
      have h1 : b26 = 0 := UInt8.toNat.inj (by show _ = 0; omega)
      have h2 : b27 = 0 := UInt8.toNat.inj (by show _ = 0; omega)
      rw [h1, h2]
    · intro e
      simp only [List.cons.injEq, and_true] at e
      rw [e.1, e.2]; rfl
  have hacc : (Spec.Accepts ([b0, b1, b2, b3, b4, b5, b6, b7, b8, b9, b10, b11, b12, b13, b14, b15, b16, b17, b18, b19, b20, b21, b22, b23, b24, b25, b26, b27] ++ r) tot ∧ tot ≤ 656) ↔ ¬ (min (r.length + 28) 656 < 28 ∨ min (r.length + 28) 656 < tot ∨ ¬ (b9 = 17 ∧ b0 = 0x45 ∧ Spec.beVal [b22, b23] = 68 ∧
          Spec.beVal [b24, b25] = (tot + 65536 - 20) % 65536) ∨
          Spec.beVal [b10, b11] ≠ Spec.inetChecksum [b0, b1, b2, b3, b4, b5, b6, b7, b8, b9, 0, 0, b12, b13, b14, b15, b16, b17, b18, b19] ∨
          (Spec.beVal [b26, b27] ≠ 0 ∧ Spec.beVal [b26, b27] ≠ Spec.inetChecksum
            (([0, 0, b24, b25, 0, 0, 0, 0, 0, b9, 0, 0, b12, b13, b14, b15, b16, b17, b18, b19, b20, b21, b22, b23, b24, b25, 0, 0] ++ (r.take 628 ++ List.replicate (628 - r.length) 0)).take tot))) := by
    constructor
    · rintro ⟨⟨a1, a2, a3, a4, a5, a6, a7, a8⟩, ha⟩
      rw [hlen] at a2
      simp only [List.cons_append, List.nil_append, List.drop_succ_cons, List.drop_zero, List.take_succ_cons, List.take_zero, List.cons.injEq, and_true, Spec.ipBlank] at a3 a4 a5 a6 a7 a8
      rintro (c | c | c | c | c)
      · omega
      · omega
      · exact c ⟨a4, a3, a5, by rw [a6]; omega⟩
      · exact c a7
      · rw [hsum (by omega)] at c
        rcases a8 with a8 | a8
        · exact c.1 (hz.2 (by rw [a8.1, a8.2]))
        · exact c.2 a8
    · intro c
      simp only [not_or, ne_eq, Classical.not_not, Classical.not_and_iff_not_or_not] at c
      obtain ⟨c1, c2, ⟨c3, c4, c5, c6⟩, c7, c8⟩ := c
      have hm : tot ≤ min (r.length + 28) 656 := by omega
      refine ⟨⟨ht, by rw [hlen]; omega, ?_, ?_, ?_, ?_, ?_, ?_⟩, by omega⟩
      · simp [c4]
      · simp [c3]
      · simpa using c5
      · have : Spec.beVal [b24, b25] = tot - 20 := by rw [c6]; omega
        simpa using this
      · simpa [Spec.ipBlank] using c7
      · rcases c8 with c8 | c8
        · left; simpa using hz.1 c8
        · right
          rw [hsum hm] at c8
          simpa using c8
  split
  · rename_i hc
    left
    refine ⟨fun ha => hacc.1 ha hc, rfl⟩
  · rename_i hc
    right
    have ha := hacc.2 hc
    refine ⟨ha.1, ha.2, ?_⟩
    have h1 := ha.1.inside
    rw [hlen] at h1
    have h2 := ha.2
    have hW : W64 = 18446744073709551616 := rfl
    rw [show (tot + W64 - 28) % W64 = tot - 28 by clear hacc hsum hq hc; rw [hW]; omega]
    rw [rd_some (by simp only [List.length_append, List.length_take, List.length_cons, List.length_nil, List.length_replicate]; omega)]
    simp only [Option.bind_eq_bind, Option.bind_some]
    have e3 : List.take (tot - 28) (List.drop 28 ([0, 0, b24, b25, 0, 0, 0, 0, 0, b9, 0, 0, b12, b13, b14, b15, b16, b17, b18, b19, b20, b21, b22, b23, b24, b25, 0, 0] ++
        (r.take 628 ++ List.replicate (628 - r.length) 0))) = r.take (tot - 28) := by
      rw [← hq (by omega)]; rfl
    rw [e3]
    have hl : (r.take (tot - 28)).length = tot - 28 := by rw [List.length_take]; omega
    rw [wr_some (by rw [hl]; omega)]
    simp only [Option.bind_some, List.take_zero, List.nil_append, hl, Nat.zero_add]
    have e4 : List.drop 28 ([b0, b1, b2, b3, b4, b5, b6, b7, b8, b9, b10, b11, b12, b13, b14, b15, b16, b17, b18, b19, b20, b21, b22, b23, b24, b25, b26, b27] ++ r) = r := rfl
    rw [e4]
    generalize hY : r.take (tot - 28) ++ pkt.drop (tot - 28) = Y
    have hYl : Y.length = 628 := by rw [← hY, List.length_append, hl, List.length_drop]; omega
    have e5 : ((Y.drop 236).take 4).length = 4 := by rw [List.length_take, List.length_drop]; omega
    obtain ⟨y0, y1, y2, y3, hy⟩ := cons4 _ e5
    rw [getUnaligned, rd_some (by omega), hy]
    simp only [Option.bind_eq_bind, Option.bind_some, Option.pure_def]
    by_cases hk : [y0, y1, y2, y3] = [0x63, 0x82, 0x53, 0x63]
    · rw [if_neg (by rw [ne_eq, Classical.not_not]; exact (htonl_native4 h _ _ _ _).2 hk), if_pos hk]
    · rw [if_pos (fun e => hk ((htonl_native4 h _ _ _ _).1 e)), if_neg hk]

end Verif.Wire
