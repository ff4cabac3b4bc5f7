import Verif.Proof.Wire
/-!
# C33, C34, C63, C66: byte order, Internet checksum, raw DHCP frames
-/
namespace Verif.Wire
open Verif.C

/-- **C63 (load).** On either kind of host a big-endian load of `w` bytes succeeds exactly inside
the buffer and yields the number whose base-256 digits are there. -/
theorem load_be (h : Host) (w : Nat) (buf : List Byte) (off v : Nat) :
    getBe h w buf off = some v ↔ off + w ≤ buf.length ∧ Spec.BeAt buf off w v := by
  rw [getBe_eq]
  constructor
  · intro e
    cases hr : rd buf off w with
    | none => simp [hr] at e
    | some bs =>
      have hlen := length_of_rd hr
      have hget := getElem?_of_rd hr
      simp only [hr, Option.map_some, Option.some.injEq] at e
      subst e
      have hb := leVal_lt bs.reverse
      have hd := leBytes_leVal bs.reverse
      simp only [List.length_reverse, hlen] at hb hd
      refine ⟨by unfold rd at hr; split at hr <;> simp_all, hb, fun i hi => ?_⟩
      have := (beAt_reverse w _ hb).2 i hi
      rw [hd, List.reverse_reverse, Nat.zero_add, hget, if_pos hi] at this
      exact this
  · rintro ⟨hl, hv, hdig⟩
    obtain ⟨bs, hr, hlen, hget⟩ := rd_ex hl
    rw [hr, Option.map_some, Option.some.injEq]
    have : bs = (leBytes w v).reverse := by
      apply List.ext_getElem?
      intro i
      by_cases hi : i < w
      · have := (beAt_reverse w v hv).2 i hi
        rw [Nat.zero_add] at this
        rw [this, hget, if_pos hi, hdig i hi]
      · rw [List.getElem?_eq_none (by omega), List.getElem?_eq_none (by simp; omega)]
    rw [this, List.reverse_reverse, leVal_leBytes w v hv]

example : getBe .le 4 [9, 0xc0, 0xa8, 0x32, 0x01, 7] 1 = some 0xc0a83201 ∧
    Spec.BeAt [9, 0xc0, 0xa8, 0x32, 0x01, 7] 1 4 0xc0a83201 := by
  refine ⟨by decide, ?_⟩
  exact ((load_be .le 4 _ 1 _).1 (by decide)).2

/-- **C63 (load, little endian).** -/
theorem load_le (h : Host) (w : Nat) (buf : List Byte) (off v : Nat) :
    getLe h w buf off = some v ↔ off + w ≤ buf.length ∧ Spec.LeAt buf off w v := by
  rw [getLe_eq]
  constructor
  · intro e
    cases hr : rd buf off w with
    | none => simp [hr] at e
    | some bs =>
      have hlen := length_of_rd hr
      have hget := getElem?_of_rd hr
      simp only [hr, Option.map_some, Option.some.injEq] at e
      subst e
      have hb := leVal_lt bs
      have hd := leBytes_leVal bs
      simp only [hlen] at hb hd
      refine ⟨by unfold rd at hr; split at hr <;> simp_all, hb, fun i hi => ?_⟩
      have := (leAt_leBytes w _ hb).2 i hi
      rw [hd, Nat.zero_add, hget, if_pos hi] at this
      exact this
  · rintro ⟨hl, hv, hdig⟩
    obtain ⟨bs, hr, hlen, hget⟩ := rd_ex hl
    rw [hr, Option.map_some, Option.some.injEq]
    have : bs = leBytes w v := by
      apply List.ext_getElem?
      intro i
      by_cases hi : i < w
      · have := (leAt_leBytes w v hv).2 i hi
        rw [Nat.zero_add] at this
        rw [this, hget, if_pos hi, hdig i hi]
      · rw [List.getElem?_eq_none (by omega), List.getElem?_eq_none (by simp; omega)]
    rw [this, leVal_leBytes w v hv]

example : getLe .be 2 [9, 0x34, 0x12] 1 = some 0x1234 := by decide

/-- **C63 (store).** A big-endian store puts exactly the digits of the value at the addressed
bytes, leaves every other byte alone, and loading returns the value. -/
theorem store_be (h : Host) (w v : Nat) (buf : List Byte) (off : Nat) (hl : off + w ≤ buf.length)
    (hv : v < 256 ^ w) :
    ∃ buf', putBe h w v buf off = some buf' ∧ buf'.length = buf.length ∧ Spec.BeAt buf' off w v ∧
      (∀ j, (j < off ∨ off + w ≤ j) → buf'[j]? = buf[j]?) ∧ getBe h w buf' off = some v := by
  have hlen : (leBytes w v).reverse.length = w := by simp
  obtain ⟨buf', e, el, eg⟩ := wr_ex (b := buf) (d := (leBytes w v).reverse) (i := off) (by omega)
  rw [hlen] at eg
  have hbe : Spec.BeAt buf' off w v := by
    refine ⟨hv, fun i hi => ?_⟩
    have := (beAt_reverse w v hv).2 i hi
    rw [Nat.zero_add] at this
    rw [eg, if_pos (by omega), show off + i - off = i by omega, this]
  refine ⟨buf', by rw [putBe_eq, e], el, hbe, ?_, (load_be h w buf' off v).2 ⟨by omega, hbe⟩⟩
  intro j hj
  rw [eg, if_neg (by omega)]

example : ∃ buf', putBe .le 4 0xc0a83201 [9, 9, 9, 9, 9, 9] 1 = some buf' ∧
    buf' = [9, 0xc0, 0xa8, 0x32, 0x01, 9] := ⟨_, by decide, rfl⟩

/-- **C63 (store, little endian).** -/
theorem store_le (h : Host) (w v : Nat) (buf : List Byte) (off : Nat) (hl : off + w ≤ buf.length)
    (hv : v < 256 ^ w) :
    ∃ buf', putLe h w v buf off = some buf' ∧ buf'.length = buf.length ∧ Spec.LeAt buf' off w v ∧
      (∀ j, (j < off ∨ off + w ≤ j) → buf'[j]? = buf[j]?) ∧ getLe h w buf' off = some v := by
  have hlen : (leBytes w v).length = w := by simp
  obtain ⟨buf', e, el, eg⟩ := wr_ex (b := buf) (d := leBytes w v) (i := off) (by omega)
  rw [hlen] at eg
  have hbe : Spec.LeAt buf' off w v := by
    refine ⟨hv, fun i hi => ?_⟩
    have := (leAt_leBytes w v hv).2 i hi
    rw [Nat.zero_add] at this
    rw [eg, if_pos (by omega), show off + i - off = i by omega, this]
  refine ⟨buf', by rw [putLe_eq, e], el, hbe, ?_, (load_le h w buf' off v).2 ⟨by omega, hbe⟩⟩
  intro j hj
  rw [eg, if_neg (by omega)]

example : ∃ buf', putLe .be 2 0x1234 [9, 9, 9, 9] 1 = some buf' ∧ buf' = [9, 0x34, 0x12, 9] :=
  ⟨_, by decide, rfl⟩

/-! ### C33 -/

/-- **C33 (what is computed).** For every buffer of at most 64 KiB the value returned by
`dhcp_checksum`, once stored natively, reads in network order as the RFC 1071 checksum of the
buffer; no signed overflow, no out-of-bounds read, on either kind of host. -/
theorem checksum_is_rfc1071 (h : Host) (buf : List Byte) (off count : Nat)
    (hb : off + count ≤ buf.length) (hc : count ≤ 65536) :
    ∃ c, checksum h buf off count = some c ∧ c < 65536 ∧
      Spec.beVal (layout h 2 c) = Spec.inetChecksum ((buf.drop off).take count) := by
  refine ⟨_, checksum_inet h buf off count hb hc, htons_lt _ _ (by unfold Spec.inetChecksum; omega), ?_⟩
  have : Spec.inetChecksum ((buf.drop off).take count) < 65536 := by unfold Spec.inetChecksum; omega
  rw [layout_htons h _ this]
  exact beVal_hilo _ this

example : ∃ c, checksum .le [9, 0x45, 0x00, 0xff, 0xfe, 0x21] 1 5 = some c ∧ c ≠ 0 :=
  ⟨154, by decide +kernel, by decide⟩

/-- Above 64 KiB the accumulator of `dhcp_checksum` can overflow (undefined behaviour); callers
pass at most 656 bytes. -/
theorem checksum_overflow : checksum .le (List.replicate 65538 255) 0 65538 = none := by
  have h1 : ∀ (k s : Nat), s + 65535 * k ≥ 2147483648 → sumWords .le (List.replicate (2 * k) 255) s = none ∨ s ≥ 2147483648 := by
    intro k
    induction k with
    | zero => intro s hs; right; omega
    | succ k ih =>
      intro s hs
      rw [show 2 * (k + 1) = (2 * k) + 1 + 1 by omega, List.replicate_succ, List.replicate_succ, sumWords]
      have hn : native .le [255, 255] = 65535 := by decide
      rw [hn, addI32]
      by_cases hlt : s + 65535 < 2147483648
      · rw [if_pos hlt]
        simp only [Option.bind_eq_bind, Option.bind_some]
        rcases ih (s + 65535) (by omega) with e | e
        · exact Or.inl e
        · omega
      · rw [if_neg hlt]; left; rfl
  have h2 := (h1 32769 0 (by omega)).resolve_right (by omega)
  have e : rd (List.replicate 65538 (255 : Byte)) 0 65538 = some (List.replicate (2 * 32769) 255) := by
    rw [rd_some (by rw [List.length_replicate]; omega), List.drop_zero, List.take_replicate]; rfl
  unfold checksum
  rw [e]
  simp only [Option.bind_eq_bind, Option.bind_some]
  rw [h2]; rfl

/-- **C33 (verifies).** Blank a 16-bit field at an even position, compute the checksum, store it
there: the checksum over the whole buffer is then zero. -/
theorem checksum_verifies (h : Host) (pre post : List Byte) (hp : pre.length % 2 = 0)
    (hl : pre.length + 2 + post.length ≤ 65536) :
    ∃ c, checksum h (pre ++ [0, 0] ++ post) 0 (pre.length + 2 + post.length) = some c ∧
      checksum h (pre ++ layout h 2 c ++ post) 0 (pre.length + 2 + post.length) = some 0 := by
  refine ⟨_, checksum_inet h _ _ _ (by simp; omega) hl, ?_⟩
  have hlt : ∀ l, Spec.inetChecksum l < 65536 := fun l => by unfold Spec.inetChecksum; omega
  rw [layout_htons h _ (hlt _), checksum_inet h _ _ _ (by simp; omega) hl, Option.some.injEq]
  have htake : ∀ a b : Byte, List.take (pre.length + 2 + post.length) (List.drop 0 (pre ++ [a, b] ++ post)) =
      pre ++ [a, b] ++ post := by
    intro a b
    rw [List.drop_zero, List.take_of_length_le (by simp; omega)]
  rw [htake, htake]
  have hw : ∀ a b : Byte, Spec.words (pre ++ [a, b] ++ post) =
      Spec.words pre ++ [256 * a.toNat + b.toNat] ++ Spec.words post := by
    intro a b
    rw [words_append _ _ (by simp; omega), words_append _ _ hp]; rfl
  have h0 := ocSum_spec (pre ++ [0, 0] ++ post)
  generalize hc : Spec.inetChecksum (pre ++ [0, 0] ++ post) = c
  have hcd : c = 65535 - Spec.ocSum (pre ++ [0, 0] ++ post) := hc.symm
  have h1 := ocSum_spec (pre ++ [(c / 256).toUInt8, c.toUInt8] ++ post)
  have hv := beVal_hilo c (by omega)
  rw [beVal2] at hv
  rw [hw] at h0 h1
  have e0 : (Spec.words pre ++ [256 * (0 : Byte).toNat + (0 : Byte).toNat] ++ Spec.words post).sum =
      (Spec.words pre).sum + (Spec.words post).sum := by simp
  have e1 : (Spec.words pre ++ [256 * (c / 256).toUInt8.toNat + c.toUInt8.toNat] ++ Spec.words post).sum =
      (Spec.words pre).sum + (Spec.words post).sum + (65535 - Spec.ocSum (pre ++ [0, 0] ++ post)) := by
    rw [← hcd]
    simp only [List.sum_append, List.sum_cons, List.sum_nil]
    unfold hi lo at hv
    omega
  rw [e0] at h0
  rw [e1] at h1
  have : Spec.inetChecksum (pre ++ [(c / 256).toUInt8, c.toUInt8] ++ post) = 0 := by
    unfold Spec.inetChecksum
    rw [oc_store _ _ _ h0 h1]
  rw [this]; cases h <;> decide

example : checksum .le ([0x45, 0, 0, 20] ++ [0, 0] ++ [1, 2, 3]) 0 9 = some 59830 ∧
    checksum .le ([0x45, 0, 0, 20] ++ layout .le 2 59830 ++ [1, 2, 3]) 0 9 = some 0 := by decide +kernel

/-- **C33 (detection).** Two buffers that differ in one 16-bit word have different checksums,
except when that word is `0x0000` in one and `0xffff` in the other. -/
theorem checksum_detects (h : Host) (pre post : List Byte) (a b a' b' : Byte)
    (hp : pre.length % 2 = 0) (hl : pre.length + 2 + post.length ≤ 65536)
    (hne : [a, b] ≠ [a', b'])
    (hz : ¬ ([a, b] = [0, 0] ∧ [a', b'] = [255, 255])) (hz' : ¬ ([a, b] = [255, 255] ∧ [a', b'] = [0, 0])) :
    checksum h (pre ++ [a, b] ++ post) 0 (pre.length + 2 + post.length) ≠
      checksum h (pre ++ [a', b'] ++ post) 0 (pre.length + 2 + post.length) := by
  rw [checksum_inet h _ _ _ (by simp; omega) hl, checksum_inet h _ _ _ (by simp; omega) hl]
  have htake : ∀ a b : Byte, List.take (pre.length + 2 + post.length) (List.drop 0 (pre ++ [a, b] ++ post)) =
      pre ++ [a, b] ++ post := by
    intro a b
    rw [List.drop_zero, List.take_of_length_le (by simp; omega)]
  rw [htake, htake]
  have hw : ∀ a b : Byte, Spec.words (pre ++ [a, b] ++ post) =
      Spec.words pre ++ [256 * a.toNat + b.toNat] ++ Spec.words post := by
    intro a b
    rw [words_append _ _ (by simp; omega), words_append _ _ hp]; rfl
  have hlt : ∀ l, Spec.inetChecksum l < 65536 := fun l => by unfold Spec.inetChecksum; omega
  intro e
  rw [Option.some.injEq, htons_inj h (hlt _) (hlt _)] at e
  have h0 := ocSum_spec (pre ++ [a, b] ++ post)
  have h1 := ocSum_spec (pre ++ [a', b'] ++ post)
  rw [hw] at h0 h1
  unfold Spec.inetChecksum at e
  simp only [List.sum_append, List.sum_cons, List.sum_nil] at h0 h1
  have ha := a.toNat_lt; have hb := b.toNat_lt; have ha' := a'.toNat_lt; have hb' := b'.toNat_lt
  have z : ∀ x : Byte, x = 0 ↔ x.toNat = 0 := fun x =>
    ⟨fun e => by rw [e]; rfl, fun e => UInt8.toNat.inj (by rw [e]; rfl)⟩
  have f : ∀ x : Byte, x = 255 ↔ x.toNat = 255 := fun x =>
    ⟨fun e => by rw [e]; rfl, fun e => UInt8.toNat.inj (by rw [e]; rfl)⟩
  simp only [List.cons.injEq, and_true, z, f] at hz hz'
  have hne' : ¬ (a.toNat = a'.toNat ∧ b.toNat = b'.toNat) := fun ⟨x, y⟩ =>
    hne (by rw [UInt8.toNat.inj x, UInt8.toNat.inj y])
  have e' : Spec.ocSum (pre ++ [a', b'] ++ post) = Spec.ocSum (pre ++ [a, b] ++ post) :=
    (fun (x y : Nat) (hx : x < 65536) (hy : y < 65536) (hxy : 65535 - x = 65535 - y) =>
      (by omega : y = x)) _ _ h0.1 h1.1 e
  rw [e'] at h1
  have := oc_detect ((Spec.words pre).sum + (Spec.words post).sum) (256 * a.toNat + b.toNat) (256 * a'.toNat + b'.toNat)
    (Spec.ocSum (pre ++ [a, b] ++ post)) (by omega) (by omega)
    ⟨h0.1, by rw [h0.2.1]; congr 1; omega, by rw [h0.2.2]; omega⟩
    ⟨h1.1, by rw [h1.2.1]; congr 1; omega, by rw [h1.2.2]; omega⟩
  omega

example : checksum .le ([1, 2] ++ [3, 4] ++ [5]) 0 5 ≠ checksum .le ([1, 2] ++ [3, 5] ++ [5]) 0 5 :=
  checksum_detects .le [1, 2] [5] 3 4 3 5 (by decide) (by decide) (by decide) (by decide) (by decide)

/-! ### C34: receiving raw frames -/

/-- **C34 (partial).** For every frame whose IP total length is at least the size of the IP and
UDP headers: receiving it is free of undefined behaviour, the caller's packet keeps its size,
and a successful return means that the frame is a well-formed DHCP frame for the client port
with correct checksums, that exactly its payload was copied and that the returned value is the
payload's length.
Missing for the full C34: frames with a total length below 28, see
`recvL2_short_total_undefined`. -/
theorem recvL2_safe_partial (h : Host) (frame pkt : List Byte) (hp : pkt.length = 628)
    (ht : frame.length < 28 ∨ 28 ≤ Spec.beVal ((frame.drop 2).take 2)) :
    ∃ r, recvL2 h frame pkt = some r ∧ r.pkt.length = 628 ∧
      (r.ret = -1 ∨ ∃ tot, Spec.Accepts frame tot ∧ tot ≤ 656 ∧ r.ret = (tot : Int) - 28 ∧
        r.pkt = (frame.drop 28).take (tot - 28) ++ pkt.drop (tot - 28)) := by
  by_cases h28 : frame.length < 28
  · refine ⟨⟨-1, pkt⟩, ?_, hp, Or.inl rfl⟩
    rw [recvL2_eq, recvBody, if_pos (by omega)]
  · have h1 := recvL2_core h frame pkt hp (by omega) _ rfl (ht.resolve_left h28)
    rcases h1 with ⟨_, e⟩ | ⟨ha, h656, e⟩
    · exact ⟨_, e, hp, Or.inl rfl⟩
    · have hin := ha.inside
      split at e
      · refine ⟨_, e, ?_, Or.inr ⟨_, ha, h656, rfl, rfl⟩⟩
        simp only [List.length_append, List.length_take, List.length_drop, hp]; omega
      · refine ⟨_, e, ?_, Or.inl rfl⟩
        simp only [List.length_append, List.length_take, List.length_drop, hp]; omega

/-- **C34 (nothing valid is dropped).** A well-formed frame whose payload holds at least the
fixed part of a DHCP message with the magic cookie is accepted, whatever the caller's packet
held before. -/
theorem recvL2_complete (h : Host) (frame pkt : List Byte) (hp : pkt.length = 628) (tot : Nat)
    (ha : Spec.Accepts frame tot) (hlo : 268 ≤ tot) (hhi : tot ≤ 656)
    (hcookie : (frame.drop 264).take 4 = [0x63, 0x82, 0x53, 0x63]) :
    recvL2 h frame pkt = some ⟨(tot : Int) - 28, (frame.drop 28).take (tot - 28) ++ pkt.drop (tot - 28)⟩ := by
  have hin := ha.inside
  rcases recvL2_core h frame pkt hp (by omega) tot ha.total (by omega) with ⟨hn, _⟩ | ⟨_, _, e⟩
  · exact absurd ⟨ha, hhi⟩ hn
  · rw [e, if_pos]
    rw [List.drop_append_of_le_length (by rw [List.length_take, List.length_drop]; omega),
      List.take_append_of_le_length (by rw [List.length_drop, List.length_take, List.length_drop]; omega),
      List.drop_take, List.take_take, List.drop_drop, Nat.min_eq_left (by omega)]
    exact hcookie

/-- A frame with an IP total length of 20 and an UDP length of 0 and no UDP checksum passes all
checks of `dhcp_recv_l2_packet`, which then copies `2^64 - 8` bytes: undefined behaviour.  So the
full C34 is false; the frame needs nothing but a correct IP header checksum. -/
theorem recvL2_short_total_undefined : ∃ frame : List Byte, frame.length = 28 ∧ frame[0]? = some 0x45 ∧ frame[9]? = some 17 ∧
    (frame.drop 20).take 4 = [0, 67, 0, 68] ∧ ∀ h pkt, pkt.length = 628 → recvL2 h frame pkt = none := by
  refine ⟨[0x45, 0, 0, 20, 0, 0, 0, 0, 64, 17, 0x7a, 0xda, 0, 0, 0, 0, 0, 0, 0, 0, 0, 67, 0, 68, 0, 0, 0, 0], rfl, rfl, rfl, rfl, ?_⟩
  intro h pkt hp
  rw [recvL2_eq]
  have e : List.take 656 ([0x45, 0, 0, 20, 0, 0, 0, 0, 64, 17, 0x7a, 0xda, 0, 0, 0, 0, 0, 0, 0, 0, 0, 67, 0, 68, 0, 0, 0, 0] : List Byte) ++
      List.replicate (656 - ([0x45, 0, 0, 20, 0, 0, 0, 0, 64, 17, 0x7a, 0xda, 0, 0, 0, 0, 0, 0, 0, 0, 0, 67, 0, 68, 0, 0, 0, 0] : List Byte).length) 0 =
      [0x45, 0, 0, 20, 0, 0, 0, 0, 64, 17, 0x7a, 0xda, 0, 0, 0, 0, 0, 0, 0, 0, 0, 67, 0, 68, 0, 0, 0, 0] ++ List.replicate 628 0 := rfl
  rw [e, recvBody_eval _ _ _ _ _ _ _ _ _ _ _ _ _ _ _ _ _ _ _ _ _ _ _ _ _ _ _ _ _ _ _ _ (by decide) (List.length_replicate)]
  rw [if_neg (by decide +kernel)]
  have hW : W64 = 18446744073709551616 := rfl
  rw [rd, if_neg (by rw [hW, beVal2, List.length_append, List.length_replicate]; decide)]
  rfl

/-- The receive check compares the UDP checksum field with the computed value instead of testing
that the sum is zero.  RFC 768 says that a computed checksum of zero is transmitted as `0xffff`;
such a frame is dropped although its one's-complement sum verifies. -/
theorem recvL2_drops_rfc768_frame : ∃ frame : List Byte, frame.length = 268 ∧
    Spec.ocSum (frame.take 20) = 65535 ∧ Spec.ocSum (Spec.pseudo frame ++ (frame.drop 20)) = 65535 ∧
    (frame.drop 26).take 2 = [0xff, 0xff] ∧
    ∀ h pkt, pkt.length = 628 → recvL2 h frame pkt = some ⟨-1, pkt⟩ := by
  refine ⟨[0x45, 0, 1, 12, 0, 0, 0, 0, 64, 17, 0x79, 0xe2, 0, 0, 0, 0, 0, 0, 0, 0, 0, 67, 0, 68, 0, 248, 0xff, 0xff] ++
    ([0x46, 0x92] ++ List.replicate 234 0 ++ [0x63, 0x82, 0x53, 0x63]), by decide +kernel, by decide +kernel, by decide +kernel, by decide +kernel, ?_⟩
  intro h pkt hp
  rcases recvL2_core h ([0x45, 0, 1, 12, 0, 0, 0, 0, 64, 17, 0x79, 0xe2, 0, 0, 0, 0, 0, 0, 0, 0, 0, 67, 0, 68, 0, 248, 0xff, 0xff] ++
    ([0x46, 0x92] ++ List.replicate 234 0 ++ [0x63, 0x82, 0x53, 0x63])) pkt hp (by decide +kernel) 268 (by decide +kernel) (by decide) with ⟨_, e⟩ | ⟨ha, _⟩
  · exact e
  · exfalso
    have := ha.udpsum
    revert this
    decide +kernel

/-- A payload shorter than the fixed part of a DHCP message is accepted if the caller's
uninitialised packet happens to hold the magic cookie from an earlier message. -/
theorem recvL2_stale_cookie : ∃ (frame pkt pkt' : List Byte), frame.length = 28 ∧ pkt.length = 628 ∧
    recvL2 .le frame pkt = some ⟨0, pkt⟩ ∧ pkt'.length = 628 ∧ recvL2 .le frame pkt' = some ⟨-1, pkt'⟩ := by
  refine ⟨[0x45, 0, 0, 28, 0, 0, 0, 0, 64, 17, 0x7a, 0xd2, 0, 0, 0, 0, 0, 0, 0, 0, 0, 67, 0, 68, 0, 8, 0, 0],
    List.replicate 236 0 ++ [0x63, 0x82, 0x53, 0x63] ++ List.replicate 388 0, List.replicate 628 0, ?_⟩
  refine ⟨rfl, by decide +kernel, by decide +kernel, by decide +kernel, by decide +kernel⟩

/-! ### C66: raw frames interoperate -/

/-- **C66.** For every DHCP message with the magic cookie, all addresses and source ports, on
every kind of host: the frame built for the client port has 576 bytes, and a receiver of either
byte order accepts it and gets exactly the first 548 bytes of the message with the broadcast
flag set. -/
theorem raw_frames_interoperate (h h' : Host) (dhcp saddr daddr pkt : List Byte) (sport : Nat)
    (hd : dhcp.length = 628) (hs : saddr.length = 4) (hda : daddr.length = 4) (hsp : sport < 65536)
    (hp : pkt.length = 628) (hcookie : (dhcp.drop 236).take 4 = [0x63, 0x82, 0x53, 0x63]) :
    ∃ frame, sendRaw h dhcp saddr daddr sport 68 = some frame ∧ frame.length = 576 ∧
      recvL2 h' frame pkt = some ⟨548,
        (dhcp.take 10 ++ ((dhcp.drop 10).take 1).map (· ||| 0x80) ++ dhcp.drop 11).take 548 ++
          pkt.drop 548⟩ := by
  have hev := sendRaw_eval h dhcp saddr daddr sport 68 hd hs hda hsp (by decide)
  have hlt : ∀ l, Spec.inetChecksum l < 65536 := fun l => by unfold Spec.inetChecksum; omega
  have hwl := withBroadcast_length dhcp
  have hck : ((withBroadcast dhcp).drop 236).take 4 = [0x63, 0x82, 0x53, 0x63] := by
    rw [← hcookie]
    unfold withBroadcast
    have hl1 : (dhcp.take 10 ++ ((dhcp.drop 10).take 1).map (· ||| 0x80)).length = 11 := by simp; omega
    rw [List.drop_append, hl1, List.drop_of_length_le (by omega), List.nil_append, List.drop_drop]
  rw [← withBroadcast]
  generalize hD : withBroadcast dhcp = D at *
  obtain ⟨s0, s1, s2, s3, rfl⟩ := cons4 saddr hs
  obtain ⟨d0, d1, d2, d3, rfl⟩ := cons4 daddr hda
  simp only at hev
  generalize hc1 : Spec.inetChecksum ([0, 0, 2, 44, 0, 0, 0, 0, 0, 17, 0, 0] ++ [s0, s1, s2, s3] ++ [d0, d1, d2, d3] ++
      [hi sport, lo sport, hi 68, lo 68, 2, 44, 0, 0] ++ D.take 548) = c1 at hev
  generalize hc2 : Spec.inetChecksum ([0x45, 0, 2, 64, 0, 0, 0, 0, 64, 17, 0, 0] ++ [s0, s1, s2, s3] ++ [d0, d1, d2, d3]) = c2 at hev
  have h1 : c1 < 65536 := hc1 ▸ hlt _
  have h2 : c2 < 65536 := hc2 ▸ hlt _
  refine ⟨_, hev, by simp; omega, ?_⟩
  rw [recvL2_complete h' _ pkt hp 576 ?_ (by decide) (by decide) ?_]
  · congr 2
    simp only [List.cons_append, List.nil_append, List.drop_succ_cons, List.drop_zero]
    congr 1
    rw [List.take_of_length_le (by rw [List.length_take]; omega)]
  · refine ⟨by simp [Spec.beVal], by simp; omega, by simp, by simp, ?_, by simp [Spec.beVal], ?_, Or.inr ?_⟩
    · simp [beVal2]; decide
    · simp only [List.cons_append, List.nil_append, List.drop_succ_cons, List.drop_zero, List.take_succ_cons,
        List.take_zero, Spec.ipBlank, beVal_hilo c2 h2]
      rw [← hc2]; rfl
    · simp only [List.cons_append, List.nil_append, List.drop_succ_cons, List.drop_zero, List.take_succ_cons,
        List.take_zero, Spec.pseudo, Spec.udpBlank, beVal_hilo c1 h1]
      rw [← hc1]
      unfold Spec.inetChecksum
      rw [List.take_take, Nat.min_eq_left (by decide)]
      refine congrArg (65535 - ·) (ocSum_congr ?_)
      simp only [List.cons_append, List.nil_append, Spec.words, List.sum_cons]
      have : (576 - 28) = 548 := rfl
      rw [this]
      simp
      omega
  · have e : List.drop 264 ([0x45, 0, 2, 64, 0, 0, 0, 0, 64, 17, hi c2, lo c2] ++ [s0, s1, s2, s3] ++ [d0, d1, d2, d3] ++
       [hi sport, lo sport, hi 68, lo 68, 2, 44, hi c1, lo c1] ++ D.take 548) = (D.take 548).drop 236 := rfl
    rw [e, List.drop_take, List.take_take, Nat.min_eq_left (by decide)]
    exact hck

/-- A DHCP message meeting the hypotheses of `raw_frames_interoperate` (and, through it, a frame
meeting those of `recvL2_complete` and `recvL2_safe_partial`). -/
example : ∃ frame, sendRaw .le (List.replicate 236 1 ++ [0x63, 0x82, 0x53, 0x63, 53, 1, 5, 255] ++ List.replicate 384 0)
      [192, 168, 50, 1] [255, 255, 255, 255] 67 68 = some frame ∧ frame.length = 576 ∧
      recvL2 .be frame (List.replicate 628 7) = some ⟨548,
        (List.replicate 10 1 ++ [0x81] ++ List.replicate 225 1 ++ [0x63, 0x82, 0x53, 0x63, 53, 1, 5, 255] ++ List.replicate 304 0) ++
          List.replicate 80 7⟩ := by
  obtain ⟨f, h1, h2, h3⟩ := raw_frames_interoperate .le .be
    (List.replicate 236 1 ++ [0x63, 0x82, 0x53, 0x63, 53, 1, 5, 255] ++ List.replicate 384 0)
    [192, 168, 50, 1] [255, 255, 255, 255] (List.replicate 628 7) 67 (by decide +kernel) rfl rfl (by decide)
    (by decide +kernel) (by decide +kernel)
  refine ⟨f, h1, h2, ?_⟩
  rw [h3]
  decide +kernel

end Verif.Wire
