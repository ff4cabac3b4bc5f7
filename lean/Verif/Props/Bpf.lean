import Verif.Model.Bpf
import Verif.Spec.Bpf
import Verif.Props.Wire
import Verif.Props.Dora
/-!
# The packet filter of the DHCP client (C122)
-/
namespace Verif.Bpf
open Verif.C

/-- A word of the packet is the word of four bytes iff they are there. -/
theorem word_eq (p : List Byte) (k : Nat) (bs : List Byte) (hb : bs.length = 4) :
    word p k = some (Wire.native .be bs) ↔ (p.drop k).take 4 = bs := by
  unfold word
  constructor
  · intro h
    simp only [Option.map_eq_some_iff] at h
    obtain ⟨r, hr, hn⟩ := h
    have hl := length_of_rd hr
    have e : r = (p.drop k).take 4 := by
      unfold rd at hr
      split at hr
      · cases hr; rfl
      · cases hr
    rw [← e]
    have h2 := Dora.layout_native (h := .be) hl
    have h3 := Dora.layout_native (h := .be) hb
    rw [← h2, ← h3, hn]
  · intro h
    have hk : k + 4 ≤ p.length := by
      have := congrArg List.length h
      rw [hb] at this
      simp at this
      omega
    rw [rd_some hk, h]
    rfl

/-- The ports as one word. -/
theorem ports_word : (67 * 65536 + 68 : Nat) = Wire.native .be [0, 67, 0, 68] := by decide

/-- The other constant. -/
theorem arp_word : (0x08000604 : Nat) = Wire.native .be [8, 0, 6, 4] := by decide

/-- The protocol number as a byte. -/
theorem byte17 (b : Byte) : b.toNat = 17 ↔ b = 17 := by
  constructor
  · intro h
    exact UInt8.toNat_inj.mp h
  · intro h; rw [h]; rfl

/-- The result of the program. -/
theorem verdict_cases (p : List Byte) : (verdict p = 0x0fffffff ↔ Spec.Answer p ∨ Spec.ArpLike p) ∧ (verdict p = 0 ∨ verdict p = 0x0fffffff) := by
  unfold verdict program Spec.Answer Spec.ArpLike
  simp only [List.length_cons, List.length_nil, exec]
  cases h9 : p[9]? with
  | none => simp
  | some b =>
    simp only
    by_cases h17 : b.toNat = 17
    · have hb := (byte17 b).mp h17
      subst hb
      simp only [h17, if_true, List.drop_succ_cons, List.drop_zero, exec]
      cases h0 : p[0]? with
      | none => simp
      | some b0 =>
        simp only [exec, Nat.add_zero]
        cases hw : word p (4 * (b0.toNat % 16)) with
        | none =>
          have : ¬ (p.drop (4 * (b0.toNat % 16))).take 4 = [0, 67, 0, 68] := by
            rw [← word_eq p _ _ rfl, hw]; simp
          simp [this]
        | some a =>
          simp only [exec]
          have key := word_eq p (4 * (b0.toNat % 16)) [0, 67, 0, 68] rfl
          rw [hw, ← ports_word, Option.some.injEq] at key
          by_cases ha : a = 67 * 65536 + 68
          · simp [ha, key.mp ha, exec]
          · have : ¬ (p.drop (4 * (b0.toNat % 16))).take 4 = [0, 67, 0, 68] := fun h => ha (key.mpr h)
            simp [ha, this, exec]
    · have hb : ¬ b = 17 := fun h => h17 ((byte17 b).mpr h)
      simp only [h17, if_false, List.drop_zero, exec]
      cases hw : word p 2 with
      | none =>
        have : ¬ (p.drop 2).take 4 = [8, 0, 6, 4] := by
          rw [← word_eq p _ _ rfl, hw]; simp
        simp [this, hb]
      | some a =>
        simp only [exec]
        have key := word_eq p 2 [8, 0, 6, 4] rfl
        rw [hw, ← arp_word, Option.some.injEq] at key
        by_cases ha : a = 0x08000604
        · simp [ha, key.mp ha, exec, hb]
        · have : ¬ (p.drop 2).take 4 = [8, 0, 6, 4] := fun h => ha (key.mpr h)
          simp [ha, this, exec, hb]

/-- **C122.** Exactly UDP packets from port 67 to port 68 pass the filter, whole, and (a leftover) packets of other protocols that look like the beginning of an ARP packet;
everything else is dropped, short packets included. -/
theorem filter_exact (p : List Byte) (hp : p.length < 0x0fffffff) :
    (Spec.Answer p ∨ Spec.ArpLike p → pass p = some p) ∧ (¬ (Spec.Answer p ∨ Spec.ArpLike p) → pass p = none) := by
  obtain ⟨h1, h2⟩ := verdict_cases p
  unfold pass
  constructor
  · intro h
    rw [h1.mpr h, if_neg (by decide), List.take_of_length_le (by omega)]
  · intro h
    rcases h2 with h2 | h2
    · rw [if_pos h2]
    · exact absurd (h1.mp h2) h

/-- **C122.** The filter loses nothing: a packet from the server port that the client would accept passes whole. -/
theorem filter_loses_nothing (h : Wire.Host) (frame pkt : List Byte) (hp : pkt.length = 628) (hl : frame.length < 0x0fffffff) (ht : 28 ≤ Wire.Spec.beVal ((frame.drop 2).take 2))
    (hs : (frame.drop 20).take 2 = [0, 67]) {r : Wire.RecvL2} (hr : Wire.recvL2 h frame pkt = some r) (ha : 0 ≤ r.ret) : pass frame = some frame := by
  obtain ⟨r', hr', -, hcase⟩ := Wire.recvL2_safe_partial h frame pkt hp (Or.inr ht)
  rw [hr] at hr'
  cases hr'
  rcases hcase with hm | ⟨tot, acc, -, -, -⟩
  · omega
  · refine (filter_exact frame hl).1 (Or.inl ?_)
    have hin := acc.inside
    have htot := acc.total
    have h0 := acc.header
    have h9 := acc.udp
    have hport := acc.port
    have e0 : frame[0]? = some 0x45 := by
      cases frame with
      | nil => simp at h0
      | cons x t => simp at h0; simp [h0]
    refine ⟨0x45, e0, ?_, ?_⟩
    · have : ((frame.drop 9).take 1)[0]? = some 17 := by rw [h9]; rfl
      simpa using this
    · have hl24 : 28 ≤ frame.length := by omega
      have hd : ((frame.drop 22).take 2).length = 2 := by simp; omega
      have e4 : (frame.drop 20).take 4 = (frame.drop 20).take 2 ++ (frame.drop 22).take 2 := by
        rw [show (4 : Nat) = 2 + 2 from rfl, List.take_add, List.drop_drop]
      show (frame.drop 20).take 4 = _
      rw [e4, hs]
      match hm : (frame.drop 22).take 2, hd with
      | [a, b], _ =>
        rw [hm, Wire.beVal2] at hport
        have hb := b.toNat_lt
        have ha0 : a.toNat = 0 := by omega
        have hb0 : b.toNat = 68 := by omega
        have ha' : a = 0 := UInt8.toNat_inj.mp ha0
        have hb' : b = 68 := UInt8.toNat_inj.mp hb0
        rw [ha', hb']; rfl

/-- A packet of the server passes with whatever message and addresses it has. -/
example : pass ([0x45, 0, 2, 64, 0, 0, 0, 0, 64, 17, 1, 2, 192, 168, 77, 1, 255, 255, 255, 255, 0, 67, 0, 68, 2, 44, 1, 2] ++ [2, 1, 6, 0]) =
    some ([0x45, 0, 2, 64, 0, 0, 0, 0, 64, 17, 1, 2, 192, 168, 77, 1, 255, 255, 255, 255, 0, 67, 0, 68, 2, 44, 1, 2] ++ [2, 1, 6, 0]) := by decide +kernel

/-- With IP options the ports are looked for behind them; a TCP packet and one between the ports in the other direction are dropped. -/
example : pass ([0x46, 0, 2, 64, 0, 0, 0, 0, 64, 17, 1, 2, 192, 168, 77, 1, 255, 255, 255, 255, 1, 1, 1, 1, 0, 67, 0, 68]) ≠ none ∧
    pass ([0x45, 0, 2, 64, 0, 0, 0, 0, 64, 6, 1, 2, 192, 168, 77, 1, 255, 255, 255, 255, 0, 67, 0, 68]) = none ∧
    pass ([0x45, 0, 2, 64, 0, 0, 0, 0, 64, 17, 1, 2, 192, 168, 77, 1, 255, 255, 255, 255, 0, 68, 0, 67]) = none := by decide +kernel

/-- **C122.** What the project's DHCP server sends passes the client's filter whole, and the client then reads the message that was sent. -/
theorem server_frames_pass (h h' : Wire.Host) (dhcp saddr daddr pkt : List Byte) (hd : dhcp.length = 628) (hs : saddr.length = 4) (hda : daddr.length = 4)
    (hp : pkt.length = 628) (hcookie : (dhcp.drop 236).take 4 = [0x63, 0x82, 0x53, 0x63]) :
    ∃ frame, Wire.sendRaw h dhcp saddr daddr 67 68 = some frame ∧ pass frame = some frame ∧
      Wire.recvL2 h' frame pkt = some ⟨548, (dhcp.take 10 ++ ((dhcp.drop 10).take 1).map (· ||| 0x80) ++ dhcp.drop 11).take 548 ++ pkt.drop 548⟩ := by
  obtain ⟨frame, h1, h2, h3⟩ := Wire.raw_frames_interoperate h h' dhcp saddr daddr pkt 67 hd hs hda (by decide) hp hcookie
  refine ⟨frame, h1, (filter_exact frame (by omega)).1 (Or.inl ?_), h3⟩
  have hev := Wire.sendRaw_eval h dhcp saddr daddr 67 68 hd hs hda (by decide) (by decide)
  obtain ⟨s0, s1, s2, s3, rfl⟩ := Wire.cons4 saddr hs
  obtain ⟨d0, d1, d2, d3, rfl⟩ := Wire.cons4 daddr hda
  simp only at hev
  rw [hev, Option.some.injEq] at h1
  rw [← h1]
  exact ⟨0x45, rfl, rfl, rfl⟩

example : ∃ frame, Wire.sendRaw .le (List.replicate 236 1 ++ [0x63, 0x82, 0x53, 0x63, 53, 1, 5, 255] ++ List.replicate 384 0) [192, 168, 77, 1] [255, 255, 255, 255] 67 68 = some frame ∧
    pass frame = some frame := by
  obtain ⟨frame, h1, h2, -⟩ := server_frames_pass .le .le (List.replicate 236 1 ++ [0x63, 0x82, 0x53, 0x63, 53, 1, 5, 255] ++ List.replicate 384 0) [192, 168, 77, 1] [255, 255, 255, 255]
    (List.replicate 628 0) (by decide +kernel) rfl rfl (by decide +kernel) (by decide +kernel)
  exact ⟨frame, h1, h2⟩

/-- The filter does not keep away what the client reads wrongly: the frame of `Wire.recvL2_short_total_undefined`, which makes the client copy `2^64 - 8` bytes, passes.
So one packet from port 67 is enough. -/
theorem short_total_passes : ∃ frame : List Byte, pass frame = some frame ∧ ∀ h pkt, pkt.length = 628 → Wire.recvL2 h frame pkt = none := by
  obtain ⟨frame, hl, h0, h9, hd, hr⟩ := Wire.recvL2_short_total_undefined
  exact ⟨frame, (filter_exact frame (by omega)).1 (Or.inl ⟨_, h0, h9, hd⟩), hr⟩

/-- The leftover of the ARP check: a packet that is not UDP and that the client throws away passes. -/
example : Spec.ArpLike ([0x45, 0, 8, 0, 6, 4, 0, 0, 64, 6] ++ List.replicate 30 0) ∧
    pass ([0x45, 0, 8, 0, 6, 4, 0, 0, 64, 6] ++ List.replicate 30 0) ≠ none := by
  refine ⟨⟨⟨6, rfl, by decide⟩, rfl⟩, by decide +kernel⟩

end Verif.Bpf
