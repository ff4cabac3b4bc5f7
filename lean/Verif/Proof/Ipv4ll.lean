import Verif.Spec.Ipv4ll
import Verif.Proof.DoraReply
/-!
# Lemmas on the link-local client
-/
namespace Verif.Ipv4ll
open Verif.C

theorem field_len (f : List Byte) (off n : Nat) (h : off + n ≤ 28) : (field f off n).length = n := by
  unfold field
  simp
  omega

theorem field_part (f : List Byte) (off n : Nat) (h : off + n ≤ 28) : Wire.Spec.beVal (field f off n) = Spec.part f off n := by
  unfold field Spec.part
  congr 1
  apply List.ext_getElem?
  intro i
  simp only [List.getElem?_take, List.getElem?_drop]
  by_cases hi : i < n
  · simp only [hi, if_true]
    simp only [List.getElem?_append, List.length_take, List.getElem?_take, List.getElem?_replicate]
    by_cases h1 : off + i < f.length
    · rw [if_pos (by omega), if_pos (by omega), if_pos h1]
    · rw [if_neg (by omega), if_neg h1, if_pos (by omega), if_pos (by omega)]
  · simp [hi]

theorem op_eq (h : Wire.Host) (f : List Byte) (v : Nat) (hv : v < 65536) :
    Wire.native h (field f 6 2) = Wire.htons h v ↔ Spec.part f 6 2 = v := by
  rw [← field_part f 6 2 (by omega)]
  have hl := field_len f 6 2 (by omega)
  generalize field f 6 2 = d at hl
  match d, hl with
  | [a, b], _ =>
    have ha : a.toNat < 256 := a.toNat_lt
    have hb : b.toNat < 256 := b.toNat_lt
    obtain ⟨x, y, hx, hy, rfl⟩ := Wire.split16 hv
    cases h
    · simp only [Wire.native, Wire.htons]
      rw [Wire.bswap2_mk _ _ hx hy]
      simp [Wire.leVal, Wire.Spec.beVal]
      omega
    · simp only [Wire.native, Wire.htons]
      simp [Wire.leVal, Wire.Spec.beVal]
      omega

theorem addr_eq (h : Wire.Host) (f : List Byte) (off a : Nat) (ho : off + 4 ≤ 28) (ha : a < 2 ^ 32) :
    field f off 4 = Wire.layout h 4 (Wire.htonl h a) ↔ Spec.part f off 4 = a := by
  rw [← field_part f off 4 ho, Dora.layout_htonl]
  have := Dora.digits_addr (field_len f off 4 ho) a ha
  constructor
  · intro h; exact (this.mp h.symm).symm
  · intro h; exact (this.mpr h.symm).symm

instance (f : List Byte) : Decidable (Spec.IsArp f) := by unfold Spec.IsArp; infer_instance
instance (a : Nat) (f : List Byte) : Decidable (Spec.Claims a f) := by unfold Spec.Claims; infer_instance
instance (a : Nat) (f : List Byte) : Decidable (Spec.Asks a f) := by unfold Spec.Asks; infer_instance

/-- Receiving in terms of the fields. -/
theorem recv_eq (c : Ll) (now : Nat) (f : List Byte) (e : Env) (hip : c.ip < 2 ^ 32) :
    c.recv now f e =
      if ¬ Spec.Claims c.ip f ∧ ¬ Spec.Asks c.ip f then (c, [])
      else
        let d := { c with conflicts := (c.conflicts + 1) % 256 }
        if c.state = .monitor then
          if Spec.Claims c.ip f then ({ d with state := .defend } : Ll).sendAnnounce now else (d, [])
        else if c.state = .defend then
          if Spec.Claims c.ip f then ((d.giveUp now e).1, .lost :: (d.giveUp now e).2) else (d, [])
        else d.giveUp now e := by
  unfold Ll.recv Spec.Claims Spec.Asks Spec.IsArp
  simp only [ne_eq, op_eq _ _ _ (show (2 : Nat) < 65536 by decide), op_eq _ _ _ (show (1 : Nat) < 65536 by decide),
    addr_eq _ _ 14 _ (by omega) hip, addr_eq _ _ 24 _ (by omega) hip]
  by_cases h1 : Spec.part f 6 2 = 1 <;> by_cases h2 : Spec.part f 6 2 = 2 <;> by_cases h3 : Spec.part f 14 4 = c.ip <;>
    by_cases h4 : Spec.part f 24 4 = c.ip <;> simp [h1, h2, h3, h4]

theorem packet_parts (h : Wire.Host) {mac : List Byte} (hm : mac.length = 6) {s t : Nat} (hs : s < 2 ^ 32) (ht : t < 2 ^ 32) :
    Spec.Request mac s t (arpPacket h mac s t) := by
  have e : arpPacket h mac s t = [0, 1, 8, 0, 6, 4, 0, 1] ++ mac ++ Options.Spec.digits 4 s ++ [0, 0, 0, 0, 0, 0] ++ Options.Spec.digits 4 t := by
    unfold arpPacket
    rw [Dora.layout_htonl, Dora.layout_htonl, Wire.layout_htons _ _ (by decide), Wire.layout_htons _ _ (by decide)]
    rfl
  have hd := Options.digits_length 4
  have n1 := Dora.num_digits s hs
  have n2 := Dora.num_digits t ht
  match mac, hm with
  | [m0, m1, m2, m3, m4, m5], _ =>
    have d1 : ∃ a b c d, Options.Spec.digits 4 s = [a, b, c, d] := by
      have := hd s
      match h : Options.Spec.digits 4 s, this with
      | [a, b, c, d], _ => exact ⟨a, b, c, d, rfl⟩
    have d2 : ∃ a b c d, Options.Spec.digits 4 t = [a, b, c, d] := by
      have := hd t
      match h : Options.Spec.digits 4 t, this with
      | [a, b, c, d], _ => exact ⟨a, b, c, d, rfl⟩
    obtain ⟨a, b, c, d, g1⟩ := d1
    obtain ⟨a', b', c', d', g2⟩ := d2
    rw [g1] at n1
    rw [g2] at n2
    rw [e, g1, g2]
    exact ⟨rfl, rfl, rfl, n1, n2⟩

theorem request_kind {mac : List Byte} {s t : Nat} {f : List Byte} (h : Spec.Request mac s t f) : Spec.part f 6 2 = 1 := by
  have : ((f ++ List.replicate 28 0).drop 6).take 2 = (f.take 8).drop 6 := by
    rw [List.drop_append_of_le_length (by rw [h.len]; decide), List.take_append_of_le_length (by rw [List.length_drop, h.len]; decide), List.drop_take]
  unfold Spec.part
  rw [this, h.kind]
  decide

theorem Spec.Request.asks {mac : List Byte} {s t : Nat} {f : List Byte} (h : Spec.Request mac s t f) (a : Nat) : Spec.Asks a f ↔ t = a := by
  unfold Spec.Asks Spec.IsArp
  rw [request_kind h, h.target]
  simp

theorem Spec.Request.claims {mac : List Byte} {s t : Nat} {f : List Byte} (h : Spec.Request mac s t f) (a : Nat) : Spec.Claims a f ↔ s = a := by
  unfold Spec.Claims Spec.IsArp
  rw [request_kind h, h.sender]
  simp

end Verif.Ipv4ll
