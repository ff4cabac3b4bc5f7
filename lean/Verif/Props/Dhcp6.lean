import Verif.Model.Dhcp6
import Verif.Spec.Dhcp6
/-!
# C43: DHCPv6 option lookup
-/
namespace Verif.Dhcp6
open Verif.C

theorem be16_some {buf : List Byte} {p : Nat} (h : p + 2 ≤ buf.length) : ∃ v, be16 buf p = some v := by
  unfold be16
  rw [List.getElem?_eq_getElem (show p < buf.length by omega), List.getElem?_eq_getElem (show p + 1 < buf.length by omega)]
  exact ⟨_, rfl⟩

theorem be16_lt {buf : List Byte} {p v : Nat} (h : be16 buf p = some v) : v < 65536 := by
  unfold be16 at h
  cases ha : buf[p]? with
  | none => simp [ha] at h
  | some a =>
    cases hb : buf[p + 1]? with
    | none => simp [ha, hb] at h
    | some b =>
      simp only [ha, hb, Option.bind_eq_bind, Option.bind_some, Option.some.injEq] at h
      have := a.toNat_lt; have := b.toNat_lt; omega

/-- A found option: its code and length are the ones in front of it and its data ends inside the
packet. -/
def Good (buf : List Byte) (pktLen code : Nat) (r : Found) : Prop :=
  ∀ p, r.ptr = some p → 8 ≤ p ∧ be16 buf (p - 4) = some code ∧
    ∃ l, r.len = some l ∧ be16 buf (p - 2) = some l ∧ p + l ≤ pktLen

/-- **C43 (partial).** For every packet, whatever its bytes, in a buffer with three readable bytes
behind the packet: the lookup ends after at most one round per byte, reads only inside the buffer,
and a returned pointer is to the data of an option with the requested code, lying wholly inside
the packet and preceded by the reported length.
Missing: for a packet that fills its buffer up to the last three bytes the claim is false, see
`getOption_reads_behind_packet`. -/
theorem getOption_safe_partial (buf : List Byte) (pktLen code fuel : Nat) (hb : pktLen + 3 ≤ buf.length)
    (hf : pktLen ≤ fuel) :
    ∃ r, getOption buf pktLen code fuel = .ok r ∧ Good buf pktLen code r := by
  have key : ∀ (fuel ptr : Nat) (rem : Int) (acc : Found), 0 < rem → (ptr : Int) + rem = pktLen → 4 ≤ ptr →
      rem ≤ fuel → Good buf pktLen code acc →
      ∃ r, loop buf code fuel ptr rem acc = .ok r ∧ Good buf pktLen code r := by
    intro fuel
    induction fuel with
    | zero => intro ptr rem acc h1 h2 h3 h4; omega
    | succ fuel ih =>
      intro ptr rem acc h1 h2 h3 h4 hg
      obtain ⟨oc, e1⟩ := be16_some (buf := buf) (p := ptr) (by omega)
      obtain ⟨ol, e2⟩ := be16_some (buf := buf) (p := ptr + 2) (by omega)
      have l2 := be16_lt e2
      unfold loop
      simp only [e1, e2]
      by_cases hbad : (ol + 4) % 65536 < 4
      · rw [if_pos hbad]
        exact ⟨_, rfl, by intro p hp; simp at hp⟩
      · rw [if_neg hbad]
        have hlen : (ol + 4) % 65536 = ol + 4 := by omega
        rw [hlen]
        by_cases hover : rem - ((ol + 4 : Nat) : Int) < 0
        · rw [if_pos hover]; exact ⟨_, rfl, hg⟩
        · rw [if_neg hover]
          have hg' : Good buf pktLen code (if oc = code then { ptr := some (ptr + 4), len := some ol, count := acc.count + 1 } else acc) := by
            by_cases hc : oc = code
            · rw [if_pos hc]
              intro p hp
              simp only [Option.some.injEq] at hp
              subst hp
              refine ⟨by omega, ?_, ol, rfl, ?_, by omega⟩
              · rw [Nat.add_sub_cancel, e1, hc]
              · rw [show ptr + 4 - 2 = ptr + 2 by omega, e2]
            · rw [if_neg hc]; exact hg
          by_cases hz : rem - ((ol + 4 : Nat) : Int) = 0
          · rw [if_pos hz]; exact ⟨_, rfl, hg'⟩
          · rw [if_neg hz]
            exact ih (ptr + (ol + 4)) _ _ (by omega) (by omega) (by omega) (by omega) hg'
  unfold getOption
  by_cases hs : (pktLen : Int) - 1 - 3 ≤ 0
  · rw [if_pos hs]; exact ⟨_, rfl, by intro p hp; simp at hp⟩
  · rw [if_neg hs]
    exact key fuel 4 _ _ (by omega) (by omega) (by omega) (by omega) (by intro p hp; simp at hp)

/-- A truncated packet: the second option claims more data than there is. -/
example : getOption ([1, 0, 0, 0] ++ [0, 1, 0, 2, 7, 8] ++ [0, 2, 0, 9, 1] ++ [0, 0, 0]) 15 1 15 =
      .ok { ptr := some 8, len := some 2, count := 1 } ∧
    getOption ([1, 0, 0, 0] ++ [0, 1, 0, 2, 7, 8] ++ [0, 2, 0, 9, 1] ++ [0, 0, 0]) 15 2 15 =
      .ok { ptr := none, len := none, count := 0 } := by decide

/-- **C43 is false.** With one to three bytes left the header of a further option is read although
it is not part of the packet; in a buffer filled by the packet these bytes are behind the buffer. -/
theorem getOption_reads_behind_packet (n : Nat) (hn : n = 1 ∨ n = 2 ∨ n = 3) :
    getOption ([1, 0, 0, 0] ++ [0, 1, 0, 2, 7, 8] ++ List.replicate n 0) (10 + n) 2 20 = .ub := by
  rcases hn with rfl | rfl | rfl <;> decide

theorem at_drop {pkt : List Byte} {p : Nat} {l : List Byte} (h : pkt.drop p = l) (k : Nat) :
    pkt[p + k]? = l[k]? := by rw [← h, List.getElem?_drop]

theorem digit (n : Nat) (h : n < 65536) : ((n / 256).toUInt8).toNat * 256 + ((n % 256).toUInt8).toNat = n := by
  simp; omega

/-- **C43 (correctness).** In a packet that is a legal list of options, in a buffer of its size or
larger, whatever is behind it, the lookup yields the last option with the code, its length, and the number of options with
that code. -/
theorem getOption_finds (hdr : List Byte) (hh : hdr.length = 4) (os : List Spec.Opt) (hne : os ≠ [])
    (hok : ∀ o ∈ os, o.Ok) (code fuel : Nat) (hf : os.length ≤ fuel)
    (tail : List Byte) :
    getOption (hdr ++ Spec.enc os ++ tail) (hdr ++ Spec.enc os).length code fuel =
      .ok { ptr := (Spec.last code 4 os).map Prod.fst, len := (Spec.last code 4 os).map (fun r => r.2.length),
            count := Spec.count code os } := by
  generalize hbuf : hdr ++ Spec.enc os ++ tail = buf
  have key : ∀ (os : List Spec.Opt) (fuel ptr : Nat) (acc : Found), os ≠ [] → (∀ o ∈ os, o.Ok) → os.length ≤ fuel →
      buf.drop ptr = Spec.enc os ++ tail →
      loop buf code fuel ptr (((Spec.enc os).length : Nat) : Int) acc =
        .ok { ptr := ((Spec.last code ptr os).map Prod.fst).or acc.ptr,
              len := ((Spec.last code ptr os).map (fun r => r.2.length)).or acc.len,
              count := acc.count + Spec.count code os } := by
    intro os
    induction os with
    | nil => intro fuel ptr acc h; simp at h
    | cons o t ih =>
      intro fuel ptr acc _ hok hf hd
      simp only [List.length_cons] at hf
      obtain ⟨f, rfl⟩ : ∃ f, fuel = f + 1 := ⟨fuel - 1, by omega⟩
      obtain ⟨hc, hl⟩ := hok o (by simp)
      have hd' := hd
      simp only [Spec.enc, Spec.Opt.bytes, List.cons_append, List.nil_append, List.append_assoc] at hd
      have h0 := at_drop hd 0
      have h1 := at_drop hd 1
      have h2 := at_drop hd 2
      have h3 := at_drop hd 3
      simp only [Nat.add_zero, List.getElem?_cons_zero, List.getElem?_cons_succ] at h0 h1 h2 h3
      have e1 : be16 buf ptr = some o.code := by
        simp only [be16, h0, h1, Option.bind_eq_bind, Option.bind_some, digit o.code hc]
      have e2 : be16 buf (ptr + 2) = some o.data.length := by
        simp only [be16, h2, show ptr + 2 + 1 = ptr + 3 from rfl, h3, Option.bind_eq_bind, Option.bind_some,
          digit o.data.length (by omega)]
      have hbl : o.bytes.length = o.data.length + 4 := by simp [Spec.Opt.bytes]
      unfold loop
      simp only [e1, e2]
      rw [show (o.data.length + 4) % 65536 = o.data.length + 4 by omega, if_neg (by omega)]
      have hel : (Spec.enc (o :: t)).length = o.data.length + 4 + (Spec.enc t).length := by
        simp only [Spec.enc, List.length_append, hbl]
      rw [hel, if_neg (by omega), show ((o.data.length + 4 + (Spec.enc t).length : Nat) : Int) - ((o.data.length + 4 : Nat) : Int)
        = ((Spec.enc t).length : Int) by omega]
      by_cases ht : t = []
      · subst ht
        rw [if_pos (by simp [Spec.enc])]
        by_cases hcode : o.code = code <;> simp [Spec.last, Spec.count, hcode]
      · have hpos : 0 < (Spec.enc t).length := by
          cases t with
          | nil => simp at ht
          | cons a b => simp [Spec.enc, Spec.Opt.bytes]
        rw [if_neg (by omega)]
        have hdt : buf.drop (ptr + (o.data.length + 4)) = Spec.enc t ++ tail := by
          rw [← hbl, ← List.drop_drop, hd', Spec.enc, List.append_assoc, List.drop_left]
        rw [ih f _ _ ht (fun x hx => hok x (by simp [hx])) (by omega) hdt]
        simp only [Spec.last, hbl]
        cases hlast : Spec.last code (ptr + (o.data.length + 4)) t with
        | some r => by_cases hcode : o.code = code <;> simp [Spec.count, hcode] <;> omega
        | none => by_cases hcode : o.code = code <;> simp [Spec.count, hcode] <;> omega
  have hlen : (hdr ++ Spec.enc os).length = 4 + (Spec.enc os).length := by rw [List.length_append, hh]
  have hpos : 0 < (Spec.enc os).length := by
    cases os with
    | nil => simp at hne
    | cons a b => simp [Spec.enc, Spec.Opt.bytes]
  unfold getOption
  rw [if_neg (by omega), show ((hdr ++ Spec.enc os).length : Int) - 1 - 3 = ((Spec.enc os).length : Int) by omega,
    key os fuel 4 _ hne hok hf (by rw [← hbuf, List.append_assoc, ← hh, List.drop_left])]
  simp

/-- Two options with the same code: the last one is found and both are counted. -/
example : Spec.enc [⟨3, [1, 2]⟩, ⟨9, []⟩, ⟨3, [5]⟩] = [0, 3, 0, 2, 1, 2, 0, 9, 0, 0, 0, 3, 0, 1, 5] ∧
    Spec.last 3 4 [⟨3, [1, 2]⟩, ⟨9, []⟩, ⟨3, [5]⟩] = some (18, [5]) ∧ Spec.count 3 [⟨3, [1, 2]⟩, ⟨9, []⟩, ⟨3, [5]⟩] = 2 ∧
    getOption ([1, 0, 0, 0] ++ [0, 3, 0, 2, 1, 2, 0, 9, 0, 0, 0, 3, 0, 1, 5]) 19 3 3 =
      .ok { ptr := some 18, len := some 1, count := 2 } := by decide

/-- **C43 (sub-options).** Looking at a sub-option never reads behind the `maxLen` bytes of the
enclosing option; it succeeds exactly if a header and at least one byte are there and the data
fits, and then reports the encoded code and length. -/
theorem getSubOption_safe (opt : List Byte) (maxLen : Nat) (hl : maxLen ≤ opt.length) :
    ∃ r, getSubOption opt maxLen = some r ∧
      match r with
      | some (code, len, off) => off = 4 ∧ off + len ≤ maxLen ∧ be16 opt 0 = some code ∧ be16 opt 2 = some len
      | none => maxLen ≤ 4 ∨ ∃ len, be16 opt 2 = some len ∧ maxLen < 4 + len := by
  unfold getSubOption
  by_cases hs : (maxLen : Int) - 2 - 2 ≤ 0
  · rw [if_pos hs]; exact ⟨none, rfl, Or.inl (by omega)⟩
  · rw [if_neg hs]
    obtain ⟨oc, e1⟩ := be16_some (buf := opt) (p := 0) (by omega)
    obtain ⟨ol, e2⟩ := be16_some (buf := opt) (p := 2) (by omega)
    simp only [e1, e2, Option.bind_eq_bind, Option.bind_some]
    by_cases ho : (maxLen : Int) - 2 - 2 - (ol : Int) < 0
    · rw [if_pos ho]; exact ⟨none, rfl, Or.inr ⟨ol, rfl, by omega⟩⟩
    · rw [if_neg ho]; exact ⟨_, rfl, rfl, by omega, rfl, rfl⟩

example : getSubOption [0, 5, 0, 2, 1, 2] 6 = some (some (5, 2, 4)) ∧ getSubOption [0, 5, 0, 3, 1, 2] 6 = some none := by
  decide

end Verif.Dhcp6
