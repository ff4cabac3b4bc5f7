import Verif.Spec.Bus
import Verif.Proof.WifidPaths
import Verif.Proof.Mirror
import Verif.Proof.OptValue
/-! # Helper lemmas: paths, labels and messages of the daemon as heard by a listener -/
namespace Verif.Daemon
open Verif.C Mirror
open Wifid (linkPath peerPath linkPre peerPre Canon Obj)

theorem key_digits {l : List Byte} (h : ∀ c ∈ l, toLower c = c) : key l = l := by
  unfold key
  conv => rhs; rw [← List.map_id l]
  exact List.map_congr_left h

theorem lower_digit : ∀ c : Byte, 48 ≤ c.toNat → c.toNat ≤ 57 → toLower c = c := Wifid.each_byte (by decide +kernel)

theorem key_dec (i : Nat) : key (dec i) = dec i := key_digits fun c hc => lower_digit c (dec_digits i c hc).1 (dec_digits i c hc).2.1

theorem hex_lower : ∀ c : Byte, (toLower (Mac.hexDigit (c.toNat / 16)) = Mac.hexDigit (c.toNat / 16) ∧ toLower (Mac.hexDigit (c.toNat % 16)) = Mac.hexDigit (c.toNat % 16)) ∧
    (0 : Byte) ≠ Mac.hexDigit (c.toNat / 16) ∧ (0 : Byte) ≠ Mac.hexDigit (c.toNat % 16) := Wifid.each_byte (by decide +kernel)

theorem canon_key {m : List Byte} (h : Canon m) : key m = m ∧ (0 : Byte) ∉ m := by
  obtain ⟨bs, hb, rfl⟩ := h
  match bs, hb with
  | [a, b, c, d, e, f], _ =>
    have h58 : toLower 58 = 58 := by decide
    have h0 : (0 : Byte) ≠ 58 := by decide
    have hl : ∀ c : Byte, toLower (Mac.hexDigit (c.toNat / 16)) = Mac.hexDigit (c.toNat / 16) := fun c => (hex_lower c).1.1
    have hr : ∀ c : Byte, toLower (Mac.hexDigit (c.toNat % 16)) = Mac.hexDigit (c.toNat % 16) := fun c => (hex_lower c).1.2
    constructor
    · simp only [Mac.format, Mac.hex2, key, List.cons_append, List.nil_append, List.map_cons, List.map_nil, hl, hr, h58]
    · simp [Mac.format, Mac.hex2, (hex_lower _).2.1, (hex_lower _).2.2, h0]

theorem key_peer {m : List Byte} (h : Canon m) (i : Nat) : key (peerLabel m i) = peerLabel m i := by
  have e : toLower (ch '@') = ch '@' := by decide
  have := (canon_key h).1
  have h2 := key_dec i
  unfold key at this h2
  unfold key peerLabel
  rw [List.map_append, List.map_cons, this, h2, e]

theorem dec_nonul (i : Nat) : (0 : Byte) ∉ dec i := fun h => by have := (dec_digits i 0 h).1; simp at this

theorem takeWhile_nonul {l : List Byte} (h : (0 : Byte) ∉ l) : l.takeWhile (· ≠ 0) = l := by
  induction l with
  | nil => rfl
  | cons c t ih =>
    simp only [List.mem_cons, not_or] at h
    rw [List.takeWhile_cons, if_pos (by simpa using fun e : c = 0 => h.1 e.symm), ih h.2]

theorem label_link (i : Nat) : labelOf linkPre (linkPath i) = some (dec i) := by
  unfold labelOf linkPath
  rw [Wifid.decode_pre, Option.map_some, takeWhile_nonul (dec_nonul i)]

theorem label_peer {m : List Byte} (h : Canon m) (i : Nat) : labelOf peerPre (peerPath m i) = some (peerLabel m i) := by
  unfold labelOf peerPath
  rw [Wifid.decode_pre, Option.map_some, takeWhile_nonul]
  · rfl
  · have h0 : (0 : Byte) ≠ ch '@' := by decide
    simp [(canon_key h).2, dec_nonul, h0]

theorem label_none (m : List Byte) (i : Nat) : labelOf linkPre (peerPath m i) = none := by
  unfold labelOf Wifid.decode
  rw [if_neg]
  · rfl
  · intro h
    rw [List.isPrefixOf_iff_prefix] at h
    obtain ⟨t, h⟩ := h
    unfold peerPath at h
    rw [List.append_assoc] at h
    have := (List.append_inj h (by decide)).1
    revert this; decide

theorem label_root : labelOf linkPre Wifid.root = none ∧ labelOf peerPre Wifid.root = none := by decide +kernel

theorem after_peer {m : List Byte} (h : Canon m) (i : Nat) : afterAt (peerLabel m i) = some (dec i) := by
  unfold afterAt peerLabel
  rw [(Wifid.span_at m (dec i) (Wifid.canon_plain h)).2]

theorem peerLabel_inj {m m' : List Byte} (h : Canon m) (h' : Canon m') {i j : Nat} (e : peerLabel m i = peerLabel m' j) : m = m' ∧ i = j := by
  unfold peerLabel at e
  have := List.append_inj e (by rw [Wifid.canon_length h, Wifid.canon_length h'])
  exact ⟨this.1, Wifid.dec_inj (List.cons.inj this.2).2⟩

/-! ### What is said -/

theorem say_link (i : Nat) (w : Wifid.View) (sc : Bool) :
    LinkView.say {} (linkProps i w sc) = ⟨i, some w.name, some (w.friendly.getD []), w.managed, some (w.wfd.getD []), sc⟩ := by
  cases i <;> rfl

theorem typed_link (i : Nat) (w : Wifid.View) (sc : Bool) : linkTyped (linkProps i w sc) = true := by
  unfold linkTyped linkProps text
  simp only [List.all_cons, List.all_nil, Val.str, Val.bool, Val.uint]
  simp
  decide

theorem about_own (std : Ifaces) (name : List Byte) (ps : Props) (h : ∀ q ∈ std, q.1 ≠ name) : about name (std ++ [(name, ps)]) = [ps] := by
  unfold about
  rw [List.filter_append, List.filter_eq_nil_iff.mpr (fun q hq => by simpa using h q hq)]
  simp

end Verif.Daemon
