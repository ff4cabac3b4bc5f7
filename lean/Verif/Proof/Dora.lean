import Verif.Spec.Dora
import Verif.Props.Options
import Verif.Props.Wire
/-!
# Helper lemmas: packets under construction
-/
namespace Verif.Dora
open Verif.C Verif.Options

/-- The fields of a header. -/
structure Hdr where
  op : Byte
  xid : List Byte := [0, 0, 0, 0]
  secs : List Byte := [0, 0]
  flags : List Byte := [0, 0]
  ci : List Byte := [0, 0, 0, 0]
  yi : List Byte := [0, 0, 0, 0]
  gw : List Byte := [0, 0, 0, 0]
  mac : List Byte := [0, 0, 0, 0, 0, 0]
  pad : List Byte := [0, 0, 0, 0, 0, 0, 0, 0, 0, 0]

structure Hdr.Ok (h : Hdr) : Prop where
  xid : h.xid.length = 4 := by first | rfl | assumption
  secs : h.secs.length = 2 := by first | rfl | assumption
  flags : h.flags.length = 2 := by first | rfl | assumption
  ci : h.ci.length = 4 := by first | rfl | assumption
  yi : h.yi.length = 4 := by first | rfl | assumption
  gw : h.gw.length = 4 := by first | rfl | assumption
  mac : h.mac.length = 6 := by first | rfl | assumption
  pad : h.pad.length = 10 := by first | rfl | assumption

/-- The part of the header behind `chaddr`. -/
def tailBytes : List Byte := List.replicate 192 0 ++ [0x63, 0x82, 0x53, 0x63]

theorem tailBytes_length : tailBytes.length = 196 := by decide +kernel

def Hdr.bytes (h : Hdr) : List Byte :=
  [h.op, 1, 6, 0] ++ (h.xid ++ (h.secs ++ (h.flags ++ (h.ci ++ (h.yi ++ ([0, 0, 0, 0] ++ (h.gw ++ (h.mac ++ (h.pad ++ tailBytes)))))))))

theorem Hdr.length {h : Hdr} (k : h.Ok) : h.bytes.length = 240 := by
  simp only [Hdr.bytes, List.length_append, List.length_cons, List.length_nil, k.xid, k.secs, k.flags, k.ci, k.yi, k.gw, k.mac, k.pad, tailBytes_length]

theorem header_eq (type : Byte) : Options.Spec.header type = ({ op := if type = 2 ∨ type = 5 ∨ type = 6 then 2 else 1 } : Hdr).bytes := by
  unfold Options.Spec.header Hdr.bytes tailBytes
  generalize (if type = 2 ∨ type = 5 ∨ type = 6 then (2 : Byte) else 1) = o
  have : List.replicate 233 (0 : Byte) = List.replicate 41 0 ++ List.replicate 192 0 := by decide +kernel
  rw [this]
  have e : List.replicate 41 (0 : Byte) = [0] ++ ([0, 0, 0, 0] ++ ([0, 0] ++ ([0, 0] ++ ([0, 0, 0, 0] ++ ([0, 0, 0, 0] ++ ([0, 0, 0, 0] ++ ([0, 0, 0, 0] ++ ([0, 0, 0, 0, 0, 0] ++ [0, 0, 0, 0, 0, 0, 0, 0, 0, 0])))))))) := by decide +kernel
  rw [e]
  simp only [List.cons_append, List.nil_append]

theorem wr_here {b c d : List Byte} (hl : d.length = b.length) : wr (b ++ c) 0 d = some (d ++ c) := by
  have := wr_mid [] b c d hl
  simpa using this

theorem wr_skip {a b d : List Byte} {off : Nat} (h : a.length ≤ off) :
    wr (a ++ b) off d = (wr b (off - a.length) d).map (a ++ ·) := by
  unfold wr
  by_cases hl : off - a.length + d.length ≤ b.length
  · rw [if_pos (by rw [List.length_append]; omega), if_pos hl, Option.map_some]
    congr 1
    rw [List.take_append, List.take_of_length_le h, List.drop_append, List.drop_of_length_le (by omega)]
    simp only [List.append_assoc, List.nil_append]
    congr 4
    omega
  · rw [if_neg (by rw [List.length_append]; omega), if_neg hl]; rfl

theorem rd_here {b c : List Byte} {n : Nat} (hl : b.length = n) : rd (b ++ c) 0 n = some b := by
  subst hl
  rw [rd_some (by simp)]
  simp

theorem rd_skip {a b : List Byte} {off n : Nat} (h : a.length ≤ off) :
    rd (a ++ b) off n = rd b (off - a.length) n := by
  unfold rd
  rw [List.length_append, List.drop_append, List.drop_of_length_le h, List.nil_append]
  by_cases hl : off - a.length + n ≤ b.length
  · rw [if_pos (by omega), if_pos hl]
  · rw [if_neg (by omega), if_neg hl]

variable {h : Hdr} {T : List Byte}

/-- Stores into the fields. -/
theorem set_xid (k : h.Ok) {d : List Byte} (hd : d.length = 4) : wr (h.bytes ++ T) 4 d = some ({ h with xid := d }.bytes ++ T) := by
  simp only [Hdr.bytes, List.append_assoc]
  rw [wr_skip (by simp)]
  simp only [List.length_cons, List.length_nil, Nat.sub_self]
  rw [wr_here (by rw [hd, k.xid])]; rfl

theorem set_secs (k : h.Ok) {d : List Byte} (hd : d.length = 2) : wr (h.bytes ++ T) 8 d = some ({ h with secs := d }.bytes ++ T) := by
  simp only [Hdr.bytes, List.append_assoc]
  rw [wr_skip (by simp), wr_skip (by simp [k.xid])]
  simp only [List.length_cons, List.length_nil, k.xid, Nat.reduceAdd, Nat.reduceSub]
  rw [wr_here (by rw [hd, k.secs])]; rfl

theorem set_flags (k : h.Ok) {d : List Byte} (hd : d.length = 2) : wr (h.bytes ++ T) 10 d = some ({ h with flags := d }.bytes ++ T) := by
  simp only [Hdr.bytes, List.append_assoc]
  rw [wr_skip (by simp), wr_skip (by simp [k.xid]), wr_skip (by simp [k.xid, k.secs])]
  simp only [List.length_cons, List.length_nil, k.xid, k.secs, Nat.reduceAdd, Nat.reduceSub]
  rw [wr_here (by rw [hd, k.flags])]; rfl

theorem set_ci (k : h.Ok) {d : List Byte} (hd : d.length = 4) : wr (h.bytes ++ T) 12 d = some ({ h with ci := d }.bytes ++ T) := by
  simp only [Hdr.bytes, List.append_assoc]
  rw [wr_skip (by simp), wr_skip (by simp [k.xid]), wr_skip (by simp [k.xid, k.secs]), wr_skip (by simp [k.xid, k.secs, k.flags])]
  simp only [List.length_cons, List.length_nil, k.xid, k.secs, k.flags, Nat.reduceAdd, Nat.reduceSub]
  rw [wr_here (by rw [hd, k.ci])]; rfl

theorem set_yi (k : h.Ok) {d : List Byte} (hd : d.length = 4) : wr (h.bytes ++ T) 16 d = some ({ h with yi := d }.bytes ++ T) := by
  simp only [Hdr.bytes, List.append_assoc]
  rw [wr_skip (by simp), wr_skip (by simp [k.xid]), wr_skip (by simp [k.xid, k.secs]), wr_skip (by simp [k.xid, k.secs, k.flags]),
    wr_skip (by simp [k.xid, k.secs, k.flags, k.ci])]
  simp only [List.length_cons, List.length_nil, k.xid, k.secs, k.flags, k.ci, Nat.reduceAdd, Nat.reduceSub]
  rw [wr_here (by rw [hd, k.yi])]; rfl

theorem set_gw (k : h.Ok) {d : List Byte} (hd : d.length = 4) : wr (h.bytes ++ T) 24 d = some ({ h with gw := d }.bytes ++ T) := by
  simp only [Hdr.bytes, List.append_assoc]
  rw [wr_skip (by simp), wr_skip (by simp [k.xid]), wr_skip (by simp [k.xid, k.secs]), wr_skip (by simp [k.xid, k.secs, k.flags]),
    wr_skip (by simp [k.xid, k.secs, k.flags, k.ci]), wr_skip (by simp [k.xid, k.secs, k.flags, k.ci, k.yi]),
    wr_skip (by simp [k.xid, k.secs, k.flags, k.ci, k.yi])]
  simp only [List.length_cons, List.length_nil, k.xid, k.secs, k.flags, k.ci, k.yi, Nat.reduceAdd, Nat.reduceSub]
  rw [wr_here (by rw [hd, k.gw])]; rfl

theorem set_mac (k : h.Ok) {d : List Byte} (hd : d.length = 6) : wr (h.bytes ++ T) 28 d = some ({ h with mac := d }.bytes ++ T) := by
  simp only [Hdr.bytes, List.append_assoc]
  rw [wr_skip (by simp), wr_skip (by simp [k.xid]), wr_skip (by simp [k.xid, k.secs]), wr_skip (by simp [k.xid, k.secs, k.flags]),
    wr_skip (by simp [k.xid, k.secs, k.flags, k.ci]), wr_skip (by simp [k.xid, k.secs, k.flags, k.ci, k.yi]),
    wr_skip (by simp [k.xid, k.secs, k.flags, k.ci, k.yi]), wr_skip (by simp [k.xid, k.secs, k.flags, k.ci, k.yi, k.gw])]
  simp only [List.length_cons, List.length_nil, k.xid, k.secs, k.flags, k.ci, k.yi, k.gw, Nat.reduceAdd, Nat.reduceSub]
  rw [wr_here (by rw [hd, k.mac])]; rfl

theorem set_ch (k : h.Ok) {m p : List Byte} (hm : m.length = 6) (hp : p.length = 10) :
    wr (h.bytes ++ T) 28 (m ++ p) = some ({ h with mac := m, pad := p }.bytes ++ T) := by
  simp only [Hdr.bytes, List.append_assoc]
  rw [wr_skip (by simp), wr_skip (by simp [k.xid]), wr_skip (by simp [k.xid, k.secs]), wr_skip (by simp [k.xid, k.secs, k.flags]),
    wr_skip (by simp [k.xid, k.secs, k.flags, k.ci]), wr_skip (by simp [k.xid, k.secs, k.flags, k.ci, k.yi]),
    wr_skip (by simp [k.xid, k.secs, k.flags, k.ci, k.yi]), wr_skip (by simp [k.xid, k.secs, k.flags, k.ci, k.yi, k.gw])]
  simp only [List.length_cons, List.length_nil, k.xid, k.secs, k.flags, k.ci, k.yi, k.gw, Nat.reduceAdd, Nat.reduceSub]
  rw [← List.append_assoc h.mac, wr_here (by rw [List.length_append, List.length_append, hm, hp, k.mac, k.pad])]
  simp

/-- Loads from the fields. -/
theorem get_xid (k : h.Ok) : rd (h.bytes ++ T) 4 4 = some h.xid := by
  simp only [Hdr.bytes, List.append_assoc]
  rw [rd_skip (by simp)]
  simp only [List.length_cons, List.length_nil, Nat.reduceAdd, Nat.reduceSub]
  exact rd_here k.xid

theorem get_flags (k : h.Ok) : rd (h.bytes ++ T) 10 2 = some h.flags := by
  simp only [Hdr.bytes, List.append_assoc]
  rw [rd_skip (by simp), rd_skip (by simp [k.xid]), rd_skip (by simp [k.xid, k.secs])]
  simp only [List.length_cons, List.length_nil, k.xid, k.secs, Nat.reduceAdd, Nat.reduceSub]
  exact rd_here k.flags

theorem get_ci (k : h.Ok) : rd (h.bytes ++ T) 12 4 = some h.ci := by
  simp only [Hdr.bytes, List.append_assoc]
  rw [rd_skip (by simp), rd_skip (by simp [k.xid]), rd_skip (by simp [k.xid, k.secs]), rd_skip (by simp [k.xid, k.secs, k.flags])]
  simp only [List.length_cons, List.length_nil, k.xid, k.secs, k.flags, Nat.reduceAdd, Nat.reduceSub]
  exact rd_here k.ci

theorem get_yi (k : h.Ok) : rd (h.bytes ++ T) 16 4 = some h.yi := by
  simp only [Hdr.bytes, List.append_assoc]
  rw [rd_skip (by simp), rd_skip (by simp [k.xid]), rd_skip (by simp [k.xid, k.secs]), rd_skip (by simp [k.xid, k.secs, k.flags]),
    rd_skip (by simp [k.xid, k.secs, k.flags, k.ci])]
  simp only [List.length_cons, List.length_nil, k.xid, k.secs, k.flags, k.ci, Nat.reduceAdd, Nat.reduceSub]
  exact rd_here k.yi

theorem get_gw (k : h.Ok) : rd (h.bytes ++ T) 24 4 = some h.gw := by
  simp only [Hdr.bytes, List.append_assoc]
  rw [rd_skip (by simp), rd_skip (by simp [k.xid]), rd_skip (by simp [k.xid, k.secs]), rd_skip (by simp [k.xid, k.secs, k.flags]),
    rd_skip (by simp [k.xid, k.secs, k.flags, k.ci]), rd_skip (by simp [k.xid, k.secs, k.flags, k.ci, k.yi]),
    rd_skip (by simp [k.xid, k.secs, k.flags, k.ci, k.yi])]
  simp only [List.length_cons, List.length_nil, k.xid, k.secs, k.flags, k.ci, k.yi, Nat.reduceAdd, Nat.reduceSub]
  exact rd_here k.gw

theorem get_mac (k : h.Ok) : rd (h.bytes ++ T) 28 6 = some h.mac := by
  simp only [Hdr.bytes, List.append_assoc]
  rw [rd_skip (by simp), rd_skip (by simp [k.xid]), rd_skip (by simp [k.xid, k.secs]), rd_skip (by simp [k.xid, k.secs, k.flags]),
    rd_skip (by simp [k.xid, k.secs, k.flags, k.ci]), rd_skip (by simp [k.xid, k.secs, k.flags, k.ci, k.yi]),
    rd_skip (by simp [k.xid, k.secs, k.flags, k.ci, k.yi]), rd_skip (by simp [k.xid, k.secs, k.flags, k.ci, k.yi, k.gw])]
  simp only [List.length_cons, List.length_nil, k.xid, k.secs, k.flags, k.ci, k.yi, k.gw, Nat.reduceAdd, Nat.reduceSub]
  exact rd_here k.mac

theorem get_ch (k : h.Ok) : rd (h.bytes ++ T) 28 16 = some (h.mac ++ h.pad) := by
  simp only [Hdr.bytes, List.append_assoc]
  rw [rd_skip (by simp), rd_skip (by simp [k.xid]), rd_skip (by simp [k.xid, k.secs]), rd_skip (by simp [k.xid, k.secs, k.flags]),
    rd_skip (by simp [k.xid, k.secs, k.flags, k.ci]), rd_skip (by simp [k.xid, k.secs, k.flags, k.ci, k.yi]),
    rd_skip (by simp [k.xid, k.secs, k.flags, k.ci, k.yi]), rd_skip (by simp [k.xid, k.secs, k.flags, k.ci, k.yi, k.gw])]
  simp only [List.length_cons, List.length_nil, k.xid, k.secs, k.flags, k.ci, k.yi, k.gw, Nat.reduceAdd, Nat.reduceSub]
  rw [← List.append_assoc]
  exact rd_here (by rw [List.length_append, k.mac, k.pad])

theorem get_cookie (k : h.Ok) : rd (h.bytes ++ T) 236 4 = some [0x63, 0x82, 0x53, 0x63] := by
  have e : h.bytes ++ T = ([h.op, 1, 6, 0] ++ (h.xid ++ (h.secs ++ (h.flags ++ (h.ci ++ (h.yi ++ ([0, 0, 0, 0] ++
      (h.gw ++ (h.mac ++ (h.pad ++ List.replicate 192 0)))))))))) ++ ([0x63, 0x82, 0x53, 0x63] ++ T) := by
    simp only [Hdr.bytes, tailBytes, List.append_assoc]
  have hl : ([h.op, 1, 6, 0] ++ (h.xid ++ (h.secs ++ (h.flags ++ (h.ci ++ (h.yi ++ ([0, 0, 0, 0] ++
      (h.gw ++ (h.mac ++ (h.pad ++ List.replicate 192 0)))))))))).length = 236 := by
    simp only [List.length_append, List.length_cons, List.length_nil, List.length_replicate, k.xid, k.secs, k.flags, k.ci, k.yi, k.gw, k.mac, k.pad]
  rw [e, rd_skip (by rw [hl]; exact Nat.le_refl _), hl]
  exact rd_here rfl

theorem broadcast (k : h.Ok) (a b : Byte) (hf : h.flags = [a, b]) :
    Wire.withBroadcast (h.bytes ++ T) = { h with flags := [a ||| 0x80, b] }.bytes ++ T := by
  obtain ⟨op, xid, secs, flags, ci, yi, gw, mac, pad⟩ := h
  obtain ⟨h1, h2, h3, -, -, -, -, -⟩ := k
  simp only at h1 h2 h3 hf
  subst hf
  match xid, h1, secs, h2 with
  | [x0, x1, x2, x3], _, [s0, s1], _ => rfl

/-! ### Options -/

/-- A field is replaced. -/
theorem _root_.Verif.Options.Built.head {H H' p : List Byte} {is : List Options.Spec.Item} {off : Nat} {d : List Byte} (b : Built H is p)
    (hw : ∀ T, wr (H ++ T) off d = some (H' ++ T)) : ∃ p', wr p off d = some p' ∧ Built H' is p' := by
  obtain ⟨rest, rfl, b⟩ := b
  exact ⟨_, hw _, rest, rfl, b⟩

theorem _root_.Verif.Options.Built.uint {H p junk : List Byte} {is : List Options.Spec.Item} (b : Built H is p) (hH : H.length = 240) (hj : junk.length = 6)
    (h : Wire.Host) {w code v : Nat} (ht : (code, w) ∈ Options.Spec.typed) (hw : w = 1 ∨ w = 2 ∨ w = 4) (hv : v < 256 ^ w) (hc : code < 256)
    (hr : (Options.Spec.enc is).length + (w + 2) + 1 < 308) :
    ∃ p', addUint h junk p w code v = some p' ∧ Built H (is ++ [.opt code.toUInt8 (Options.Spec.digits w v)]) p' := by
  obtain ⟨p', h1, h2⟩ := request_built h H hH is p b (.uint w code v, junk) ⟨hw, hc, hv⟩ hj
  refine ⟨p', h1, ?_⟩
  simp only [Options.Spec.add, if_pos (show (code, w) ∈ Options.Spec.typed ∧ _ from ⟨ht, hr⟩)] at h2
  exact h2

theorem _root_.Verif.Options.Built.block {H p : List Byte} {is : List Options.Spec.Item} (b : Built H is p) (hH : H.length = 240) {c : Byte} {d : List Byte}
    (h0 : c ≠ 0) (h1 : c ≠ 255) (h2 : c ≠ 52) (h3 : d.length < 256) :
    ∃ p', addBinary p (c :: d.length.toUInt8 :: d) = some p' ∧ Built H (Options.Spec.add is (.block c d)) p' := by
  obtain ⟨rest, rfl, hl, hok, hle⟩ := b
  have hb := addBinary_eq (extra := []) (c := c) (d := d) hH (fun i hi => (hok i hi).1) hl h3
  simp only [Options.Spec.Item.bytes, List.append_nil] at hb
  rw [hb]
  simp only [Options.Spec.add]
  by_cases hf : (Options.Spec.enc is).length + (d.length + 2) + 1 < 308
  · rw [if_pos hf, if_pos hf]
    refine ⟨_, rfl, _, rfl, ?_, ?_, ?_⟩
    · simp only [enc_append, Options.Spec.enc, Options.Spec.Item.bytes, List.length_append, List.length_cons, List.length_nil, List.length_drop]
      omega
    · intro i hi
      rcases List.mem_append.mp hi with hi | hi
      · exact hok i hi
      · simp only [List.mem_singleton] at hi; subst hi
        exact ⟨⟨h0, h1, h3, fun e => absurd e h2⟩, h2⟩
    · simp only [enc_append, Options.Spec.enc, Options.Spec.Item.bytes, List.length_append, List.length_cons, List.length_nil]
      omega
  · rw [if_neg hf, if_neg hf]
    exact ⟨_, rfl, rest, rfl, hl, hok, hle⟩

/-- The options asked for. -/
def asks (codes : List Nat) : List Options.Spec.Item := if codes = [] then [] else [.opt 55 (codes.map (·.toUInt8))]

theorem _root_.Verif.Options.Built.asks {H p : List Byte} {is : List Options.Spec.Item} (b : Built H is p) (hH : H.length = 240) {codes : List Nat}
    (hc : codes.length ≤ 255) (hr : (Options.Spec.enc is).length ≤ 40) :
    ∃ p', addRequestOptions p codes = some p' ∧ Built H (is ++ Dora.asks codes) p' := by
  obtain ⟨rest, rfl, hl, hok, hle⟩ := b
  have hlen : (H ++ (Options.Spec.enc is ++ 255 :: rest)).length = 628 := by
    simp only [List.length_append, List.length_cons, hH]; omega
  have hrd : rd (H ++ (Options.Spec.enc is ++ 255 :: rest)) 240 388 = some (Options.Spec.enc is ++ 255 :: rest) := by
    rw [rd_skip (by omega), hH]
    have := rd_here (b := Options.Spec.enc is ++ 255 :: rest) (c := []) (n := 388) (by simp only [List.length_append, List.length_cons]; omega)
    rwa [List.append_nil] at this
  have hend := endOption_enc (area := Options.Spec.enc is ++ 255 :: rest) is (i := 0) (rest := rest) rfl (fun i hi => (hok i hi).1)
    389 (by have := length_le_enc is; omega)
  rw [Nat.zero_add] at hend
  unfold addRequestOptions
  simp only [hrd, hend, Option.bind_eq_bind, Option.bind_some]
  unfold Dora.asks
  cases codes with
  | nil =>
    simp only [List.map_nil, List.length_nil, if_true, List.append_nil]
    rw [wr_some (by rw [List.length_nil]; omega)]
    exact ⟨_, rfl, rest, by simp, hl, hok, hle⟩
  | cons x xs =>
    have hne : ¬ (x :: xs).length = 0 := by simp
    simp only [if_neg hne]
    rw [if_neg (by simp)]
    clear hne
    have hm : ((x :: xs).map (·.toUInt8)).length = (x :: xs).length := by simp
    generalize hC : (x :: xs).map (·.toUInt8) = C at *
    generalize (x :: xs).length = n at *
    obtain ⟨r0, r1, hr1, hrn⟩ : ∃ r0 r1, rest = (r0 : Byte) :: r1 ∧ n + 1 ≤ r1.length := by
      match rest, hl with
      | [], hl => simp only [List.length_nil] at hl; omega
      | a :: t, hl => exact ⟨a, t, rfl, by simp only [List.length_cons] at hl; omega⟩
    subst hr1
    obtain ⟨y, r2, hy, hyl⟩ : ∃ y r2, r1 = y ++ r2 ∧ y.length = n := ⟨r1.take n, r1.drop n, by simp, by simp; omega⟩
    subst hy
    obtain ⟨z, r3, hz⟩ : ∃ z r3, r2 = (z : Byte) :: r3 := by
      match r2, hrn with
      | [], hrn => simp only [List.length_append, List.length_nil] at hrn; omega
      | a :: t, _ => exact ⟨a, t, rfl⟩
    subst hz
    have w1 : wr (H ++ (Options.Spec.enc is ++ 255 :: r0 :: (y ++ z :: r3))) (240 + (Options.Spec.enc is).length + 2) C =
        some (H ++ (Options.Spec.enc is ++ 255 :: r0 :: (C ++ z :: r3))) := by
      have := wr_mid (H ++ Options.Spec.enc is ++ [255, r0]) y (z :: r3) C (by omega)
      simp only [List.length_append, hH, List.length_cons, List.length_nil, List.append_assoc, List.cons_append, List.nil_append] at this
      exact this
    have w2 : wr (H ++ (Options.Spec.enc is ++ 255 :: r0 :: (C ++ z :: r3))) (240 + (Options.Spec.enc is).length) [0x37] =
        some (H ++ (Options.Spec.enc is ++ 0x37 :: r0 :: (C ++ z :: r3))) := by
      have := wr_mid (H ++ Options.Spec.enc is) [255] (r0 :: (C ++ z :: r3)) [0x37] rfl
      simp only [List.length_append, hH, List.append_assoc, List.cons_append, List.nil_append] at this
      exact this
    have w3 : wr (H ++ (Options.Spec.enc is ++ 0x37 :: r0 :: (C ++ z :: r3))) (240 + (Options.Spec.enc is).length + 1) [n.toUInt8] =
        some (H ++ (Options.Spec.enc is ++ 0x37 :: n.toUInt8 :: (C ++ z :: r3))) := by
      have := wr_mid (H ++ Options.Spec.enc is ++ [0x37]) [r0] (C ++ z :: r3) [n.toUInt8] rfl
      simp only [List.length_append, hH, List.length_cons, List.length_nil, List.append_assoc, List.cons_append, List.nil_append] at this
      exact this
    have w4 : wr (H ++ (Options.Spec.enc is ++ 0x37 :: n.toUInt8 :: (C ++ z :: r3))) (240 + (Options.Spec.enc is).length + 2 + n) [255] =
        some (H ++ (Options.Spec.enc is ++ 0x37 :: n.toUInt8 :: (C ++ 255 :: r3))) := by
      have := wr_mid (H ++ Options.Spec.enc is ++ [0x37, n.toUInt8] ++ C) [z] r3 [255] rfl
      simp only [List.length_append, hH, List.length_cons, List.append_assoc, List.cons_append, List.nil_append, hm] at this
      rw [show 240 + (Options.Spec.enc is).length + 2 + n = 240 + ((Options.Spec.enc is).length + (n + 1 + 1)) by omega]
      exact this
    simp only [w1, w2, w3, w4, Option.bind_some]
    simp only [List.length_cons, List.length_append] at hl
    refine ⟨_, rfl, r3, ?_, ?_, ?_, ?_⟩
    · simp only [enc_append, Options.Spec.enc, Options.Spec.Item.bytes, hm, List.append_nil, List.append_assoc, List.cons_append]
    · simp only [enc_append, Options.Spec.enc, Options.Spec.Item.bytes, List.length_append, List.length_cons, List.length_nil]
      omega
    · intro i hi
      rcases List.mem_append.mp hi with hi | hi
      · exact hok i hi
      · simp only [List.mem_singleton] at hi; subst hi
        exact ⟨⟨by decide, by decide, by omega, fun e => absurd e (by decide)⟩, by show (55 : Byte) ≠ 52; decide⟩
    · simp only [enc_append, Options.Spec.enc, Options.Spec.Item.bytes, List.length_append, List.length_cons, List.length_nil]
      omega

/-- The options to send: appended as far as there is room. -/
def addAll (is : List Options.Spec.Item) (sends : List (Byte × List Byte)) : List Options.Spec.Item :=
  sends.foldl (fun is b => Options.Spec.add is (.block b.1 b.2)) is

theorem _root_.Verif.Options.Built.sends {H p : List Byte} {is : List Options.Spec.Item} (b : Built H is p) (hH : H.length = 240) {sends : List (Byte × List Byte)}
    (hs : ∀ b ∈ sends, b.1 ≠ 0 ∧ b.1 ≠ 255 ∧ b.1 ≠ 52 ∧ b.2.length < 256) :
    ∃ p', addSendOptions p sends = some p' ∧ Built H (addAll is sends) p' := by
  induction sends generalizing p is with
  | nil => exact ⟨p, rfl, b⟩
  | cons x t ih =>
    obtain ⟨h0, h1, h2, h3⟩ := hs x (by simp)
    obtain ⟨p1, e1, b1⟩ := Built.block b hH h0 h1 h2 h3
    obtain ⟨p2, e2, b2⟩ := ih b1 (fun y hy => hs y (by simp [hy]))
    refine ⟨p2, ?_, b2⟩
    obtain ⟨c, d⟩ := x
    simp only [addSendOptions, e1, Option.bind_eq_bind, Option.bind_some]
    exact e2

theorem value_addAll {code : Nat} {is : List Options.Spec.Item} {sends : List (Byte × List Byte)} (hs : ∀ b ∈ sends, b.1.toNat ≠ code) :
    Options.Spec.value code (addAll is sends) = Options.Spec.value code is := by
  induction sends generalizing is with
  | nil => rfl
  | cons x t ih =>
    show Options.Spec.value code (addAll (Options.Spec.add is (.block x.1 x.2)) t) = _
    rw [ih (fun y hy => hs y (by simp [hy]))]
    simp only [Options.Spec.add]
    split
    · rw [value_append]
      simp [Options.Spec.value, hs x (by simp)]
    · rfl

/-! ### Transport -/

theorem _root_.Verif.Options.Built.carry {H p z : List Byte} {is : List Options.Spec.Item} (b : Built H is p) (hH : H.length = 240) (hz : z.length = 80) :
    Built H is (p.take 548 ++ z) := by
  obtain ⟨rest, rfl, hl, hok, hle⟩ := b
  refine ⟨rest.take (307 - (Options.Spec.enc is).length) ++ z, ?_, ?_, hok, hle⟩
  · rw [List.take_append, List.take_of_length_le (by omega), hH, List.take_append, List.take_of_length_le (by omega)]
    rw [show 548 - 240 - (Options.Spec.enc is).length = (307 - (Options.Spec.enc is).length) + 1 by omega, List.take_succ_cons]
    simp
  · simp only [List.length_append, List.length_take, hz]; omega

theorem _root_.Verif.Options.Built.size {H p : List Byte} {is : List Options.Spec.Item} (b : Built H is p) (hH : H.length = 240) : p.length = 628 := by
  obtain ⟨rest, rfl, hl, -⟩ := b
  simp only [List.length_append, List.length_cons, hH]; omega

theorem _root_.Verif.Options.Built.layout {H p : List Byte} {is : List Options.Spec.Item} (b : Built H is p) (hH : H.length = 240) :
    Options.Spec.Layout p 548 is [] [] ∧ Options.Spec.all is [] [] = is := by
  have hs := b.size hH
  obtain ⟨rest, rfl, hl, hok, hle⟩ := b
  have hov : Options.Spec.overload is = 0 := overload_plain is (fun i hi => (hok i hi).2)
  exact ⟨{ size := hs, plen_le := by decide, area := ⟨rest, by rw [← hH, List.drop_left]⟩, inside := by omega
           file := by rw [hov]; intro hx; exact absurd (by decide) hx
           sname := by rw [hov]; intro hx; exact absurd (by decide) hx
           ok := ⟨fun i hi => (hok i hi).1, by simp, by simp⟩ }, by simp [Options.Spec.all]⟩

theorem _root_.Verif.Options.Built.lookup {H p : List Byte} {is : List Options.Spec.Item} (b : Built H is p) (hH : H.length = 240) (code : Nat) :
    (Options.Spec.value code is = none → getOption p 548 code 2000 = .null) ∧
    ∀ d, Options.Spec.value code is = some d → ∃ i, getOption p 548 code 2000 = .ptr i ∧ rd p i d.length = some d := by
  obtain ⟨hL, hall⟩ := b.layout hH
  have hg := getOption_first_occurrence p 548 is [] [] hL code 2000 (by decide)
  rw [hall] at hg
  constructor
  · intro hv; rw [hv] at hg; exact hg
  · intro d hv
    rw [hv] at hg
    obtain ⟨i, h1, -, h3, -, h5⟩ := hg
    exact ⟨i, h1, by rw [rd_some (by have := hL.size; omega), h5]⟩

theorem leVal_leBytes (w v : Nat) (hv : v < 256 ^ w) : Wire.leVal (Wire.leBytes w v) = v := by
  induction w generalizing v with
  | zero => simp at hv; subst hv; rfl
  | succ w ih =>
    have : v / 256 < 256 ^ w := by
      rw [Nat.div_lt_iff_lt_mul (by decide), ← Nat.pow_succ]; exact hv
    simp only [Wire.leBytes, Wire.leVal, ih _ this]
    have : v.toUInt8.toNat = v % 256 := by simp
    rw [this]
    omega

theorem _root_.Verif.Options.Built.word {H p : List Byte} {is : List Options.Spec.Item} (b : Built H is p) (hH : H.length = 240) (h : Wire.Host) {code v : Nat}
    (hv : v < 2 ^ 32) (hi : Options.Spec.value code is = some (Options.Spec.digits 4 v)) :
    ∃ i, getOption p 548 code 2000 = .ptr i ∧ Wire.getBe h 4 p i = some v := by
  obtain ⟨i, h1, h2⟩ := (b.lookup hH code).2 _ hi
  rw [digits_length] at h2
  refine ⟨i, h1, ?_⟩
  rw [Wire.getBe_eq, h2, Option.map_some, digits_eq, List.reverse_reverse, leVal_leBytes 4 v (by exact hv)]

theorem layout_htonl (h : Wire.Host) (v : Nat) :
    Wire.layout h 4 (Wire.htonl h v) = Options.Spec.digits 4 v := by
  rw [digits_eq]
  have key := Wire.putBe_eq h 4 v [0, 0, 0, 0] 0
  have hb : ∀ l : List Byte, l.length = 4 → wr ([0, 0, 0, 0] : List Byte) 0 l = some l := by
    intro l hl
    have := wr_here (b := [0, 0, 0, 0]) (c := []) (d := l) (by rw [hl]; rfl)
    simpa using this
  rw [hb _ (by simp)] at key
  cases h with
  | le =>
    simp only [Wire.putBe, Wire.putUnaligned, Wire.layout] at key
    rw [hb _ (by simp)] at key
    exact Option.some.inj key
  | be => rfl

theorem num_digits (v : Nat) (hv : v < 2 ^ 32) : Wire.Spec.beVal (Options.Spec.digits 4 v) = v := by
  simp only [Options.Spec.digits, List.nil_append, List.cons_append, Wire.Spec.beVal, List.foldl_cons, List.foldl_nil]
  simp
  omega

end Verif.Dora
