import Verif.Proof.Options
/-!
# C30, C31, C32: DHCP options
-/
namespace Verif.Options
open Verif.C

/-- **C31.** In a packet whose option area is a legal list of options closed by END (and whose
file and sname fields are so, too, if they are announced as overloaded), looking up any code
ends, yields NULL if the code occurs nowhere, and otherwise a pointer to the data of its first
occurrence in the order options, file, sname, with the length in front of it. -/
theorem getOption_first_occurrence (pkt : List Byte) (plen : Nat) (os fs ss : List Spec.Item)
    (hL : Spec.Layout pkt plen os fs ss) (code : Nat) (fuel : Nat) (hf : 600 ≤ fuel) :
    match Spec.value code (Spec.all os fs ss) with
    | none => getOption pkt plen code fuel = .null
    | some d => ∃ i, getOption pkt plen code fuel = .ptr i ∧ 1 ≤ i ∧ i + d.length < plen ∧
        pkt[i - 1]? = some d.length.toUInt8 ∧ (pkt.drop i).take d.length = d := by
  obtain ⟨hsz, hpl, ⟨rest, harea⟩, hin, hfile, hsname, hok, hokf, hoks⟩ := hL
  have hlen : (Spec.enc os).length + 1 ≤ 388 := by
    have := congrArg List.length harea
    simp only [List.length_drop, List.length_append, List.length_cons] at this; omega
  have hosl := length_le_enc os
  unfold getOption
  have h1 := loop_items (code := code) (plen := plen) os (rem := 388) (ov := 0) harea hok (by omega) (by omega)
  have hall : Spec.value code (Spec.all os fs ss) = (Spec.value code os).or
      ((if Spec.overload os &&& 1 ≠ 0 then Spec.value code fs else none).or
       (if Spec.overload os &&& 2 ≠ 0 then Spec.value code ss else none)) := by
    unfold Spec.all
    rw [value_append, value_append, Option.or_assoc]
    congr 2
    · split <;> rfl
    · split <;> rfl
  rw [hall]
  cases hvo : Spec.value code os with
  | some d => exact h1.1 d hvo fuel (by omega)
  | none =>
    rw [Option.none_or]
    have h2 := h1.2 hvo
    obtain ⟨f1, rfl⟩ : ∃ f1, fuel = os.length + (f1 + 1) := ⟨fuel - os.length - 1, by omega⟩
    rw [h2, UInt8.zero_or]
    have hend := step_end (code := code) (plen := plen) (rem := 388 - ((Spec.enc os).length : Int)) (ov := Spec.overload os)
      (drop_more harea) (by omega)
    -- the sname field
    have hS : ∀ ov : Byte, ov &&& 1 = 0 → ov &&& 2 ≠ 0 → Spec.overload os &&& 2 ≠ 0 → ∀ f, 66 ≤ f → ∀ (p : Nat) (rem : Int) (t : List Byte),
        pkt.drop p = 255 :: t → 0 < rem →
        match Spec.value code ss with
        | none => loop pkt plen code f ⟨p, rem, ov⟩ = .null
        | some d => Hit pkt plen d (loop pkt plen code f ⟨p, rem, ov⟩) := by
      intro ov ho1 ho2 hov f hf p rem t hp hr
      obtain ⟨srest, hs⟩ := hsname hov
      have hsl : (Spec.enc ss).length + 1 ≤ 64 := by
        have := congrArg List.length hs
        simp only [List.length_take, List.length_drop, List.length_append, List.length_cons] at this; omega
      have hsd : pkt.drop 44 = Spec.enc ss ++ (255 :: srest ++ pkt.drop 108) := by
        rw [← List.append_assoc, ← hs, show 108 = 44 + 64 by rfl, ← List.drop_drop, List.take_append_drop]
      have hssl := length_le_enc ss
      have hst := step_end (code := code) (plen := plen) (rem := rem) (ov := ov) hp hr
      rw [if_neg (by simp [ho1]), if_pos ho2] at hst
      obtain ⟨f', rfl⟩ : ∃ f', f = f' + 1 := ⟨f - 1, by omega⟩
      rw [loop_inr hst]
      have h3 := loop_items (code := code) (plen := plen) ss (rem := 64) (ov := ov &&& ~~~ 2) hsd (fun i hi => (hoks i hi).1) (by omega) (by omega)
      cases hvs : Spec.value code ss with
      | some d => exact h3.1 d hvs f' (by omega)
      | none =>
        obtain ⟨f2, rfl⟩ : ∃ f2, f' = ss.length + (f2 + 1) := ⟨f' - ss.length - 1, by omega⟩
        rw [h3.2 hvs, overload_plain ss (fun i hi => (hoks i hi).2), UInt8.or_zero]
        apply loop_inl
        rw [step_end (drop_more hsd) (by omega)]
        have e1 : ov &&& ~~~ 2 &&& 1 = 0 := by
          rw [UInt8.and_assoc, UInt8.and_comm (~~~ 2), ← UInt8.and_assoc, ho1, UInt8.zero_and]
        have e2 : ov &&& ~~~ 2 &&& 2 = 0 := by
          rw [UInt8.and_assoc, show (~~~ 2 &&& 2 : UInt8) = 0 by decide, UInt8.and_zero]
        rw [if_neg (by simp [e1]), if_neg (by simp [e2])]
    by_cases hb1 : Spec.overload os &&& 1 ≠ 0
    · rw [if_pos hb1]
      rw [if_pos hb1] at hend
      rw [loop_inr hend]
      obtain ⟨frest, hfl⟩ := hfile hb1
      have hfll : (Spec.enc fs).length + 1 ≤ 128 := by
        have := congrArg List.length hfl
        simp only [List.length_take, List.length_drop, List.length_append, List.length_cons] at this; omega
      have hfd : pkt.drop 108 = Spec.enc fs ++ (255 :: frest ++ pkt.drop 236) := by
        rw [← List.append_assoc, ← hfl, show 236 = 108 + 128 by rfl, ← List.drop_drop, List.take_append_drop]
      have hfsl := length_le_enc fs
      have h3 := loop_items (code := code) (plen := plen) fs (rem := 128) (ov := Spec.overload os &&& ~~~ 1) hfd (fun i hi => (hokf i hi).1) (by omega) (by omega)
      cases hvf : Spec.value code fs with
      | some d => exact h3.1 d hvf f1 (by omega)
      | none =>
        rw [Option.none_or]
        obtain ⟨f2, rfl⟩ : ∃ f2, f1 = fs.length + f2 := ⟨f1 - fs.length, by omega⟩
        rw [h3.2 hvf, overload_plain fs (fun i hi => (hokf i hi).2), UInt8.or_zero]
        have e1 : Spec.overload os &&& ~~~ 1 &&& 1 = 0 := by
          rw [UInt8.and_assoc, show (~~~ 1 &&& 1 : UInt8) = 0 by decide, UInt8.and_zero]
        have e2 : Spec.overload os &&& ~~~ 1 &&& 2 = Spec.overload os &&& 2 := by
          rw [UInt8.and_assoc, show (~~~ 1 &&& 2 : UInt8) = 2 by decide]
        by_cases hb2 : Spec.overload os &&& 2 ≠ 0
        · rw [if_pos hb2]
          exact hS _ e1 (by rw [e2]; exact hb2) hb2 f2 (by omega) _ _ _ (drop_more hfd) (by omega)
        · rw [if_neg hb2]
          obtain ⟨f3, rfl⟩ : ∃ f3, f2 = f3 + 1 := ⟨f2 - 1, by omega⟩
          apply loop_inl
          rw [step_end (drop_more hfd) (by omega), if_neg (by simp [e1]), if_neg (by rw [e2]; exact hb2)]
    · rw [if_neg hb1, Option.none_or]
      have hb1' : Spec.overload os &&& 1 = 0 := Classical.not_not.1 hb1
      by_cases hb2 : Spec.overload os &&& 2 ≠ 0
      · rw [if_pos hb2]
        exact hS _ hb1' hb2 hb2 (f1 + 1) (by omega) _ _ _ (drop_more harea) (by omega)
      · rw [if_neg hb2]
        apply loop_inl
        rw [hend, if_neg hb1, if_neg hb2]

/-- A packet with an overloaded file and sname field (used in examples). -/
def samplePkt : List Byte :=
  List.replicate 44 0 ++ ([12, 2, 104, 105, 0, 255] ++ List.replicate 58 9) ++
  ([1, 4, 255, 255, 255, 0, 12, 1, 65, 255] ++ List.replicate 118 9) ++ [0x63, 0x82, 0x53, 0x63] ++
  ([53, 1, 2, 0, 52, 1, 3, 255] ++ List.replicate 380 9)

theorem samplePkt_layout : Spec.Layout samplePkt 300 [.opt 53 [2], .pad, .opt 52 [3]]
    [.opt 1 [255, 255, 255, 0], .opt 12 [65]] [.opt 12 [104, 105], .pad] where
  size := by decide +kernel
  plen_le := by decide
  area := ⟨List.replicate 380 9, by decide +kernel⟩
  inside := by decide
  file := fun _ => ⟨List.replicate 118 9, by decide +kernel⟩
  sname := fun _ => ⟨List.replicate 58 9, by decide +kernel⟩
  ok := by simp [Spec.Item.Ok, Spec.Item.Plain]

/-- Code 12 occurs in file and sname; file comes first. Code 99 is absent. -/
example : getOption samplePkt 300 12 600 = .ptr 116 ∧ samplePkt[116]? = some 65 ∧
    Spec.value 12 (Spec.all [.opt 53 [2], .pad, .opt 52 [3]] [.opt 1 [255, 255, 255, 0], .opt 12 [65]]
      [.opt 12 [104, 105], .pad]) = some [65] ∧
    getOption samplePkt 300 99 600 = .null := by decide +kernel

/-! ### C30 -/

/-- **C30 (partial).** Take any packet whose option bytes, as far as they are looked at, consist of
legal options none of which is an overload option: followed by END, or running up to the end of
the received bytes (so truncated packets and packets without END are covered, as is anything
behind the received bytes).  Then looking up any code ends after at most 390 rounds without
undefined behaviour, and a returned pointer is to data inside the received bytes.
Missing for the full C30: packets with an option reaching behind the 628-byte buffer and packets
using overload in a way RFC 2132 forbids; see the three theorems below. -/
theorem getOption_safe_partial (pkt : List Byte) (plen : Nat) (hl : pkt.length = 628) (hpl : plen ≤ 628)
    (os : List Spec.Item) (tail : List Byte) (harea : pkt.drop 240 = Spec.enc os ++ tail)
    (hok : ∀ i ∈ os, i.Ok ∧ i.Plain) (ht : tail.head? = some 255 ∨ plen ≤ 240 + (Spec.enc os).length + 1)
    (code fuel : Nat) (hf : 390 ≤ fuel) :
    getOption pkt plen code fuel = .null ∨
    ∃ i, getOption pkt plen code fuel = .ptr i ∧ 242 ≤ i ∧ ∃ l, pkt[i - 1]? = some l ∧ i + l.toNat < plen := by
  unfold getOption
  have key : ∀ (os : List Spec.Item) (p n f : Nat), p + n = 628 → 240 ≤ p → pkt.drop p = Spec.enc os ++ tail →
      (∀ i ∈ os, i.Ok ∧ i.Plain) → (tail.head? = some 255 ∨ plen ≤ p + (Spec.enc os).length + 1) → n + 1 ≤ f →
      (loop pkt plen code f ⟨p, (n : Int), 0⟩ = .null ∨
       ∃ i, loop pkt plen code f ⟨p, (n : Int), 0⟩ = .ptr i ∧ 242 ≤ i ∧ ∃ l, pkt[i - 1]? = some l ∧ i + l.toNat < plen) := by
    intro os
    induction os with
    | nil =>
      intro p n f hp h240 hd _ ht hf
      rcases ht with ht | ht
      · left
        cases tail with
        | nil => simp at ht
        | cons c t =>
          simp only [List.head?_cons, Option.some.injEq] at ht
          subst ht
          have hn : 0 < n := by
            have := congrArg List.length hd
            simp only [List.length_drop, Spec.enc, List.nil_append, List.length_cons] at this; omega
          obtain ⟨f', rfl⟩ : ∃ f', f = f' + 1 := ⟨f - 1, by omega⟩
          apply loop_inl
          rw [step_end hd (by omega)]
          simp
      · left
        exact loop_past hl n p hp (by simpa [Spec.enc] using ht) hpl f hf
    | cons it os ih =>
      intro p n f hp h240 hd hok ht hf
      have hitok := hok it (by simp)
      by_cases hpast : plen ≤ p + 1
      · left; exact loop_past hl n p hp hpast hpl f hf
      have hd' := hd
      simp only [Spec.enc, List.append_assoc] at hd'
      have hlen : it.bytes.length ≤ n := by
        have := congrArg List.length hd'
        simp only [List.length_drop, List.length_append] at this; omega
      have hpos := enc_length_pos it
      obtain ⟨f', rfl⟩ : ∃ f', f = f' + 1 := ⟨f - 1, by omega⟩
      have h0 := at_drop hd' 0
      have h1 := at_drop hd' 1
      have hnext := ih (p + it.bytes.length) (n - it.bytes.length) f' (by omega) (by omega) (drop_more hd')
        (fun i hi => hok i (by simp [hi])) (by
          rcases ht with ht | ht
          · exact Or.inl ht
          · right; simp only [Spec.enc, List.length_append] at ht; omega) (by omega)
      have hcast : ((n - it.bytes.length : Nat) : Int) = (n : Int) - (it.bytes.length : Int) := by omega
      cases it with
      | pad =>
        simp only [Spec.Item.bytes, List.length_cons, List.length_nil, List.cons_append, Nat.add_zero,
          List.getElem?_cons_zero, Nat.zero_add] at *
        have hs : step pkt plen code ⟨p, (n : Int), 0⟩ = .inr ⟨p + 1, ((n - 1 : Nat) : Int), 0⟩ := by
          unfold step
          rw [if_neg (by show ¬ ((n : Int) ≤ 0 ∧ _); omega)]
          simp only [h0, if_true]
          rw [if_neg (by show ¬ (n : Int) ≤ _; omega), hcast]
          rfl
        rw [loop_inr hs]
        exact hnext
      | opt c d =>
        obtain ⟨⟨hc0, hc1, hl256, _⟩, hplain⟩ := hitok
        simp only [Spec.Item.Plain] at hplain
        simp only [Spec.Item.bytes, List.length_cons, List.cons_append, Nat.add_zero,
          List.getElem?_cons_zero, List.getElem?_cons_succ] at *
        have hln : (d.length.toUInt8).toNat = d.length := by simp; omega
        by_cases hcode : c.toNat = code
        · have hs : step pkt plen code ⟨p, (n : Int), 0⟩ =
              if (p : Int) + ((2 + d.length : Nat) : Int) > (plen : Int) - 1 then .inl .null else .inl (.ptr (p + 2)) := by
            unfold step
            rw [if_neg (by show ¬ ((n : Int) ≤ 0 ∧ _); omega)]
            simp only [h0, if_neg hc0, if_neg hc1]
            rw [if_neg (by omega)]
            simp only [h1, hln]
            rw [if_neg (by omega), if_neg (by omega), if_pos hcode]
          split at hs
          · left; exact loop_inl hs
          · right
            refine ⟨p + 2, loop_inl hs, by omega, _, h1, ?_⟩
            rw [hln]; omega
        · have hs : step pkt plen code ⟨p, (n : Int), 0⟩ = .inr ⟨p + (d.length + 1 + 1), ((n - (d.length + 1 + 1) : Nat) : Int), 0⟩ := by
            unfold step
            rw [if_neg (by show ¬ ((n : Int) ≤ 0 ∧ _); omega)]
            simp only [h0, if_neg hc0, if_neg hc1]
            rw [if_neg (by omega)]
            simp only [h1, hln]
            rw [if_neg (by omega), if_neg (by omega), if_neg hcode, if_neg hplain, hcast]
            congr 2
            · omega
            · omega
          rw [loop_inr hs]
          exact hnext
  exact key os 240 388 fuel (by omega) (by omega) harea hok ht (by omega)

/-- A packet without END, cut off in the middle of its third option: the hypotheses of
`getOption_safe_partial` hold and the two complete options are found. -/
example : getOption (List.replicate 240 0 ++ [53, 1, 2, 12, 2, 65, 66, 51] ++ List.replicate 380 77) 248 12 390 = .ptr 245 ∧
    List.drop 240 (List.replicate 240 (0 : Byte) ++ [53, 1, 2, 12, 2, 65, 66, 51] ++ List.replicate 380 77) =
      Spec.enc [.opt 53 [2], .opt 12 [65, 66]] ++ (51 :: List.replicate 380 77) ∧
    248 ≤ 240 + (Spec.enc [.opt 53 [2], .opt 12 [65, 66]]).length + 1 := by decide +kernel

/-- **C30 is false (1).** An overload option inside the overloaded file field makes the lookup
run forever: no number of rounds is enough. The packet needs only a dozen chosen bytes. -/
theorem getOption_loops_forever : ∃ pkt : List Byte, pkt.length = 628 ∧ ∀ fuel,
    getOption pkt 244 53 fuel = .spin := by
  refine ⟨List.replicate 108 0 ++ [52, 1, 1, 255] ++ List.replicate 124 0 ++ [0x63, 0x82, 0x53, 0x63] ++
    [52, 1, 1, 255] ++ List.replicate 384 0, by decide +kernel, ?_⟩
  generalize hp : List.replicate 108 (0 : Byte) ++ [52, 1, 1, 255] ++ List.replicate 124 0 ++ [0x63, 0x82, 0x53, 0x63] ++
    [52, 1, 1, 255] ++ List.replicate 384 0 = pkt
  have sA : step pkt 244 53 ⟨240, 388, 0⟩ = .inr ⟨243, 385, 1⟩ := by subst hp; decide +kernel
  have sB : step pkt 244 53 ⟨243, 385, 1⟩ = .inr ⟨108, 128, 0⟩ := by subst hp; decide +kernel
  have sC : step pkt 244 53 ⟨108, 128, 0⟩ = .inr ⟨111, 125, 1⟩ := by subst hp; decide +kernel
  have sD : step pkt 244 53 ⟨111, 125, 1⟩ = .inr ⟨108, 128, 0⟩ := by subst hp; decide +kernel
  have hCD : ∀ f, loop pkt 244 53 f ⟨108, 128, 0⟩ = .spin ∧ loop pkt 244 53 f ⟨111, 125, 1⟩ = .spin := by
    intro f
    induction f with
    | zero => exact ⟨rfl, rfl⟩
    | succ f ih => exact ⟨by rw [loop_inr sC]; exact ih.2, by rw [loop_inr sD]; exact ih.1⟩
  intro fuel
  unfold getOption
  match fuel with
  | 0 => rfl
  | 1 => rw [loop_inr sA]; rfl
  | f + 2 => rw [loop_inr sA, loop_inr sB]; exact (hCD f).1

/-- **C30 is false (2).** An option that starts inside a full-sized packet and claims to reach
behind its end is not skipped: the loop stays on it, counting `rem` down until the signed
counter overflows (undefined behaviour). -/
theorem getOption_overrun_undefined : ∃ pkt : List Byte, pkt.length = 628 ∧ ∃ fuel,
    getOption pkt 628 53 fuel = .ub := by
  refine ⟨List.replicate 240 0 ++ [12, 255] ++ List.replicate 255 0 ++ [12, 255] ++ List.replicate 129 0, by decide +kernel, ?_⟩
  generalize hp : List.replicate 240 (0 : Byte) ++ [12, 255] ++ List.replicate 255 0 ++ [12, 255] ++ List.replicate 129 0 = pkt
  have sA : step pkt 628 53 ⟨240, 388, 0⟩ = .inr ⟨497, 131, 0⟩ := by subst hp; decide +kernel
  have g0 : pkt[497]? = some 12 := by subst hp; decide +kernel
  have g1 : pkt[498]? = some 255 := by subst hp; decide +kernel
  have sB : ∀ r : Int, r ≤ 131 → step pkt 628 53 ⟨497, r, 0⟩ =
      if r - 257 < -2147483648 then .inl .ub else .inr ⟨497, r - 257, 0⟩ := by
    intro r hr
    unfold step
    rw [if_neg (by show ¬ (_ ∧ ((497 : Nat) : Int) > ((628 : Nat) : Int) - 1); omega)]
    simp only [g0]
    rw [if_neg (by decide), if_neg (by decide), if_neg (by omega)]
    simp only [g1]
    have : ((2 + UInt8.toNat 255 : Nat) : Int) = 257 := by decide
    rw [this]
    split
    · rfl
    · rw [if_pos (by omega)]
  have hub : ∀ (n : Nat) (r : Int), r ≤ 131 → r + 2147483648 ≤ n → ∃ f, loop pkt 628 53 f ⟨497, r, 0⟩ = .ub := by
    intro n
    induction n with
    | zero =>
      intro r hr hn
      refine ⟨1, loop_inl ?_⟩
      rw [sB r hr, if_pos (by omega)]
    | succ n ih =>
      intro r hr hn
      by_cases hlt : r - 257 < -2147483648
      · refine ⟨1, loop_inl ?_⟩
        rw [sB r hr, if_pos hlt]
      · obtain ⟨f, hf⟩ := ih (r - 257) (by omega) (by omega)
        refine ⟨f + 1, ?_⟩
        rw [loop_inr (s' := ⟨497, r - 257, 0⟩) (by rw [sB r hr, if_neg hlt]), hf]
  obtain ⟨f, hf⟩ := hub 2147483800 131 (by omega) (by omega)
  exact ⟨f + 1, by unfold getOption; rw [loop_inr sA, hf]⟩

/-- **C30 is false (3).** An overload option of length zero in the last two bytes of a full-sized
packet makes the lookup read one byte behind the packet. -/
theorem getOption_overload_out_of_bounds :
    getOption (List.replicate 626 0 ++ [52, 0]) 628 53 400 = .ub := by decide +kernel

/-! ### C32 -/

/-- One call of a library user building a packet. `mem` is the memory behind the caller's option
block, or the initial content of the stack buffer of the typed calls. -/
def request (h : Wire.Host) (pkt : List Byte) (a : Spec.Add × List Byte) : Option (List Byte) :=
  match a.1 with
  | .block c d => addBinary pkt ((Spec.Item.opt c d).bytes ++ a.2)
  | .uint w code v => addUint h a.2 pkt w code v

/-- The 240 fixed bytes of a fresh packet of the given type: a reply for OFFER, ACK and NAK,
Ethernet, and the magic cookie in front of the options. -/
def Spec.header (type : Byte) : List Byte :=
  (if type = 2 ∨ type = 5 ∨ type = 6 then 2 else 1) :: 1 :: 6 :: List.replicate 233 0 ++ [0x63, 0x82, 0x53, 0x63]

/-- A packet under construction: header, options, END, and the rest of the buffer. -/
def Built (hdr : List Byte) (is : List Spec.Item) (pkt : List Byte) : Prop :=
  ∃ rest, pkt = hdr ++ (Spec.enc is ++ 255 :: rest) ∧ (Spec.enc is).length + 1 + rest.length = 388 ∧
    (∀ i ∈ is, i.Ok ∧ i.Plain) ∧ (Spec.enc is).length + 1 ≤ 307

theorem typed_code (code w : Nat) (h : (code, w) ∈ Spec.typed) :
    code.toUInt8 ≠ 0 ∧ code.toUInt8 ≠ 255 ∧ code.toUInt8 ≠ 52 := by
  have : ∀ p ∈ Spec.typed, p.1.toUInt8 ≠ 0 ∧ p.1.toUInt8 ≠ 255 ∧ p.1.toUInt8 ≠ 52 := by decide
  exact this _ h

theorem request_built (h : Wire.Host) (hdr : List Byte) (hh : hdr.length = 240) (is : List Spec.Item) (pkt : List Byte)
    (hb : Built hdr is pkt) (a : Spec.Add × List Byte) (ha : a.1.Ok) (hm : a.2.length = 6) :
    ∃ pkt', request h pkt a = some pkt' ∧ Built hdr (Spec.add is a.1) pkt' := by
  obtain ⟨rest, rfl, hl, hok, hle⟩ := hb
  obtain ⟨a, mem⟩ := a
  cases a with
  | block c d =>
    obtain ⟨h0, h1, h2, h3⟩ := ha
    simp only [request, Spec.add]
    rw [addBinary_eq hh (fun i hi => (hok i hi).1) hl h3]
    by_cases hf : (Spec.enc is).length + (d.length + 2) + 1 < 308
    · rw [if_pos hf, if_pos hf]
      refine ⟨_, rfl, _, rfl, ?_, ?_, ?_⟩
      · simp only [enc_append, Spec.enc, Spec.Item.bytes, List.length_append, List.length_cons, List.length_nil, List.length_drop]
        omega
      · intro i hi
        rcases List.mem_append.mp hi with hi | hi
        · exact hok i hi
        · simp only [List.mem_singleton] at hi; subst hi
          exact ⟨⟨h0, h1, h3, fun e => absurd e h2⟩, h2⟩
      · simp only [enc_append, Spec.enc, Spec.Item.bytes, List.length_append, List.length_cons, List.length_nil]
        omega
    · rw [if_neg hf, if_neg hf]
      exact ⟨_, rfl, rest, rfl, hl, hok, hle⟩
  | uint w code v =>
    obtain ⟨hw, hc, hv⟩ := ha
    simp only [request, Spec.add]
    rw [addUint_eq hm hh (fun i hi => (hok i hi).1) hl hw hc]
    by_cases hf : (code, w) ∈ Spec.typed ∧ (Spec.enc is).length + (w + 2) + 1 < 308
    · rw [if_pos hf, if_pos hf]
      obtain ⟨h0, h1, h2⟩ := typed_code code w hf.1
      have hfit := hf.2
      have hdl := digits_length w v
      refine ⟨_, rfl, _, rfl, ?_, ?_, ?_⟩
      · simp only [enc_append, Spec.enc, Spec.Item.bytes, List.length_append, List.length_cons, List.length_nil, List.length_drop, hdl]
        omega
      · intro i hi
        rcases List.mem_append.mp hi with hi | hi
        · exact hok i hi
        · simp only [List.mem_singleton] at hi; subst hi
          exact ⟨⟨h0, h1, by rw [hdl]; omega, fun e => absurd e h2⟩, h2⟩
      · simp only [enc_append, Spec.enc, Spec.Item.bytes, List.length_append, List.length_cons, List.length_nil, hdl]
        omega
    · rw [if_neg hf, if_neg hf]
      exact ⟨_, rfl, rest, rfl, hl, hok, hle⟩

theorem header_writes (op : Byte) (z y : List Byte) (hz : z.length = 233) :
    (do
      let p ← wr ([0, 0, 0] ++ (z ++ ([0, 0, 0, 0] ++ ([0] ++ y)))) 0 [op]
      let p ← wr p 1 [1]
      let p ← wr p 2 [6]
      let p ← wr p 236 [0x63, 0x82, 0x53, 0x63]
      wr p 240 [255]) = some ((op :: 1 :: 6 :: z ++ [0x63, 0x82, 0x53, 0x63]) ++ 255 :: y) := by
  have w0 : wr ([0, 0, 0] ++ (z ++ ([0, 0, 0, 0] ++ ([0] ++ y)))) 0 [op] =
      some ([op, 0, 0] ++ (z ++ ([0, 0, 0, 0] ++ ([0] ++ y)))) := by simp [wr]
  have w1 : wr ([op, 0, 0] ++ (z ++ ([0, 0, 0, 0] ++ ([0] ++ y)))) 1 [1] =
      some ([op, 1, 0] ++ (z ++ ([0, 0, 0, 0] ++ ([0] ++ y)))) := by simp [wr]
  have w2 : wr ([op, 1, 0] ++ (z ++ ([0, 0, 0, 0] ++ ([0] ++ y)))) 2 [6] =
      some ([op, 1, 6] ++ (z ++ ([0, 0, 0, 0] ++ ([0] ++ y)))) := by simp [wr]
  have w3 := wr_mid ([op, 1, 6] ++ z) [0, 0, 0, 0] ([0] ++ y) [0x63, 0x82, 0x53, 0x63] rfl
  have l3 : ([op, 1, 6] ++ z).length = 236 := by simp [hz]
  rw [l3, List.append_assoc, List.append_assoc] at w3
  have w4 := wr_mid ([op, 1, 6] ++ z ++ [0x63, 0x82, 0x53, 0x63]) [0] y [255] rfl
  have l4 : ([op, 1, 6] ++ z ++ [0x63, 0x82, 0x53, 0x63]).length = 240 := by simp [hz]
  rw [l4] at w4
  simp only [List.append_assoc] at w4
  simp only [Option.bind_eq_bind, w0, w1, w2, w3, w4, Option.bind_some]
  simp

theorem header_length (type : Byte) : (Spec.header type).length = 240 := by
  simp only [Spec.header, List.length_append, List.length_cons, List.length_replicate, List.length_nil]

theorem initHeader_built (h : Wire.Host) (junk : List Byte) (hj : junk.length = 6) (type : Byte) :
    ∃ pkt, initHeader h junk type = some pkt ∧ Built (Spec.header type) [.opt 53 [type]] pkt := by
  have hlay : Wire.layout h 4 (Wire.htonl h 0x63825363) = [0x63, 0x82, 0x53, 0x63] := by cases h <;> decide
  have e1 : List.replicate 628 (0 : Byte) = [0, 0, 0] ++ (List.replicate 233 0 ++ ([0, 0, 0, 0] ++ ([0] ++ List.replicate 387 0))) := by
    decide +kernel
  have hh := header_length type
  have hadd := addUint_eq (h := h) (junk := junk) (hdr := Spec.header type) (rest := List.replicate 387 0) (is := [])
    (w := 1) (code := 0x35) (v := type.toNat) hj hh (by simp) (by rw [List.length_replicate]; rfl) (by simp) (by decide)
  rw [if_pos (by decide)] at hadd
  have hdig : Spec.digits 1 type.toNat = [type] := by
    simp only [Spec.digits, List.nil_append]
    congr 1
    apply UInt8.toNat_inj.mp
    have := type.toNat_lt
    simp
  rw [hdig] at hadd
  have hpre := header_writes (if type = 2 ∨ type = 5 ∨ type = 6 then (2 : Byte) else 1) (List.replicate 233 0)
    (List.replicate 387 0) (List.length_replicate ..)
  have hinit : initHeader h junk type = ((do
      let p ← wr ([0, 0, 0] ++ (List.replicate 233 0 ++ ([0, 0, 0, 0] ++ ([0] ++ List.replicate 387 0)))) 0
        [if type = 2 ∨ type = 5 ∨ type = 6 then (2 : Byte) else 1]
      let p ← wr p 1 [1]
      let p ← wr p 2 [6]
      let p ← wr p 236 [0x63, 0x82, 0x53, 0x63]
      wr p 240 [255]).bind fun p => addUint h junk p 1 0x35 type.toNat) := by
    unfold initHeader Wire.putUnaligned
    rw [hlay, e1]
    simp only [Option.bind_eq_bind, Option.bind_assoc]
  rw [hinit, hpre, Option.bind_some]
  have hl2 : (List.drop (1 + 2) (List.replicate 387 (0 : Byte))).length = 384 := by
    rw [List.length_drop, List.length_replicate]
  refine ⟨_, hadd, _, rfl, ?_, ?_, ?_⟩
  · rw [hl2]; rfl
  · simp [Spec.Item.Ok, Spec.Item.Plain]
  · simp [Spec.enc, Spec.Item.bytes]

/-- **C32.** Initialise a packet and make any sequence of legal requests to add options. Nothing
is undefined; the packet keeps its 628 bytes and its header; its options are those that had room
and (for typed requests) the registered size, in order and closed by END within the 308 bytes of
the classic option area; values are big-endian on every host; and the library's own lookup finds
the first option of every code whatever packet length of at least 548 bytes is passed. -/
theorem build_options (h : Wire.Host) (junk : List Byte) (hj : junk.length = 6) (type : Byte)
    (reqs : List (Spec.Add × List Byte)) (hr : ∀ a ∈ reqs, a.1.Ok ∧ a.2.length = 6) :
    ∃ pkt, (initHeader h junk type >>= fun p => reqs.foldlM (request h) p) = some pkt ∧
      pkt.length = 628 ∧ pkt.take 240 = Spec.header type ∧
      (∃ rest, pkt.drop 240 =
        Spec.enc ((reqs.map Prod.fst).foldl Spec.add [.opt 53 [type]]) ++ 255 :: rest) ∧
      (Spec.enc ((reqs.map Prod.fst).foldl Spec.add [.opt 53 [type]])).length + 1 ≤ 307 ∧
      ∀ plen code fuel, 548 ≤ plen → plen ≤ 628 → 600 ≤ fuel →
        match Spec.value code ((reqs.map Prod.fst).foldl Spec.add [.opt 53 [type]]) with
        | none => getOption pkt plen code fuel = .null
        | some d => ∃ i, getOption pkt plen code fuel = .ptr i ∧
            pkt[i - 1]? = some d.length.toUInt8 ∧ (pkt.drop i).take d.length = d := by
  have hh := header_length type
  have hfold : ∀ (reqs : List (Spec.Add × List Byte)) is pkt, Built (Spec.header type) is pkt →
      (∀ a ∈ reqs, a.1.Ok ∧ a.2.length = 6) →
      ∃ pkt', reqs.foldlM (request h) pkt = some pkt' ∧
        Built (Spec.header type) ((reqs.map Prod.fst).foldl Spec.add is) pkt' := by
    intro reqs
    induction reqs with
    | nil => intro is pkt hb _; exact ⟨pkt, rfl, hb⟩
    | cons a t ih =>
      intro is pkt hb hr
      obtain ⟨p1, h1, hb1⟩ := request_built h _ hh is pkt hb a (hr a (by simp)).1 (hr a (by simp)).2
      obtain ⟨p2, h2, hb2⟩ := ih _ p1 hb1 (fun b hb => hr b (by simp [hb]))
      refine ⟨p2, ?_, hb2⟩
      rw [List.foldlM_cons, h1]
      exact h2
  obtain ⟨p0, h0, hb0⟩ := initHeader_built h junk hj type
  obtain ⟨pkt, h1, rest, rfl, hl, hok, hle⟩ := hfold reqs _ p0 hb0 hr
  generalize (reqs.map Prod.fst).foldl Spec.add [.opt 53 [type]] = is at *
  have hlen : (Spec.header type ++ (Spec.enc is ++ 255 :: rest)).length = 628 := by
    simp only [List.length_append, List.length_cons, hh]; omega
  have hdrop : (Spec.header type ++ (Spec.enc is ++ 255 :: rest)).drop 240 = Spec.enc is ++ 255 :: rest := by
    rw [← hh, List.drop_left]
  refine ⟨_, by rw [h0]; exact h1, hlen, by rw [← hh, List.take_left], ⟨rest, hdrop⟩, hle, ?_⟩
  intro plen code fuel hp1 hp2 hf
  have hov : Spec.overload is = 0 := overload_plain is (fun i hi => (hok i hi).2)
  have hL : Spec.Layout (Spec.header type ++ (Spec.enc is ++ 255 :: rest)) plen is [] [] :=
    { size := hlen, plen_le := hp2, area := ⟨rest, hdrop⟩, inside := by omega
      file := by rw [hov]; intro hx; exact absurd (by decide) hx
      sname := by rw [hov]; intro hx; exact absurd (by decide) hx
      ok := ⟨fun i hi => (hok i hi).1, by simp, by simp⟩ }
  have hfo := getOption_first_occurrence _ plen is [] [] hL code fuel hf
  have hall : Spec.all is [] [] = is := by simp [Spec.all]
  rw [hall] at hfo
  cases hv : Spec.value code is with
  | none => rw [hv] at hfo; exact hfo
  | some d =>
    rw [hv] at hfo
    obtain ⟨i, a, _, _, b, c⟩ := hfo
    exact ⟨i, a, b, c⟩

/-- A REQUEST with a requested address, a vendor string too long to fit after a filler, and a
mistyped option: hypotheses of `build_options` hold, the last two requests are dropped. -/
example :
    let reqs : List (Spec.Add × List Byte) :=
      [(.uint 4 50 0xc0a80102, List.replicate 6 7), (.block 43 (List.replicate 255 1), List.replicate 6 0),
       (.block 60 (List.replicate 40 2), List.replicate 6 0), (.uint 2 50 3, List.replicate 6 7)]
    (∀ a ∈ reqs, a.1.Ok ∧ a.2.length = 6) ∧
    (reqs.map Prod.fst).foldl Spec.add [.opt 53 [3]] =
      [.opt 53 [3], .opt 50 [192, 168, 1, 2], .opt 43 (List.replicate 255 1)] ∧
    (initHeader .le (List.replicate 6 9) 3 >>= fun p => reqs.foldlM (request .le) p).map
      (fun p => (p.drop 240).take 11) = some [53, 1, 3, 50, 4, 192, 168, 1, 2, 43, 255] := by
  refine ⟨?_, by decide +kernel, by decide +kernel⟩
  intro a ha
  simp only [List.mem_cons, List.not_mem_nil, or_false] at ha
  rcases ha with rfl | rfl | rfl | rfl <;> unfold Spec.Add.Ok <;> decide +kernel

end Verif.Options
