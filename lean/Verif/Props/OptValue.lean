import Verif.Proof.OptValue
import Verif.Props.Options
/-!
# C72: option values handed to the user of the DHCP client
-/
namespace Verif.OptValue
open Verif.C Verif.Options

/-- **C72 (memory).** Whatever the type and the length of a received option, its conversion to text
stays inside the allocated block and inside the packet, as long as the option itself does. -/
theorem option_text_in_bounds (h : Wire.Host) (junk : Nat → Byte) (pkt : List Byte) (opt : Nat) (ty : OType)
    (l : Byte) (h0 : 1 ≤ opt) (hl : pkt[opt - 1]? = some l) (hin : opt + l.toNat ≤ pkt.length) :
    ∃ r, valueString h junk pkt opt ty = some r := by
  unfold valueString
  rw [if_neg (by omega), hl]
  dsimp only
  split
  · exact ⟨_, rfl⟩
  · rename_i ht
    obtain ⟨b, hb, _⟩ := valueLoop_safe h ty pkt (by intro e; subst e; exact ht rfl) (l.toNat + 1)
      (fresh junk (textLen ty * (l.toNat / typeLen ty) + 1)) 0 opt l.toNat (by rw [length_fresh]; omega) hin
    exact ⟨some b, by simp only [hb, Option.bind_eq_bind, Option.bind_some]⟩

/-- Eleven bytes as a list of addresses: two texts and a blank, in 35 bytes. -/
example : ∃ r, valueString .le (fun _ => 7) [0, 11, 10, 0, 0, 1, 255, 255, 255, 255, 1, 2, 3] 2 .ip = some (some r) ∧
    r.length = 35 ∧ r.take 26 = bytes "10.0.0.1 255.255.255.255 " ++ [0] := by
  refine ⟨_, rfl, ?_⟩
  decide +kernel

/-- A found option has the announced length. -/
theorem value_length {code : Nat} {is : List Spec.Item} {d : List Byte} (hok : ∀ i ∈ is, i.Ok)
    (h : Options.Spec.value code is = some d) : d.length < 256 := by
  induction is with
  | nil => cases h
  | cons it t ih =>
    cases it with
    | pad => exact ih (fun i hi => hok i (by simp [hi])) h
    | opt c e =>
      simp only [Options.Spec.value] at h
      split at h
      · cases h
        exact (hok (.opt c d) (by simp)).2.2.1
      · exact ih (fun i hi => hok i (by simp [hi])) h

/-- Looking up a code in a legal packet. -/
theorem lookup_legal {pkt : List Byte} {plen : Nat} {os fs ss : List Spec.Item}
    (hL : Spec.Layout pkt plen os fs ss) (code : Nat) :
    match Options.Spec.value code (Options.Spec.all os fs ss) with
    | none => getOption pkt plen code 2000 = .null
    | some d => ∃ i l rest, getOption pkt plen code 2000 = .ptr i ∧ 1 ≤ i ∧ pkt[i - 1]? = some l ∧
        l.toNat = d.length ∧ i + d.length ≤ pkt.length ∧ pkt.drop i = d ++ rest := by
  have hfo := getOption_first_occurrence pkt plen os fs ss hL code 2000 (by decide)
  cases hv : Options.Spec.value code (Options.Spec.all os fs ss) with
  | none => rw [hv] at hfo; exact hfo
  | some d =>
    rw [hv] at hfo
    obtain ⟨i, hg, hi, hin, hlen, hdat⟩ := hfo
    have hdl : d.length < 256 := by
      refine value_length (is := Options.Spec.all os fs ss) ?_ hv
      intro j hj
      unfold Options.Spec.all at hj
      simp only [List.mem_append] at hj
      rcases hj with (hj | hj) | hj
      · exact hL.ok.1 j hj
      · split at hj
        · exact (hL.ok.2.1 j hj).1
        · cases hj
      · split at hj
        · exact (hL.ok.2.2 j hj).1
        · cases hj
    refine ⟨i, d.length.toUInt8, (pkt.drop i).drop d.length, hg, hi, hlen, ?_, ?_, ?_⟩
    · rw [Nat.toUInt8, UInt8.toNat_ofNat']; omega
    · have := hL.plen_le; have := hL.size; omega
    · conv => lhs; rw [← List.take_append_drop d.length (pkt.drop i), hdat]

theorem codeType_addr : ∀ c ∈ Spec.addrCodes, codeType c = .ip := by decide
theorem codeType_text : ∀ c ∈ Spec.textCodes, codeType c = .string := by decide

/-- **C72 (partial).** In a legal packet an option holding addresses is reported as the list of the
dotted texts of its addresses, in order, and an option the packet lacks is reported as absent.
Missing for the full C72: options whose length is no positive multiple of four (below). -/
theorem addresses_reported_partial (h : Wire.Host) (junk : Nat → Byte) (pkt : List Byte) (plen : Nat)
    (os fs ss : List Spec.Item) (hL : Spec.Layout pkt plen os fs ss) (code : Nat) (hc : code ∈ Spec.addrCodes) :
    (Options.Spec.value code (Options.Spec.all os fs ss) = none → optValues h junk pkt plen code = some none) ∧
    ∀ l, l ≠ [] → Options.Spec.value code (Options.Spec.all os fs ss) = some (Spec.addrBytes l) →
      optValues h junk pkt plen code = some (some (l.map Spec.dotted)) := by
  have hk := lookup_legal hL code
  constructor
  · intro hv
    rw [hv] at hk
    simp only at hk
    unfold optValues
    rw [hk]
  · intro l hne hv
    rw [hv] at hk
    obtain ⟨i, n, rest, hg, hi, hn, hnl, hin, hd⟩ := hk
    have hlen : (Spec.addrBytes l).length = 4 * l.length := by
      clear hv hnl hin hd hne
      induction l with
      | nil => rfl
      | cons a t ih =>
        have : (Spec.addrBytes (a :: t)).length = 4 + (Spec.addrBytes t).length := by
          simp [Spec.addrBytes]; omega
        rw [this, ih, List.length_cons]; omega
    have hn4 : n.toNat = 4 * l.length := by rw [hnl, hlen]
    unfold optValues
    rw [hg]
    simp only [codeType_addr code hc, valueString]
    rw [if_neg (by omega), hn]
    simp only [hn4, typeLen, textLen, Nat.mul_div_cancel_left l.length (show 0 < 4 by decide)]
    rw [if_neg (by decide)]
    obtain ⟨b, tail, hb, hbe⟩ := valueLoop_addrs h pkt l (4 * l.length + 1)
      (fresh junk (17 * l.length + 1)) 0 i rest hne (by omega) (by rw [length_fresh]; omega) hd
    have h0 : ∀ w ∈ l.map Spec.dotted, (0 : Byte) ∉ w := by
      intro w hw
      obtain ⟨a, _, rfl⟩ := List.mem_map.1 hw
      exact dotted_clean a 0 (by decide)
    have hsp : ∀ w ∈ l.map Spec.dotted, ch ' ' ∉ w := by
      intro w hw
      obtain ⟨a, _, rfl⟩ := List.mem_map.1 hw
      exact dotted_clean a (ch ' ') (by decide)
    simp only [hb, Option.bind_eq_bind, Option.bind_some, valueList]
    rw [hbe, List.take_zero, List.nil_append, cstr_at _ _ (joined_clean _ h0)]
    simp only [Option.bind_some]
    rw [if_neg (by decide), cut_joined _ (by simpa using hne) hsp]

/-- A packet with two DNS servers and a netmask (used in examples). -/
def sampleAck : List Byte :=
  List.replicate 240 0 ++ [53, 1, 5, 1, 4, 255, 255, 255, 0, 6, 8, 8, 8, 8, 8, 192, 168, 50, 1, 15, 3, 97, 98, 99, 255] ++
  List.replicate 363 0

theorem sampleAck_layout : Spec.Layout sampleAck 300
    [.opt 53 [5], .opt 1 [255, 255, 255, 0], .opt 6 [8, 8, 8, 8, 192, 168, 50, 1], .opt 15 [97, 98, 99]] [] [] where
  size := by decide +kernel
  plen_le := by decide
  area := ⟨List.replicate 363 0, by decide +kernel⟩
  inside := by decide
  file := fun h => by simp [Spec.overload] at h
  sname := fun h => by simp [Spec.overload] at h
  ok := by simp [Spec.Item.Ok]

example : (6 : Nat) ∈ Spec.addrCodes ∧ optValues .le (fun _ => 200) sampleAck 300 6 =
      some (some [bytes "8.8.8.8", bytes "192.168.50.1"]) ∧
    optValues .le (fun _ => 200) sampleAck 300 3 = some none := by decide +kernel

/-- **C72 (text).** In a legal packet a non-empty text option is reported as one string: its bytes up
to the first NUL. -/
theorem text_reported_partial (h : Wire.Host) (junk : Nat → Byte) (pkt : List Byte) (plen : Nat)
    (os fs ss : List Spec.Item) (hL : Spec.Layout pkt plen os fs ss) (code : Nat) (hc : code ∈ Spec.textCodes)
    (d : List Byte) (hne : d ≠ []) (hv : Options.Spec.value code (Options.Spec.all os fs ss) = some d) :
    optValues h junk pkt plen code = some (some [d.takeWhile (· ≠ 0)]) := by
  have hk := lookup_legal hL code
  rw [hv] at hk
  obtain ⟨i, n, rest, hg, hi, hn, hnl, hin, hd⟩ := hk
  have hpos : 0 < d.length := List.length_pos_iff.2 hne
  unfold optValues
  rw [hg]
  simp only [codeType_text code hc, valueString]
  rw [if_neg (by omega), hn]
  simp only [hnl, typeLen, textLen, Nat.div_one, Nat.one_mul]
  rw [if_neg (by decide)]
  unfold valueLoop
  simp only [typeLen]
  have hrd : rd pkt i d.length = some d := by
    rw [rd_some hin, hd]
    simp
  obtain ⟨b, hb, -⟩ := wr_ex (b := fresh junk (d.length + 1)) (d := d) (i := 0) (by rw [length_fresh]; omega)
  have hbl := length_of_wr hb
  rw [length_fresh] at hbl
  obtain ⟨c, hcw, -⟩ := wr_ex (b := b) (d := [0]) (i := 0 + d.length) (by simp only [List.length_cons, List.length_nil]; omega)
  have hce : c = d ++ [0] := by
    have h1 := take_wr hcw
    have h2 := take_wr hb
    have hcl := length_of_wr hcw
    rw [List.take_of_length_le (by simp only [List.length_cons, List.length_nil]; omega)] at h1
    rw [h1, h2]; simp
  rw [if_neg (by omega)]
  simp only [if_true, hrd, hb, hcw, Option.bind_eq_bind, Option.bind_some, valueList, hce]
  have : cstr (d ++ [0]) = some (d.takeWhile (· ≠ 0)) := by
    unfold cstr
    rw [if_pos (by simp)]
    congr 1
    clear hce hcw hb hrd hd hin hnl hv hne hpos hbl
    induction d with
    | nil => simp
    | cons a t ih =>
      by_cases ha : a = 0
      · subst ha; simp
      · simp only [List.cons_append]
        rw [List.takeWhile_cons_of_pos (by simpa using ha), List.takeWhile_cons_of_pos (by simpa using ha), ih]
  rw [this]
  simp

example : (15 : Nat) ∈ Spec.textCodes ∧
    optValues .le (fun _ => 200) sampleAck 300 15 = some (some [bytes "abc"]) := by decide +kernel

/-- **C72 (partial).** A whole ACK: after it the value of every requested address option is the list of
its addresses in the packet, resp. absent, whatever it was before; other codes keep their value. -/
theorem request_values_partial (h : Wire.Host) (junk : Nat → Nat → Byte) (pkt : List Byte) (plen : Nat)
    (os fs ss : List Spec.Item) (hL : Spec.Layout pkt plen os fs ss) (codes : List Nat)
    (hcs : ∀ c ∈ codes, c ∈ Spec.addrCodes) (f : Nat → List (Byte × Byte × Byte × Byte))
    (hf : ∀ c ∈ codes, Options.Spec.value c (Options.Spec.all os fs ss) = none ∨
      (f c ≠ [] ∧ Options.Spec.value c (Options.Spec.all os fs ss) = some (Spec.addrBytes (f c))))
    (v : Nat → Option (List (List Byte))) :
    ∃ v', getRequest h junk pkt plen codes v = some v' ∧
      (∀ c ∈ codes, v' c = (Options.Spec.value c (Options.Spec.all os fs ss)).map (fun _ => (f c).map Spec.dotted)) ∧
      ∀ c, c ∉ codes → v' c = v c := by
  induction codes generalizing v with
  | nil => exact ⟨v, rfl, by simp, by simp⟩
  | cons c cs ih =>
    have hval : optValues h (junk c) pkt plen c =
        some ((Options.Spec.value c (Options.Spec.all os fs ss)).map (fun _ => (f c).map Spec.dotted)) := by
      obtain ⟨h1, h2⟩ := addresses_reported_partial h (junk c) pkt plen os fs ss hL c (hcs c (by simp))
      rcases hf c (by simp) with hv | ⟨hne, hv⟩
      · rw [h1 hv, hv]; rfl
      · rw [h2 _ hne hv, hv]; rfl
    obtain ⟨v', hg, h1, h2⟩ := ih (fun d hd => hcs d (by simp [hd])) (fun d hd => hf d (by simp [hd]))
      (fun d => if d = c then (Options.Spec.value c (Options.Spec.all os fs ss)).map (fun _ => (f c).map Spec.dotted) else v d)
    refine ⟨v', by simp only [getRequest, hval, Option.bind_eq_bind, Option.bind_some]; exact hg, ?_, ?_⟩
    · intro d hd
      by_cases hdc : d ∈ cs
      · exact h1 d hdc
      · have : d = c := by simpa [hdc] using hd
        subst this
        rw [h2 d hdc, if_pos rfl]
    · intro d hd
      simp only [List.mem_cons, not_or] at hd
      rw [h2 d hd.2, if_neg hd.1]

example : (getRequest .be (fun _ _ => 1) sampleAck 300 [3, 6, 1] (fun _ => some [])).map
      (fun v => [v 3, v 6, v 1, v 9]) =
    some [none, some [bytes "8.8.8.8", bytes "192.168.50.1"], some [bytes "255.255.255.0"], some []] := by decide +kernel

/-- **C72 fails** for an address option shorter than four bytes: nothing is written into the block, and
what is in it by chance is taken for a string; without a NUL in the block the read leaves it. -/
theorem short_option_undefined : ∃ (pkt : List Byte) (os : List Spec.Item), Spec.Layout pkt 300 os [] [] ∧
    Options.Spec.value 1 os = some [255, 255, 255] ∧
    optValues .le (fun _ => 7) pkt 300 1 = none ∧ optValues .le (fun _ => 0) pkt 300 1 = some (some [[]]) := by
  refine ⟨List.replicate 240 0 ++ [53, 1, 5, 1, 3, 255, 255, 255, 255] ++ List.replicate 379 0,
    [.opt 53 [5], .opt 1 [255, 255, 255]], ?_, by decide, by decide +kernel, by decide +kernel⟩
  exact {
    size := by decide +kernel
    plen_le := by decide
    area := ⟨List.replicate 379 0, by decide +kernel⟩
    inside := by decide
    file := fun h => by simp [Spec.overload] at h
    sname := fun h => by simp [Spec.overload] at h
    ok := by simp [Spec.Item.Ok] }

/-- **C72 fails** for an address option with bytes left over: an empty address is reported behind the
real one. -/
theorem odd_option_extra_value : ∃ (pkt : List Byte) (os : List Spec.Item), Spec.Layout pkt 300 os [] [] ∧
    Options.Spec.value 3 os = some [10, 0, 0, 1, 9] ∧
    optValues .le (fun _ => 7) pkt 300 3 = some (some [bytes "10.0.0.1", []]) := by
  refine ⟨List.replicate 240 0 ++ [53, 1, 5, 3, 5, 10, 0, 0, 1, 9, 255] ++ List.replicate 377 0,
    [.opt 53 [5], .opt 3 [10, 0, 0, 1, 9]], ?_, by decide, ?_⟩
  · exact {
      size := by decide +kernel
      plen_le := by decide
      area := ⟨List.replicate 377 0, by decide +kernel⟩
      inside := by decide
      file := fun h => by simp [Spec.overload] at h
      sname := fun h => by simp [Spec.overload] at h
      ok := by simp [Spec.Item.Ok] }
  · decide +kernel

end Verif.OptValue
