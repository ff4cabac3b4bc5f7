import Verif.Model.Options
import Verif.Spec.Options
import Verif.Proof.Wire
/-!
# Helper lemmas for DHCP options
-/
namespace Verif.Options
open Verif.C

theorem loop_mono {pkt : List Byte} {plen code : Nat} {f : Nat} {s : St} {r : Res}
    (h : loop pkt plen code f s = r) (hr : r ≠ .spin) (k : Nat) : loop pkt plen code (f + k) s = r := by
  induction f generalizing s with
  | zero => simp [loop] at h; exact absurd h.symm hr
  | succ f ih =>
    rw [show f + 1 + k = (f + k) + 1 by omega]
    simp only [loop] at h ⊢
    split at h
    · exact h
    · exact ih h

theorem loop_inr {pkt : List Byte} {plen code f : Nat} {s s' : St} (h : step pkt plen code s = .inr s') :
    loop pkt plen code (f + 1) s = loop pkt plen code f s' := by rw [loop, h]

theorem loop_inl {pkt : List Byte} {plen code f : Nat} {s : St} {r : Res} (h : step pkt plen code s = .inl r) :
    loop pkt plen code (f + 1) s = r := by rw [loop, h]

theorem at_drop {pkt : List Byte} {p : Nat} {l : List Byte} (h : pkt.drop p = l) (k : Nat) :
    pkt[p + k]? = l[k]? := by rw [← h, List.getElem?_drop]

theorem drop_more {pkt : List Byte} {p : Nat} {a b : List Byte} (h : pkt.drop p = a ++ b) :
    pkt.drop (p + a.length) = b := by
  rw [← List.drop_drop, h, List.drop_left]

/-- A legal element that does not match is stepped over. -/
theorem step_item {pkt : List Byte} {plen code : Nat} {p : Nat} {rem : Int} {ov : Byte} {it : Spec.Item}
    {t : List Byte} (hd : pkt.drop p = it.bytes ++ t) (hok : it.Ok)
    (hrem : (it.bytes.length : Int) ≤ rem) (hin : p + it.bytes.length < plen) (hv : Spec.value code [it] = none) :
    step pkt plen code ⟨p, rem, ov⟩ =
      .inr ⟨p + it.bytes.length, rem - (it.bytes.length : Int), ov ||| Spec.overload [it]⟩ := by
  have h0 := at_drop hd 0
  have h1 := at_drop hd 1
  have h2 := at_drop hd 2
  cases it with
  | pad =>
    simp only [Spec.Item.bytes, List.length_cons, List.length_nil, List.cons_append] at *
    simp only [Nat.add_zero, List.getElem?_cons_zero] at h0
    unfold step
    rw [if_neg (by show ¬ (rem ≤ 0 ∧ _); omega)]
    simp only [h0, if_true]
    rw [if_neg (by show ¬ rem ≤ _; omega)]
    simp [Spec.overload]
  | opt c d =>
    obtain ⟨hc0, hc1, hl, hov⟩ := hok
    simp only [Spec.Item.bytes, List.length_cons, List.cons_append] at *
    simp only [Nat.add_zero, List.getElem?_cons_zero, List.getElem?_cons_succ] at h0 h1 h2
    have hln : (d.length.toUInt8).toNat = d.length := by simp; omega
    have hcc : c.toNat ≠ code := by
      intro e; simp [Spec.value, e] at hv
    unfold step
    rw [if_neg (by show ¬ (rem ≤ 0 ∧ _); omega)]
    simp only [h0, if_neg hc0, if_neg hc1]
    rw [if_neg (by omega)]
    simp only [h1, hln]
    rw [if_neg (by omega), if_neg (by omega), if_neg hcc]
    by_cases h52 : c = 52
    · subst h52
      have hd1 := hov rfl
      obtain ⟨v, rfl⟩ : ∃ v, d = [v] := by
        match d, hd1 with
        | [v], _ => exact ⟨v, rfl⟩
      simp only [List.cons_append, List.getElem?_cons_zero] at h2
      simp only [h2, if_true, List.length_cons, List.length_nil, Spec.overload]
      simp
    · rw [if_neg h52]
      have : Spec.overload [.opt c d] = 0 := by
        cases d <;> simp [Spec.overload, h52]
      rw [this]
      congr 2
      · omega
      · omega
      · simp

/-- A matching legal element inside the packet is returned. -/
theorem step_found {pkt : List Byte} {plen : Nat} {p : Nat} {rem : Int} {ov : Byte} {c : Byte} {d : List Byte}
    {t : List Byte} (hd : pkt.drop p = (Spec.Item.opt c d).bytes ++ t) (hok : (Spec.Item.opt c d).Ok)
    (hrem : ((Spec.Item.opt c d).bytes.length : Int) ≤ rem) (hin : p + (Spec.Item.opt c d).bytes.length < plen) :
    step pkt plen c.toNat ⟨p, rem, ov⟩ = .inl (.ptr (p + 2)) := by
  have h0 := at_drop hd 0
  have h1 := at_drop hd 1
  obtain ⟨hc0, hc1, hl, hov⟩ := hok
  simp only [Spec.Item.bytes, List.length_cons, List.cons_append] at *
  simp only [Nat.add_zero, List.getElem?_cons_zero, List.getElem?_cons_succ] at h0 h1
  have hln : (d.length.toUInt8).toNat = d.length := by simp; omega
  unfold step
  rw [if_neg (by show ¬ (rem ≤ 0 ∧ _); omega)]
  simp only [h0, if_neg hc0, if_neg hc1]
  rw [if_neg (by omega)]
  simp only [h1, hln]
  rw [if_neg (by omega), if_neg (by omega)]
  simp only [if_true]
  rw [if_neg (by omega)]

theorem value_cons (code : Nat) (it : Spec.Item) (t : List Spec.Item) :
    Spec.value code (it :: t) = (Spec.value code [it]).or (Spec.value code t) := by
  cases it with
  | pad => simp [Spec.value]
  | opt c d => simp only [Spec.value]; split <;> simp

theorem value_append (code : Nat) (a b : List Spec.Item) :
    Spec.value code (a ++ b) = (Spec.value code a).or (Spec.value code b) := by
  induction a with
  | nil => simp [Spec.value]
  | cons it t ih => rw [List.cons_append, value_cons, ih, value_cons code it t, Option.or_assoc]

theorem overload_cons (it : Spec.Item) (t : List Spec.Item) :
    Spec.overload (it :: t) = Spec.overload [it] ||| Spec.overload t := by
  cases it with
  | pad => simp [Spec.overload]
  | opt c d => cases d <;> simp only [Spec.overload] <;> first | (split <;> simp) | simp

theorem enc_length_pos (it : Spec.Item) : 1 ≤ it.bytes.length := by
  cases it <;> simp [Spec.Item.bytes]

theorem length_le_enc (is : List Spec.Item) : is.length ≤ (Spec.enc is).length := by
  induction is with
  | nil => simp
  | cons it t ih =>
    have := enc_length_pos it
    simp only [Spec.enc, List.length_append, List.length_cons]; omega

/-- What a hit looks like: a pointer to data `d`, preceded by its length. -/
def Hit (pkt : List Byte) (plen : Nat) (d : List Byte) (r : Res) : Prop :=
  ∃ i, r = .ptr i ∧ 1 ≤ i ∧ i + d.length < plen ∧ pkt[i - 1]? = some d.length.toUInt8 ∧ (pkt.drop i).take d.length = d

/-- Walking over a legal list of elements closed by END. -/
theorem loop_items {pkt : List Byte} {plen code : Nat} (is : List Spec.Item) {p : Nat} {rem : Int} {ov : Byte}
    {t : List Byte} (hd : pkt.drop p = Spec.enc is ++ t) (hok : ∀ i ∈ is, i.Ok)
    (hrem : ((Spec.enc is).length : Int) ≤ rem) (hin : p + (Spec.enc is).length < plen) :
    (∀ d, Spec.value code is = some d → ∀ f, is.length ≤ f → Hit pkt plen d (loop pkt plen code f ⟨p, rem, ov⟩)) ∧
    (Spec.value code is = none → ∀ f, loop pkt plen code (is.length + f) ⟨p, rem, ov⟩ =
      loop pkt plen code f ⟨p + (Spec.enc is).length, rem - ((Spec.enc is).length : Int), ov ||| Spec.overload is⟩) := by
  induction is generalizing p rem ov with
  | nil =>
    refine ⟨fun d hd => by simp [Spec.value] at hd, fun _ f => ?_⟩
    simp [Spec.enc, Spec.overload]
  | cons it is ih =>
    simp only [Spec.enc, List.append_assoc, List.length_append] at hd hrem hin
    have hok1 : it.Ok := hok it (by simp)
    have hdt := drop_more hd
    have hih := fun ov' => @ih (p + it.bytes.length) (rem - (it.bytes.length : Int)) ov' hdt
      (fun i hi => hok i (by simp [hi])) (by omega) (by omega)
    by_cases hv : Spec.value code [it] = none
    · have hs := step_item (ov := ov) (plen := plen) (rem := rem) hd hok1 (by omega) (by omega) hv
      rw [value_cons, hv, Option.none_or]
      refine ⟨fun d hd f hf => ?_, fun hn f => ?_⟩
      · simp only [List.length_cons] at hf
        obtain ⟨f', rfl⟩ : ∃ f', f = f' + 1 := ⟨f - 1, by omega⟩
        rw [loop_inr hs]
        exact (hih _).1 d hd f' (by omega)
      · rw [show (it :: is).length + f = is.length + f + 1 by simp only [List.length_cons]; omega, loop_inr hs,
          (hih _).2 hn f]
        congr 2
        · simp only [Spec.enc, List.length_append]; omega
        · simp only [Spec.enc, List.length_append]; omega
        · rw [overload_cons it is, UInt8.or_assoc]
    · cases it with
      | pad => simp [Spec.value] at hv
      | opt c d =>
        have hc : c.toNat = code := by
          simp only [Spec.value] at hv
          split at hv
          · assumption
          · simp at hv
        subst hc
        have hs := step_found (plen := plen) (rem := rem) (ov := ov) hd hok1 (by omega) (by omega)
        have hvv : Spec.value c.toNat (.opt c d :: is) = some d := by simp [Spec.value]
        rw [hvv]
        refine ⟨fun d' hd' f hf => ?_, fun h => by simp at h⟩
        simp only [Option.some.injEq] at hd'
        subst hd'
        simp only [List.length_cons] at hf
        obtain ⟨f', rfl⟩ : ∃ f', f = f' + 1 := ⟨f - 1, by omega⟩
        rw [loop_inl hs]
        have h1 := at_drop hd 1
        simp only [Spec.Item.bytes, List.cons_append, List.getElem?_cons_succ, List.getElem?_cons_zero] at h1
        refine ⟨p + 2, rfl, by omega, ?_, h1, ?_⟩
        · simp only [Spec.Item.bytes, List.length_cons] at hin; omega
        · rw [← List.drop_drop, hd]
          simp [Spec.Item.bytes]

theorem step_end {pkt : List Byte} {plen code p : Nat} {rem : Int} {ov : Byte} {t : List Byte}
    (hd : pkt.drop p = 255 :: t) (hrem : 0 < rem) :
    step pkt plen code ⟨p, rem, ov⟩ =
      if ov &&& 1 ≠ 0 then .inr ⟨108, 128, ov &&& ~~~ 1⟩
      else if ov &&& 2 ≠ 0 then .inr ⟨44, 64, ov &&& ~~~ 2⟩
      else .inl .null := by
  have h0 := at_drop hd 0
  simp only [Nat.add_zero, List.getElem?_cons_zero] at h0
  unfold step
  rw [if_neg (by show ¬ (rem ≤ 0 ∧ _); omega)]
  simp only [h0]
  rw [if_neg (by decide)]
  simp

theorem overload_plain (is : List Spec.Item) (h : ∀ i ∈ is, i.Plain) : Spec.overload is = 0 := by
  induction is with
  | nil => rfl
  | cons it t ih =>
    rw [overload_cons, ih (fun i hi => h i (by simp [hi]))]
    have := h it (by simp)
    cases it with
    | pad => simp [Spec.overload]
    | opt c d => cases d <;> simp_all [Spec.overload, Spec.Item.Plain]

/-- Behind the announced end of the packet nothing is found, whatever the memory holds. -/
theorem loop_past {pkt : List Byte} {plen code : Nat} (hl : pkt.length = 628) (n p : Nat) (hp : p + n = 628)
    (hpast : plen ≤ p + 1) (hplen : plen ≤ 628) : ∀ f, n + 1 ≤ f → loop pkt plen code f ⟨p, (n : Int), 0⟩ = .null := by
  induction n generalizing p with
  | zero =>
    intro f hf
    obtain ⟨f', rfl⟩ : ∃ f', f = f' + 1 := ⟨f - 1, by omega⟩
    apply loop_inl
    unfold step
    rw [if_pos]
    show ((0 : Nat) : Int) ≤ 0 ∧ (p : Int) > _
    omega
  | succ n ih =>
    intro f hf
    obtain ⟨f', rfl⟩ : ∃ f', f = f' + 1 := ⟨f - 1, by omega⟩
    have hlt : p < pkt.length := by omega
    have hg : pkt[p]? = some pkt[p] := List.getElem?_eq_getElem hlt
    generalize pkt[p] = c at hg
    by_cases hc0 : c = 0
    · subst hc0
      rw [loop_inr (s' := ⟨p + 1, (n : Int), 0⟩)]
      · exact ih (p + 1) (by omega) (by omega) f' (by omega)
      · unfold step
        rw [if_neg (by show ¬ (((n + 1 : Nat) : Int) ≤ 0 ∧ _); omega)]
        simp only [hg, if_true]
        rw [if_neg (by show ¬ ((n + 1 : Nat) : Int) ≤ _; omega)]
        congr 2
        show ((n + 1 : Nat) : Int) - 1 = n
        omega
    · apply loop_inl
      unfold step
      rw [if_neg (by show ¬ (((n + 1 : Nat) : Int) ≤ 0 ∧ _); omega)]
      simp only [hg, if_neg hc0]
      by_cases hc1 : c = 255
      · simp [hc1]
      · rw [if_neg hc1, if_pos (by omega)]

/-! ### Building -/

theorem enc_append (a b : List Spec.Item) : Spec.enc (a ++ b) = Spec.enc a ++ Spec.enc b := by
  induction a with
  | nil => rfl
  | cons it t ih => simp [Spec.enc, ih]

theorem endOption_enc {area : List Byte} (is : List Spec.Item) {i : Nat} {rest : List Byte}
    (hd : area.drop i = Spec.enc is ++ 255 :: rest) (hok : ∀ it ∈ is, it.Ok) :
    ∀ fuel, is.length < fuel → endOption area fuel i = some (i + (Spec.enc is).length) := by
  induction is generalizing i with
  | nil =>
    intro fuel hf
    obtain ⟨f, rfl⟩ : ∃ f, fuel = f + 1 := ⟨fuel - 1, by omega⟩
    have h0 := at_drop hd 0
    simp only [Spec.enc, List.nil_append, Nat.add_zero, List.getElem?_cons_zero] at h0
    simp [endOption, h0, Spec.enc]
  | cons it is ih =>
    intro fuel hf
    simp only [List.length_cons] at hf
    obtain ⟨f, rfl⟩ : ∃ f, fuel = f + 1 := ⟨fuel - 1, by omega⟩
    simp only [Spec.enc, List.append_assoc] at hd
    have h0 := at_drop hd 0
    have h1 := at_drop hd 1
    have hn := ih (drop_more hd) (fun j hj => hok j (by simp [hj])) f (by omega)
    have hi := hok it (by simp)
    cases it with
    | pad =>
      simp only [Spec.Item.bytes, List.cons_append, Nat.add_zero, List.getElem?_cons_zero, List.length_cons,
        List.length_nil, Nat.zero_add] at h0 hn
      simp only [endOption, h0]
      rw [if_neg (by decide), if_neg (by decide), hn]
      simp only [Spec.enc, Spec.Item.bytes, List.length_append, List.length_cons, List.length_nil]
      congr 1; omega
    | opt c d =>
      obtain ⟨hc0, hc1, hl, _⟩ := hi
      simp only [Spec.Item.bytes, List.cons_append, Nat.add_zero, List.getElem?_cons_zero, List.getElem?_cons_succ,
        List.length_cons] at h0 h1 hn
      have hln : (d.length.toUInt8).toNat = d.length := by simp; omega
      simp only [endOption, h0, h1, hln]
      rw [if_neg hc1, if_pos hc0, show i + (d.length + 2 - 1) + 1 = i + (d.length + 1 + 1) by omega, hn]
      simp only [Spec.enc, Spec.Item.bytes, List.length_append, List.length_cons]
      congr 1; omega

theorem wr_mid {α : Type} (a b c d : List α) (hl : d.length = b.length) :
    wr (a ++ (b ++ c)) a.length d = some (a ++ (d ++ c)) := by
  rw [wr_some (by simp [hl])]
  simp [hl]

theorem addBinary_eq {hdr rest extra : List Byte} {is : List Spec.Item} {c : Byte} {d : List Byte}
    (hh : hdr.length = 240) (hok : ∀ it ∈ is, it.Ok) (hl : (Spec.enc is).length + 1 + rest.length = 388)
    (hd : d.length < 256) :
    addBinary (hdr ++ (Spec.enc is ++ 255 :: rest)) ((Spec.Item.opt c d).bytes ++ extra) =
      if (Spec.enc is).length + (d.length + 2) + 1 < 308 then
        some (hdr ++ (Spec.enc (is ++ [.opt c d]) ++ 255 :: rest.drop (d.length + 2)))
      else some (hdr ++ (Spec.enc is ++ 255 :: rest)) := by
  have hln : (d.length.toUInt8).toNat = d.length := by simp; omega
  have hcnt := length_le_enc is
  have hrd : rd (hdr ++ (Spec.enc is ++ 255 :: rest)) 240 388 = some (Spec.enc is ++ 255 :: rest) := by
    rw [rd_some (by simp only [List.length_append, List.length_cons]; omega), ← hh, List.drop_left,
      List.take_of_length_le (by simp only [List.length_append, List.length_cons]; omega)]
  have hend : endOption (Spec.enc is ++ 255 :: rest) 389 0 = some (Spec.enc is).length := by
    rw [endOption_enc is (i := 0) (rest := rest) (by simp) hok 389 (by omega), Nat.zero_add]
  unfold addBinary
  rw [hrd]
  simp only [Option.bind_eq_bind, Option.bind_some]
  rw [hend]
  simp only [Option.bind_some, Spec.Item.bytes, List.cons_append, List.getElem?_cons_succ, List.getElem?_cons_zero, hln]
  by_cases hfit : (Spec.enc is).length + (d.length + 2) + 1 < 308
  · rw [if_neg (by omega), if_pos hfit]
    have hr : rd (c :: d.length.toUInt8 :: (d ++ extra)) 0 (2 + d.length) = some (c :: d.length.toUInt8 :: d) := by
      rw [rd_some (by simp only [List.length_append, List.length_cons]; omega), List.drop_zero,
        show 2 + d.length = d.length + 1 + 1 by omega]
      simp only [List.take_succ_cons, List.take_left]
    rw [hr]
    simp only [Option.bind_some]
    obtain ⟨r1, r2, hr12, hr1⟩ : ∃ r1 r2, 255 :: rest = r1 ++ r2 ∧ r1.length = d.length + 2 :=
      ⟨(255 :: rest).take (d.length + 2), (255 :: rest).drop (d.length + 2), (List.take_append_drop _ _).symm,
        by simp; omega⟩
    have hr2 : r2 = (255 :: rest).drop (d.length + 2) := by
      rw [hr12, ← hr1, List.drop_left]
    have hr2l : r2.length = rest.length + 1 - (d.length + 2) := by rw [hr2]; simp
    have w1 := wr_mid (hdr ++ Spec.enc is) r1 r2 (c :: d.length.toUInt8 :: d) (by simp [hr1])
    rw [List.append_assoc, List.length_append, hh] at w1
    rw [hr12, w1]
    simp only [Option.bind_some]
    obtain ⟨x, r3, rfl⟩ : ∃ x r3, r2 = x :: r3 := by
      cases r2 with
      | nil => simp at hr2l; omega
      | cons x r3 => exact ⟨x, r3, rfl⟩
    have hr3 : r3 = rest.drop (d.length + 2) := by
      have := congrArg (List.drop 1) hr2
      simpa [List.drop_drop] using this
    have w2 := wr_mid (hdr ++ Spec.enc is ++ (c :: d.length.toUInt8 :: d)) [x] r3 [255] rfl
    simp only [List.append_assoc, List.length_append, List.length_cons, hh] at w2
    rw [show 240 + (Spec.enc is).length + (2 + d.length) = 240 + ((Spec.enc is).length + (d.length + 1 + 1)) by omega]
    simp only [List.append_assoc, List.cons_append, List.nil_append] at w2 ⊢
    rw [w2, hr3]
    simp [enc_append, Spec.enc, Spec.Item.bytes]
  · rw [if_pos (by omega), if_neg hfit]

theorem checkOption_iff (code w : Nat) (hc : code < 256) (hw : w = 1 ∨ w = 2 ∨ w = 4) :
    checkOption code w = true ↔ (code, w) ∈ Spec.typed := by
  have h : ∀ w ∈ [1, 2, 4], ∀ code < 256, (checkOption code w = true ↔ (code, w) ∈ Spec.typed) := by decide +kernel
  exact h w (by simpa using hw) code hc

theorem digits_eq (w v : Nat) : Spec.digits w v = (Wire.leBytes w v).reverse := by
  induction w generalizing v with
  | zero => rfl
  | succ w ih =>
    simp only [Spec.digits, Wire.leBytes, List.reverse_cons, ih]
    congr 2
    apply UInt8.toNat_inj.mp
    simp

theorem digits_length (w v : Nat) : (Spec.digits w v).length = w := by
  induction w generalizing v with
  | zero => rfl
  | succ w ih => simp [Spec.digits, ih]

theorem addUint_eq {h : Wire.Host} {junk hdr rest : List Byte} {is : List Spec.Item} {w code v : Nat}
    (hj : junk.length = 6) (hh : hdr.length = 240) (hok : ∀ it ∈ is, it.Ok)
    (hl : (Spec.enc is).length + 1 + rest.length = 388) (hw : w = 1 ∨ w = 2 ∨ w = 4) (hc : code < 256) :
    addUint h junk (hdr ++ (Spec.enc is ++ 255 :: rest)) w code v =
      if (code, w) ∈ Spec.typed ∧ (Spec.enc is).length + (w + 2) + 1 < 308 then
        some (hdr ++ (Spec.enc (is ++ [.opt code.toUInt8 (Spec.digits w v)]) ++ 255 :: rest.drop (w + 2)))
      else some (hdr ++ (Spec.enc is ++ 255 :: rest)) := by
  unfold addUint
  have hck := checkOption_iff code w hc hw
  by_cases ht : (code, w) ∈ Spec.typed
  · rw [hck.mpr ht]
    simp only [Bool.not_true, Bool.false_eq_true, if_false, Wire.putBe_eq, ← digits_eq, ht, true_and]
    have hdl := digits_length w v
    have hblk : (do
        let o ← wr junk 0 [code.toUInt8]
        let o ← wr o 1 [w.toUInt8]
        wr o 2 (Spec.digits w v)) = some ((Spec.Item.opt code.toUInt8 (Spec.digits w v)).bytes ++ junk.drop (2 + w)) := by
      match junk, hj with
      | [j0, j1, j2, j3, j4, j5], _ =>
        simp only [Spec.Item.bytes, hdl]
        rcases hw with rfl | rfl | rfl <;> simp [wr, hdl]
    have hab := addBinary_eq (hdr := hdr) (rest := rest) (extra := junk.drop (2 + w)) (is := is) (c := code.toUInt8)
      (d := Spec.digits w v) hh hok hl (by omega)
    rw [hdl] at hab
    rw [← hab]
    have : ∀ (f : List Byte → Option (List Byte)),
        (do
          let o ← wr junk 0 [code.toUInt8]
          let o ← wr o 1 [w.toUInt8]
          let o ← wr o 2 (Spec.digits w v)
          f o) = (do
          let o ← (do
            let o ← wr junk 0 [code.toUInt8]
            let o ← wr o 1 [w.toUInt8]
            wr o 2 (Spec.digits w v))
          f o) := by
      intro f
      simp only [Option.bind_eq_bind, Option.bind_assoc]
    rw [this, hblk]
    rfl
  · have : checkOption code w = false := by
      cases hx : checkOption code w with
      | false => rfl
      | true => exact absurd (hck.mp hx) ht
    rw [this]
    simp [ht]

end Verif.Options
