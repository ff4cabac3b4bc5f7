import Verif.Spec.Client6
import Verif.Props.Dhcp6
/-!
# Helper lemmas: DHCPv6 messages sent
-/
namespace Verif.Client6
open Verif.C Verif.Dhcp6.Spec Verif.Client6.Spec

theorem byte_mod (n : Nat) : (n % 256).toUInt8 = n.toUInt8 := by
  apply UInt8.toNat_inj.mp; simp

theorem put16_eq (n : Nat) (h : n < 65536) : put16 n = be2 n := by
  simp only [put16, be2]; rw [Nat.mod_eq_of_lt (show n / 256 < 256 by omega)]

theorem put32_eq (n : Nat) : put32 n = be4 n := rfl

theorem bytes_eq (o : Opt) : o.bytes = put16 o.code ++ put16 o.data.length ++ o.data := rfl

theorem enc_append (a b : List Opt) : enc (a ++ b) = enc a ++ enc b := by
  induction a with
  | nil => rfl
  | cons x t ih => simp [enc, ih]

theorem bytes_length (o : Opt) : o.bytes.length = o.data.length + 4 := by simp [Opt.bytes]

/-- A block that is `m`, then anything, of 1500 bytes. -/
def Blk (b m : List Byte) : Prop := b.length = 1500 ∧ ∃ r, b = m ++ r

theorem blk_wr {b m d : List Byte} (h : Blk b m) (hl : m.length + d.length ≤ 1500) :
    ∃ b', wr b m.length d = some b' ∧ Blk b' (m ++ d) := by
  obtain ⟨h1, r, rfl⟩ := h
  refine ⟨_, wr_some (by simp at *; omega), ?_, ?_⟩
  · simp at *; omega
  · exact ⟨r.drop d.length, by simp⟩

theorem blk_copy {b m : List Byte} (code : Nat) (data : List Byte) (h : Blk b m) (hl : m.length + (4 + data.length) ≤ 1500) :
    ∃ b', copyOption b m.length code data = some b' ∧ Blk b' (m ++ (⟨code, data⟩ : Opt).bytes) := by
  obtain ⟨b1, e1, k1⟩ := blk_wr (d := put16 code ++ put16 data.length) h (by simp [put16]; omega)
  obtain ⟨b2, e2, k2⟩ := blk_wr (d := data) k1 (by simp [put16]; omega)
  refine ⟨b2, ?_, by rw [bytes_eq]; simpa using k2⟩
  unfold copyOption
  rw [e1, Option.bind_some]
  simpa [put16] using e2

/-- Outcome of the first half: a sublist of the wanted ones, all of them if they fit. -/
theorem addRequested_ok (c : Client) (el : Nat) (he : el < 65536) (reqs : List Nat) : ∀ (b m : List Byte), Blk b m → m.length ≤ 1496 →
    ∃ b' ms, addRequested c el reqs b m.length = some (b', (m ++ enc ms).length) ∧ Blk b' (m ++ enc ms) ∧
      ms.Sublist (reqs.filterMap fun n => own c el (n % 65536)) ∧ (m ++ enc ms).length ≤ 1496 ∧
      ((∀ n ∈ reqs, n % 65536 = 1 → c.duid ≠ none) →
        (m ++ enc (reqs.filterMap fun n => own c el (n % 65536))).length ≤ 1496 →
        ms = reqs.filterMap fun n => own c el (n % 65536)) := by
  induction reqs with
  | nil =>
    intro b m hb hm
    exact ⟨b, [], by simp [addRequested, enc], by simpa [enc] using hb, by simp, by simpa [enc] using hm, by simp⟩
  | cons code t ih =>
    intro b m hb hm
    -- one option is written
    have step : ∀ (o : Opt), own c el (code % 65536) = some o →
        (addRequested c el (code :: t) b m.length =
          if m.length + (4 + o.data.length) > maxBuf then some (b, m.length)
          else (copyOption b m.length o.code o.data).bind fun b => addRequested c el t b (m.length + (4 + o.data.length))) →
        ∃ b' ms, addRequested c el (code :: t) b m.length = some (b', (m ++ enc ms).length) ∧ Blk b' (m ++ enc ms) ∧
          ms.Sublist ((code :: t).filterMap fun n => own c el (n % 65536)) ∧ (m ++ enc ms).length ≤ 1496 ∧
          ((∀ n ∈ code :: t, n % 65536 = 1 → c.duid ≠ none) →
            (m ++ enc ((code :: t).filterMap fun n => own c el (n % 65536))).length ≤ 1496 →
            ms = (code :: t).filterMap fun n => own c el (n % 65536)) := by
      intro o ho hstep
      rw [hstep]
      have hfm : ((code :: t).filterMap fun n => own c el (n % 65536)) = o :: (t.filterMap fun n => own c el (n % 65536)) := by
        simp [ho]
      rw [hfm]
      by_cases hbig : m.length + (4 + o.data.length) > maxBuf
      · rw [if_pos hbig]
        refine ⟨b, [], by simp [enc], by simpa [enc] using hb, by simp, by simpa [enc] using hm, ?_⟩
        intro _ hl
        simp only [enc, List.length_append, bytes_length, maxBuf] at hl hbig
        omega
      · rw [if_neg hbig]
        simp only [maxBuf] at hbig
        obtain ⟨b1, e1, k1⟩ := blk_copy o.code o.data hb (by omega)
        have hl1 : (m ++ o.bytes).length = m.length + (4 + o.data.length) := by simp [bytes_length]; omega
        obtain ⟨b2, ms, e2, k2, s2, l2, f2⟩ := ih b1 (m ++ o.bytes) k1 (by rw [hl1]; omega)
        refine ⟨b2, o :: ms, ?_, by simpa [enc] using k2, s2.cons_cons _, by simpa [enc] using l2, ?_⟩
        · rw [e1, Option.bind_some, ← hl1, e2]; simp [enc]
        · intro hd hl
          rw [f2 (fun n hn => hd n (by simp [hn])) (by simpa [enc] using hl)]
    have skip : own c el (code % 65536) = none →
        addRequested c el (code :: t) b m.length = addRequested c el t b m.length →
        ∃ b' ms, addRequested c el (code :: t) b m.length = some (b', (m ++ enc ms).length) ∧ Blk b' (m ++ enc ms) ∧
          ms.Sublist ((code :: t).filterMap fun n => own c el (n % 65536)) ∧ (m ++ enc ms).length ≤ 1496 ∧
          ((∀ n ∈ code :: t, n % 65536 = 1 → c.duid ≠ none) →
            (m ++ enc ((code :: t).filterMap fun n => own c el (n % 65536))).length ≤ 1496 →
            ms = (code :: t).filterMap fun n => own c el (n % 65536)) := by
      intro ho hstep
      rw [hstep]
      have hfm : ((code :: t).filterMap fun n => own c el (n % 65536)) = (t.filterMap fun n => own c el (n % 65536)) := by
        simp [ho]
      rw [hfm]
      obtain ⟨b2, ms, e2, k2, s2, l2, f2⟩ := ih b m hb hm
      exact ⟨b2, ms, e2, k2, s2, l2, fun hd => f2 (fun n hn => hd n (by simp [hn]))⟩
    by_cases h1 : code % 65536 = 1
    · rcases Option.eq_none_or_eq_some c.duid with hd | ⟨d, hd⟩
      rotate_left
      · exact step ⟨1, d⟩ (by simp [h1, own, hd]) (by simp [addRequested, h1, hd])
      · refine ⟨b, [], by simp [addRequested, h1, hd, enc], by simpa [enc] using hb, by simp, by simpa [enc] using hm, ?_⟩
        intro h; exact absurd hd (h code (by simp) h1)
    · by_cases h2 : code % 65536 = 2
      · rcases Option.eq_none_or_eq_some c.serverDuid with hd | ⟨d, hd⟩
        rotate_left
        · exact step ⟨2, d⟩ (by simp [h2, own, hd]) (by simp [addRequested, h2, hd])
        · exact skip (by simp [h2, own, hd]) (by simp [addRequested, h2, hd])
      · by_cases h14 : code % 65536 = 14
        · exact step ⟨14, []⟩ (by simp [h14, own]) (by simp [addRequested, h14])
        · by_cases h8 : code % 65536 = 8
          · exact step ⟨8, be2 el⟩ (by simp [h8, own]) (by simp [addRequested, h8, put16_eq el he]; simp [be2])
          · refine skip ?_ (by simp [addRequested, h1, h2, h14, h8])
            unfold own
            split <;> simp_all

theorem be16_len (o : Opt) (ho : o.Ok) : Dhcp6.be16 o.bytes 2 = some o.data.length := by
  have := ho.2
  simp only [Dhcp6.be16, Opt.bytes, List.cons_append, List.nil_append, List.getElem?_cons_succ, List.getElem?_cons_zero,
    Option.bind_eq_bind, Option.bind_some, Dhcp6.digit o.data.length (by omega)]

/-- Outcome of the second half. -/
theorem addSends_ok (os : List Opt) (hok : ∀ o ∈ os, o.Ok) : ∀ (b m : List Byte), Blk b m → m.length ≤ 1496 →
    ∃ b' ms, addSends (os.map fun o => (o.code, o.bytes)) b m.length = some (b', (m ++ enc ms).length) ∧ Blk b' (m ++ enc ms) ∧
      ms.Sublist os ∧ (m ++ enc ms).length ≤ 1496 ∧ ((m ++ enc os).length ≤ 1496 → ms = os) := by
  induction os with
  | nil =>
    intro b m hb hm
    exact ⟨b, [], by simp [addSends, enc], by simpa [enc] using hb, by simp, by simpa [enc] using hm, by simp⟩
  | cons o t ih =>
    intro b m hb hm
    have ho := hok o (by simp)
    have hbl := bytes_length o
    have e := be16_len o ho
    simp only [List.map_cons, addSends, e, Option.bind_some]
    by_cases hbig : m.length + o.data.length + 2 + 2 > maxBuf
    · rw [if_pos hbig]
      obtain ⟨b2, ms, e2, k2, s2, l2, f2⟩ := ih (fun x hx => hok x (by simp [hx])) b m hb hm
      refine ⟨b2, ms, e2, k2, s2.cons _, l2, ?_⟩
      intro hl
      simp only [enc, List.length_append, bytes_length, maxBuf] at hl hbig
      omega
    · rw [if_neg hbig]
      simp only [maxBuf] at hbig
      obtain ⟨b1, e1, k1⟩ := blk_wr (d := o.bytes) hb (by omega)
      have hrd : rd o.bytes 0 (o.data.length + 2 + 2) = some o.bytes := by
        rw [rd_some (by omega), List.drop_zero, List.take_of_length_le (by omega)]
      rw [hrd, Option.bind_some, e1, Option.bind_some]
      have hl1 : (m ++ o.bytes).length = m.length + (o.data.length + 2 + 2) := by simp [hbl]
      obtain ⟨b2, ms, e2, k2, s2, l2, f2⟩ := ih (fun x hx => hok x (by simp [hx])) b1 (m ++ o.bytes) k1 (by rw [hl1]; omega)
      refine ⟨b2, o :: ms, ?_, by simpa [enc] using k2, s2.cons_cons _, by simpa [enc] using l2, ?_⟩
      · rw [← hl1, e2]; simp [enc]
      · intro hl; rw [f2 (by simpa [enc] using hl)]

theorem elapsed_lt (c : Client) (now : Int × Int) : elapsed c now < 65536 := by
  unfold elapsed; split
  · omega
  · simp only []; split <;> omega

/-- In a list of options with distinct codes each option is the last one with its code. -/
theorem last_of_mem {o : Opt} (os : List Opt) (hnd : (os.map Opt.code).Nodup) (ho : o ∈ os) : ∀ pos,
    ∃ p, last o.code pos os = some (p, o.data) ∧ pos ≤ p ∧ ((enc os).drop (p - pos)).take o.data.length = o.data := by
  induction os with
  | nil => simp at ho
  | cons x t ih =>
    intro pos
    simp only [List.map_cons, List.nodup_cons] at hnd
    rcases List.mem_cons.mp ho with rfl | hm
    · have hnone : ∀ pos, last o.code pos t = none := by
        have : ∀ (t : List Opt), o.code ∉ t.map Opt.code → ∀ pos, last o.code pos t = none := by
          intro t
          induction t with
          | nil => intro _ _; rfl
          | cons y s ihs =>
            intro hy pos
            simp only [List.map_cons, List.mem_cons, not_or] at hy
            simp only [last, ihs hy.2, if_neg (Ne.symm hy.1)]
        exact this t hnd.1
      refine ⟨pos + 4, by simp [last, hnone], by omega, ?_⟩
      simp [enc, Opt.bytes]
    · obtain ⟨p, e, hp, hd⟩ := ih hnd.2 hm (pos + x.bytes.length)
      refine ⟨p, by simp [last, e], by omega, ?_⟩
      rw [enc, List.drop_append, List.drop_eq_nil_of_le (by omega), List.nil_append,
        show p - pos - x.bytes.length = p - (pos + x.bytes.length) by omega, hd]

theorem count_one {o : Opt} (os : List Opt) (hnd : (os.map Opt.code).Nodup) (ho : o ∈ os) : count o.code os = 1 := by
  induction os with
  | nil => simp at ho
  | cons x t ih =>
    simp only [List.map_cons, List.nodup_cons] at hnd
    rcases List.mem_cons.mp ho with rfl | hm
    · have : t.filter (fun y => decide (y.code = o.code)) = [] := by
        rw [List.filter_eq_nil_iff]
        intro y hy hc
        exact hnd.1 (by simp at hc; exact hc ▸ List.mem_map_of_mem hy)
      simp [count, this]
    · have hne : x.code ≠ o.code := fun h => hnd.1 (h ▸ List.mem_map_of_mem hm)
      have := ih hnd.2 hm
      simpa [count, hne] using this

theorem last_absent {code : Nat} (os : List Opt) (h : ∀ o ∈ os, o.code ≠ code) : ∀ pos, last code pos os = none := by
  induction os with
  | nil => intro _; rfl
  | cons x t ih =>
    intro pos
    simp only [last, ih (fun o ho => h o (by simp [ho])), if_neg (h x (by simp))]

end Verif.Client6
