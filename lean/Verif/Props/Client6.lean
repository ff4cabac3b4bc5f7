import Verif.Proof.Client6Send
/-!
# C126, C127: DHCPv6 messages sent
-/
namespace Verif.Client6
open Verif.C Verif.Dhcp6.Spec Verif.Client6.Spec

/-- The number in the header of a message. -/
def number (c : Client) (rand : Nat) : Nat := if c.retransmit then c.xid else rand

/-- The client as it is while the message is written. -/
def sender (c : Client) (rand : Nat) (now : Int × Int) : Client :=
  if c.retransmit then c else { c with xid := rand % 16777216, start := now }

/-- **C126 (the message).** Whatever the client has been told to ask for and to send along, and in
whatever order the table of options is visited: writing a message stays inside the buffer. The
message is a header with its type and number and a list of options that can be read again. There
are only options the client wants in it, in order, each at most once, and the message has at most
1496 bytes. If the client id is known (or not asked for) and all the options fit into that, all of
them are there. -/
theorem message (c : Client) (type : Byte) (rand : Nat) (now : Int × Int) (os : List Opt) (hos : Holds c os)
    (hok : ∀ o ∈ os, o.Ok) :
    ∃ c' ms, sendMsg c type rand now = some (c', type :: be3 (number c rand) ++ enc ms) ∧
      c'.requests = codes c ∧ c'.sends = c.sends ∧
      ms.Sublist (wanted c (elapsed (sender c rand now) now) os) ∧
      (type :: be3 (number c rand) ++ enc ms).length ≤ 1496 ∧ (∀ o ∈ ms, o.Ok) ∧
      ((∀ n ∈ c.requests, n % 65536 = 1 → c.duid ≠ none) →
        4 + (enc (wanted c (elapsed (sender c rand now) now) os)).length ≤ 1496 →
        ms = wanted c (elapsed (sender c rand now) now) os) := by
  obtain ⟨c1, hc1⟩ : ∃ c1, c1 = setRequest (sender c rand now) 8 := ⟨_, rfl⟩
  have hel : elapsed c1 now = elapsed (sender c rand now) now := by
    rw [hc1]; unfold setRequest; split <;> rfl
  have hreq : c1.requests = codes c := by
    rw [hc1]; unfold setRequest sender codes
    by_cases hr : c.retransmit = true <;> by_cases h8 : 8 ∈ c.requests <;> simp [hr, h8]
  have hsend : c1.sends = c.sends := by
    rw [hc1]; unfold setRequest sender
    by_cases hr : c.retransmit = true <;> by_cases h8 : 8 ∈ c.requests <;> simp [hr, h8]
  have hown : ∀ el n, own c1 el n = own c el n := by
    intro el n
    rw [hc1]; unfold setRequest sender
    by_cases hr : c.retransmit = true <;> by_cases h8 : 8 ∈ c.requests <;> simp [hr, h8, own]
  have hduid : c1.duid = c.duid := by
    rw [hc1]; unfold setRequest sender
    by_cases hr : c.retransmit = true <;> by_cases h8 : 8 ∈ c.requests <;> simp [hr, h8]
  have hxid : [type, (c1.xid / 65536 % 256).toUInt8, (c1.xid / 256 % 256).toUInt8, (c1.xid % 256).toUInt8] =
      type :: be3 (number c rand) := by
    have : c1.xid = if c.retransmit then c.xid else rand % 16777216 := by
      rw [hc1]; unfold setRequest sender
      by_cases hr : c.retransmit = true <;> by_cases h8 : 8 ∈ c.requests <;> simp [hr, h8]
    rw [this]
    unfold number be3 be2
    by_cases hr : c.retransmit = true
    · simp [hr]
    · simp only [hr]
      simp only [Bool.false_eq_true, if_false, List.cons.injEq, true_and, and_true]
      refine ⟨congrArg _ (by omega), congrArg _ (by omega), congrArg _ (by omega)⟩
  obtain ⟨b0, e0, k0⟩ := blk_wr (b := List.replicate 1500 0) (m := []) (d := type :: be3 (number c rand))
    ⟨List.length_replicate, _, rfl⟩ (by show 0 + 4 ≤ 1500; omega)
  rw [List.nil_append] at k0
  have hl0 : (type :: be3 (number c rand)).length = 4 := by simp [be3, be2]
  obtain ⟨b1, ms1, e1, k1, s1, l1, f1⟩ := addRequested_ok c1 (elapsed c1 now) (elapsed_lt _ _) c1.requests b0
    (type :: be3 (number c rand)) k0 (by rw [hl0]; omega)
  obtain ⟨b2, ms2, e2, k2, s2, l2, f2⟩ := addSends_ok os hok b1 (type :: be3 (number c rand) ++ enc ms1) k1 l1
  obtain ⟨hbl, r, hb2⟩ := k2
  have heq : type :: be3 (number c rand) ++ enc ms1 ++ enc ms2 = type :: be3 (number c rand) ++ enc (ms1 ++ ms2) := by
    rw [enc_append, List.append_assoc]
  have hsub : (ms1 ++ ms2).Sublist (wanted c (elapsed (sender c rand now) now) os) := by
    unfold wanted
    refine List.Sublist.append ?_ s2
    rw [← hel, ← hreq]
    simpa only [hown] using s1
  refine ⟨c1, ms1 ++ ms2, ?_, hreq, hsend, hsub, by rw [← heq]; exact l2, ?_, ?_⟩
  · show (do
      let b ← wr (List.replicate 1500 0) 0
        [type, ((setRequest (sender c rand now) 8).xid / 65536 % 256).toUInt8,
          ((setRequest (sender c rand now) 8).xid / 256 % 256).toUInt8, ((setRequest (sender c rand now) 8).xid % 256).toUInt8]
      let (b, p) ← addRequested (setRequest (sender c rand now) 8) (elapsed (setRequest (sender c rand now) 8) now)
        (setRequest (sender c rand now) 8).requests b 4
      let (b, p) ← addSends (setRequest (sender c rand now) 8).sends b p
      let pkt ← rd b 0 p
      some (setRequest (sender c rand now) 8, pkt)) = _
    rw [← hc1, hxid]
    rw [hl0] at e1
    have e0' : wr (List.replicate 1500 (0 : Byte)) 0 (type :: be3 (number c rand)) = some b0 := e0
    rw [e0']
    simp only [Option.bind_eq_bind, Option.bind_some]
    rw [e1]
    simp only [Option.bind_some]
    rw [hsend, hos, e2]
    simp only [Option.bind_some]
    rw [rd_some (by rw [hbl]; omega), hb2, List.drop_zero, List.take_left, heq]
    rfl
  · intro o ho
    have hlen : o.data.length + 4 ≤ (enc (ms1 ++ ms2)).length := by
      have : ∀ l : List Opt, o ∈ l → o.data.length + 4 ≤ (enc l).length := by
        intro l
        induction l with
        | nil => simp
        | cons x t ih =>
          intro hm
          simp only [enc, List.length_append, bytes_length]
          rcases List.mem_cons.mp hm with rfl | hm
          · omega
          · have := ih hm; omega
      exact this _ ho
    have h2 := l2
    rw [heq, List.length_append, hl0] at h2
    refine ⟨?_, by omega⟩
    have hm := hsub.subset ho
    unfold wanted at hm
    rcases List.mem_append.mp hm with h | h
    · obtain ⟨n, _, hn⟩ := List.mem_filterMap.mp h
      unfold own at hn
      split at hn
      · cases hd : c.duid <;> simp [hd] at hn; subst hn; simp
      · cases hd : c.serverDuid <;> simp [hd] at hn; subst hn; simp
      · simp at hn; subst hn; simp
      · simp at hn; subst hn; simp
      · simp at hn
    · exact (hok o h).1
  · intro hd hl
    unfold wanted at hl ⊢
    have hw : ((codes c).filterMap fun n => own c (elapsed (sender c rand now) now) (n % 65536)) =
        (c1.requests.filterMap fun n => own c1 (elapsed c1 now) (n % 65536)) := by
      rw [hel, hreq]; simp only [hown]
    rw [hw, enc_append, List.length_append] at hl
    have h1 := f1 (by
      intro n hn h1
      rw [hduid]
      rw [hreq] at hn
      unfold codes at hn
      by_cases h8 : 8 ∈ c.requests
      · rw [if_pos h8] at hn; exact hd n hn h1
      · rw [if_neg h8] at hn
        rcases List.mem_cons.mp hn with rfl | hn
        · simp at h1
        · exact hd n hn h1) (by rw [List.length_append, hl0]; omega)
    have h2 := f2 (by rw [List.length_append, List.length_append, hl0, h1]; omega)
    rw [hw, h1, h2]

/-- A client that knows both ids, wants rapid commit, and sends one option along. -/
def exClient : Client :=
  { duid := some [0, 3, 0, 1, 2, 0, 0, 0, 0, 1], serverDuid := some [9, 9], requests := [1, 2, 14, 23], xid := 0x10203,
    sends := [(6, [0, 6, 0, 4, 0, 23, 0, 24])] }

example : Holds exClient [⟨6, [0, 23, 0, 24]⟩] ∧
    sendMsg exClient 1 0x7f0a0b0c (5, 0) = some ({ exClient with xid := 0xa0b0c, start := (5, 0), requests := [8, 1, 2, 14, 23] },
      [1, 0xa, 0xb, 0xc] ++ [0, 8, 0, 2, 0, 0] ++ [0, 1, 0, 10, 0, 3, 0, 1, 2, 0, 0, 0, 0, 1] ++ [0, 2, 0, 2, 9, 9] ++
        [0, 14, 0, 0] ++ [0, 6, 0, 4, 0, 23, 0, 24]) := by
  refine ⟨rfl, by decide +kernel⟩

/-- Without an id of its own a client that is asked to send it leaves out the rest of its options too, here
the rapid commit. -/
theorem unknown_id_drops_rest : (sendMsg { requests := [1, 14] } 1 0xabcdef (5, 0)).map Prod.snd =
    some ([1, 0xab, 0xcd, 0xef] ++ [0, 8, 0, 2, 0, 0]) ∧
    wanted { requests := [1, 14] } 0 [] = [⟨8, [0, 0]⟩, ⟨14, []⟩] := by
  refine ⟨by decide +kernel, rfl⟩

/-- **C126 (reading it).** Every option of a message of distinct options is found by the lookup the
receiving side uses, with its contents, and no other option is. -/
theorem message_read (hdr : List Byte) (hh : hdr.length = 4) (ms : List Opt) (hne : ms ≠ []) (hok : ∀ o ∈ ms, o.Ok)
    (hnd : (ms.map Opt.code).Nodup) (tail : List Byte) :
    (∀ o ∈ ms, ∃ p, Dhcp6.getOption (hdr ++ enc ms ++ tail) (hdr ++ enc ms).length o.code ((hdr ++ enc ms).length + 1) =
        .ok { ptr := some p, len := some o.data.length, count := 1 } ∧
      rd (hdr ++ enc ms ++ tail) p o.data.length = some o.data) ∧
    (∀ code, (∀ o ∈ ms, o.code ≠ code) →
      Dhcp6.getOption (hdr ++ enc ms ++ tail) (hdr ++ enc ms).length code ((hdr ++ enc ms).length + 1) =
        .ok { ptr := none, len := none, count := 0 }) := by
  have hlen : ∀ l : List Opt, l.length ≤ (enc l).length := by
    intro l
    induction l with
    | nil => simp
    | cons x t ih => simp only [enc, List.length_append, bytes_length, List.length_cons]; omega
  have hf : ms.length ≤ (hdr ++ enc ms).length + 1 := by
    have := hlen ms
    rw [List.length_append]; omega
  constructor
  · intro o ho
    obtain ⟨p, e, hp, hd⟩ := last_of_mem ms hnd ho 4
    refine ⟨p, ?_, ?_⟩
    · rw [Dhcp6.getOption_finds hdr hh ms hne hok _ _ hf tail, e, count_one ms hnd ho]; rfl
    · have hl : p - 4 + o.data.length ≤ (enc ms).length := by
        have h := congrArg List.length hd
        simp only [List.length_take, List.length_drop] at h
        by_cases h0 : o.data.length = 0
        · have : ∀ (l : List Opt) (pos q : Nat) (d : List Byte), last o.code pos l = some (q, d) → q ≤ pos + (enc l).length := by
            intro l
            induction l with
            | nil => intro _ _ _ h; simp [last] at h
            | cons x t ih =>
              intro pos q d h
              simp only [last] at h
              simp only [enc, List.length_append]
              split at h
              · rename_i r hr
                obtain ⟨q', d'⟩ := r
                simp only [Option.some.injEq, Prod.mk.injEq] at h
                have := ih _ _ _ hr
                omega
              · split at h
                · simp only [Option.some.injEq, Prod.mk.injEq] at h
                  rw [bytes_length]; omega
                · simp at h
          have := this ms 4 p _ e
          omega
        · omega
      rw [rd_some (by simp only [List.length_append]; omega), List.append_assoc, List.drop_append,
        List.drop_eq_nil_of_le (by omega), List.nil_append, hh, List.drop_append_of_le_length (by omega),
        List.take_append_of_le_length (by rw [List.length_drop]; omega), hd]
  · intro code hc
    rw [Dhcp6.getOption_finds hdr hh ms hne hok _ _ hf tail, last_absent ms hc]
    have : count code ms = 0 := by
      simp only [count, List.length_eq_zero_iff, List.filter_eq_nil_iff]
      intro o ho; simpa using hc o ho
    rw [this]; rfl

example : Dhcp6.getOption ([1, 0xa, 0xb, 0xc] ++ [0, 8, 0, 2, 0, 0] ++ [0, 2, 0, 2, 9, 7] ++ [0, 14, 0, 0] ++ [77]) 20 2 21 =
    .ok { ptr := some 14, len := some 2, count := 1 } := by decide +kernel

/-- **C126 (number and time).** A first message has a fresh number and says that no time has passed. A
repeated message has the number of the first, and says how many hundredths of a second have passed
since then, 65535 standing for that and everything above (for clocks that run forward and less
than 248 days). -/
theorem repeated (c : Client) (rand : Nat) (now : Int × Int) :
    (c.retransmit = false → number c rand = rand ∧ elapsed (sender c rand now) now = 0) ∧
    (c.retransmit = true → number c rand = c.xid ∧
      (0 ≤ now.2 ∧ now.2 < 1000000 ∧ 0 ≤ c.start.2 ∧ c.start.2 < 1000000 →
        0 ≤ (now.1 - c.start.1) * 1000000 + (now.2 - c.start.2) → now.1 - c.start.1 < 248 * 86400 →
        IsElapsed c.start now (elapsed (sender c rand now) now))) := by
  constructor
  · intro h; simp [number, h, elapsed, sender]
  · intro h
    refine ⟨by simp [number, h], ?_⟩
    intro ⟨h1, h2, h3, h4⟩ h5 h6
    have hs : sender c rand now = c := by simp [sender, h]
    rw [hs]
    obtain ⟨n1, n2⟩ := now
    obtain ⟨s, hst⟩ : ∃ s, s = c.start := ⟨_, rfl⟩
    rw [← hst] at h3 h4 h5 h6 ⊢
    obtain ⟨s1, s2⟩ := s
    have hq := Int.mul_tdiv_add_tmod (n2 - s2) 10000
    have hm : Int.natAbs (Int.tmod (n2 - s2) 10000) < 10000 := by
      have := Int.natAbs_tmod (n2 - s2) 10000
      rw [this]
      exact Nat.mod_lt _ (by decide)
    unfold elapsed timeDiff wrap32 IsElapsed
    rw [h, ← hst]
    simp only [Bool.not_true, Bool.false_eq_true, if_false] at *
    generalize Int.tdiv (n2 - s2) 10000 = q at *
    generalize Int.tmod (n2 - s2) 10000 = r at *
    have hd1 : ((n1 - s1) * 100 + 2147483648) % 4294967296 - 2147483648 = (n1 - s1) * 100 := by omega
    rw [hd1]
    have hd2 : ((n1 - s1) * 100 + q + 2147483648) % 4294967296 - 2147483648 = (n1 - s1) * 100 + q := by omega
    rw [hd2]
    split <;> omega

example : IsElapsed (10, 990000) (12, 0) 101 ∧
    elapsed { exClient with retransmit := true, start := (10, 990000) } (12, 0) = 101 := by
  refine ⟨by simp [IsElapsed], by decide +kernel⟩

end Verif.Client6
