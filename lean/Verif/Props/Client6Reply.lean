import Verif.Proof.Client6Value
/-!
# Properties C130 and C131: what a reply to a DHCPv6 client leads to
-/
namespace Verif.Client6
open Verif.C Verif.Dhcp6.Spec Verif.Client6.Spec

/-- **C130.** After a message of well-formed options the values of every requested code are what the
last option with that code says, or none if there is no such option; the values of all other codes are
what they were. -/
theorem request_values (junk : Byte) (now : Nat) (hdr tail : List Byte) (hh : hdr.length = 4) (os : List Opt) (hne : os ≠ [])
    (hok : ∀ o ∈ os, o.Ok) (c : Client)
    (hm : ∀ r ∈ c.requests, ∀ o ∈ os, o.code = r % 65536 → ∃ v, Means c.iaid now o.code o.data v) :
    ∃ c', getRequest junk now (hdr ++ enc os ++ tail) (hdr ++ enc os).length c.requests c = some c' ∧ Took now os c c' := by
  obtain ⟨c', e, _, h⟩ := getRequest_ok junk now (buf := hdr ++ enc os ++ tail) (n := (hdr ++ enc os).length) (os := os)
    ⟨⟨hdr, tail, hh, rfl, rfl⟩, hne, hok⟩ c.requests c hm
  exact ⟨c', e, fun code _ => h code⟩

/-- A reply with two lists of servers and an association, for a client that wants servers, names and
addresses and has old values. -/
def exOpts : List Opt :=
  [⟨1, [1, 2]⟩, ⟨2, [9]⟩, ⟨23, List.replicate 16 5⟩, ⟨3, ia 7 10 20 ([Sub.addr (List.replicate 16 8) 5 6 []].map Sub.opt)⟩,
    ⟨23, List.replicate 16 6 ++ List.replicate 16 7⟩]

def exAsk : Client := { iaid := 7, requests := [23, 24, 3], values := [(24, [.name [97]]), (31, [.addr []])], xid := 0xabcdef, duid := some [1, 2],
                        cbs := [.request] }

example : (getRequest 0 50 ([7, 0xab, 0xcd, 0xef] ++ enc exOpts) (4 + (enc exOpts).length) exAsk.requests exAsk).map (fun c => (c.values, c.iaNa)) =
    some ([(3, [.addr (List.replicate 16 8)]), (23, [.addr (List.replicate 16 6), .addr (List.replicate 16 7)]), (31, [.addr []])],
      List.replicate 16 8) := by decide +kernel

example : (∀ o ∈ exOpts, o.Ok) ∧ ∀ r ∈ exAsk.requests, ∀ o ∈ exOpts, o.code = r % 65536 → ∃ v, Means exAsk.iaid 50 o.code o.data v := by
  refine ⟨by unfold Opt.Ok; decide +kernel, ?_⟩
  intro r _ o ho hc
  simp only [exOpts, List.mem_cons, List.not_mem_nil, or_false] at ho
  rcases ho with rfl | rfl | rfl | rfl | rfl
  · exact ⟨[], .other 1 _ (by decide)⟩
  · exact ⟨[], .other 2 _ (by decide)⟩
  · exact ⟨_, .servers 23 [List.replicate 16 5] (Or.inl rfl) (by decide)⟩
  · exact ⟨_, .na 7 10 20 [Sub.addr (List.replicate 16 8) 5 6 []] (by decide) (by decide) (by decide)
      (by
        intro x hx
        simp only [List.mem_cons, List.not_mem_nil, or_false] at hx
        subst hx
        refine ⟨?_, by decide, by decide, by decide⟩
        unfold Opt.Ok; decide +kernel) (by decide)⟩
  · exact ⟨_, .servers 23 [List.replicate 16 6, List.replicate 16 7] (Or.inl rfl) (by decide)⟩

/-! ## Which messages are taken -/

/-- The message is in the buffer and what it consists of is well formed: options are as long as they say,
the status has its two bytes, and ids have the length of the id they are compared with. -/
structure Formed (c : Client) (os : List Opt) : Prop where
  ne : os ≠ []
  ok : ∀ o ∈ os, o.Ok
  status : ∀ o ∈ os, o.code = 13 → o.data ≠ [] → 2 ≤ o.data.length
  client : ∀ o ∈ os, o.code = 1 → ∀ d, c.duid = some d → o.data.length = d.length
  server : ∀ o ∈ os, o.code = 2 → ∀ d, c.serverDuid = some d → d ≠ [] → o.data.length = d.length

theorem only_some {code : Nat} {os : List Opt} {o : Opt} (h : only code os = some o) : lastOf code os = some o ∧ count code os = 1 := by
  unfold only at h
  unfold lastOf count
  rcases hf : os.filter (fun o => o.code = code) with _ | ⟨x, _ | ⟨y, t⟩⟩
  · rw [hf] at h; simp at h
  · rw [hf] at h
    simp only [Option.some.injEq] at h
    subst h
    refine ⟨?_, by rw [hf]; rfl⟩
    have hr : os.reverse.filter (fun o => o.code = code) = [x] := by rw [List.filter_reverse, hf]; rfl
    rw [← List.head?_filter, hr]; rfl
  · rw [hf] at h; simp at h

theorem only_of {code : Nat} {os : List Opt} {o : Opt} (h : lastOf code os = some o) (h1 : count code os = 1) : only code os = some o := by
  unfold count at h1
  obtain ⟨x, hx⟩ := List.length_eq_one_iff.mp h1
  have : only code os = some x := by unfold only; rw [hx]
  rw [this]
  have := (only_some this).1
  rw [h] at this
  exact this.symm

theorem takeStatus_ok {buf : List Byte} {n : Nat} {os : List Opt} (h : In buf n os) (c : Client) (h0 : c.status = 0)
    (hs : ∀ o ∈ os, o.code = 13 → o.data ≠ [] → 2 ≤ o.data.length) :
    takeStatus c buf n = some { c with status := statusOf os } := by
  have hl := h.look 13
  unfold takeStatus statusOf
  cases he : lastOf 13 os with
  | none =>
    simp only [he] at hl
    rw [hl, Option.bind_some]
    simp only
    rw [← h0]
  | some o =>
    simp only [he] at hl
    obtain ⟨p, e, hat⟩ := hl
    obtain ⟨ho, hoc⟩ := lastOf_mem he
    rw [e, Option.bind_some]
    simp only
    obtain ⟨code, data⟩ := o
    have h2 := hs _ ho hoc
    simp only at hat h2 ⊢
    rcases data with _ | ⟨a, _ | ⟨b, t⟩⟩
    · rw [if_neg (by simp)]
      simp only
      rw [← h0]
    · have := h2 (by simp); simp at this
    · rw [if_pos (by simp)]
      have g0 := hat.get 0 (by simp)
      have g1 := hat.get 1 (by simp)
      have hle := hat.le (by simp)
      simp only [List.getElem?_cons_zero, List.getElem?_cons_succ, Nat.add_zero] at g0 g1
      simp only [Dhcp6.be16, g0, g1, Option.bind_eq_bind, Option.bind_some]
      rw [List.length_cons, List.length_cons] at hle ⊢
      have : (if a.toNat * 256 + b.toNat ≠ 0 ∧ t.length + 1 + 1 > 2 then strnRead buf (p + 2) (t.length + 1 + 1 - 2) else some ()) = some () := by
        split
        · exact strnRead_ok _ _ (by omega)
        · rfl
      rw [this]
      rfl

/-- What the checks in front of the `switch` do. -/
theorem listener_front (junk : Byte) (now : Nat) (c : Client) (state : State) (msg : Byte) (xid : Nat) (hx : xid < 16777216) (os : List Opt)
    (tail : List Byte) (hf : Formed c os) :
    listener junk now c state (packet msg xid os ++ tail) (packet msg xid os).length =
      if xid = c.xid ∧ ∃ o, lastOf 1 os = some o ∧ o.data ≠ [] ∧ ∀ d, c.duid = some d → o.data = d then
        onState junk now { c with status := statusOf os } state (packet msg xid os ++ tail) (packet msg xid os).length msg
      else some ({ c with status := 0 }, .ignored) := by
  have hin : In (packet msg xid os ++ tail) (packet msg xid os).length os := by
    refine ⟨⟨msg :: be3 xid, tail, rfl, ?_, ?_⟩, hf.ne, hf.ok⟩ <;> simp [packet]
  have hrd : rd (packet msg xid os ++ tail) 0 4 =
      some [msg, (xid / 65536 % 256).toUInt8, (xid / 256 % 256).toUInt8, (xid % 256).toUInt8] := by
    have : At (packet msg xid os ++ tail) 0 (msg :: be3 xid) := ⟨enc os ++ tail, by simp [packet]⟩
    exact this.rd (by simp)
  unfold listener
  simp only
  rw [if_neg (by omega), hrd, Option.bind_some]
  simp only
  rw [toUInt8_toNat _ (by omega), toUInt8_toNat _ (by omega), toUInt8_toNat _ (by omega),
    show xid / 65536 % 256 * 65536 + xid / 256 % 256 * 256 + xid % 256 = xid by omega]
  by_cases hxid : xid = c.xid
  · rw [if_neg (fun h => h hxid), Int.toNat_natCast]
    have hl := hin.look 1
    cases he : lastOf 1 os with
    | none =>
      simp only [he] at hl
      rw [hl, Option.bind_some, if_neg (by simp)]
    | some o =>
      simp only [he] at hl
      obtain ⟨p, e, hat⟩ := hl
      obtain ⟨ho, hoc⟩ := lastOf_mem he
      rw [e, Option.bind_some]
      simp only
      have hcnt : count 1 os ≠ 0 := by
        unfold count
        intro h0
        have := List.eq_nil_of_length_eq_zero h0
        rw [List.filter_eq_nil_iff] at this
        exact absurd (by simpa using hoc) (this o ho)
      by_cases hd : o.data = []
      · rw [if_pos (Or.inr (by rw [hd]; rfl)), if_neg (by rintro ⟨_, o', h1, h2, _⟩; simp only [Option.some.injEq] at h1; exact h2 (h1 ▸ hd))]
      · rw [if_neg (by rintro (h | h); exact hcnt h; exact hd (List.eq_nil_of_length_eq_zero h))]
        have hst := takeStatus_ok hin { c with status := 0 } rfl hf.status
        rcases Option.eq_none_or_eq_some c.duid with hdu | ⟨d, hdu⟩
        · simp only [sameId, hdu, Option.bind_some, Bool.not_true, Bool.false_eq_true, if_false]
          rw [hdu] at hst
          rw [hst, if_pos ⟨hxid, o, rfl, hd, by simp⟩]
          rfl
        · have hlen := hf.client o ho hoc d hdu
          simp only [sameId, hdu]
          rw [← hlen, hat.rd hd, Option.bind_some, Option.bind_some]
          by_cases heq : o.data = d
          · simp only [heq, decide_true, Bool.not_true, Bool.false_eq_true, if_false]
            rw [hdu] at hst
            rw [hst, if_pos ⟨hxid, o, rfl, hd, by intro d' h'; simp only [Option.some.injEq] at h'; exact heq.trans h'⟩]
            rfl
          · simp only [heq, decide_false, Bool.not_false, if_true]
            rw [if_neg]
            rintro ⟨_, o', h1, _, h3⟩
            simp only [Option.some.injEq] at h1
            exact heq (h1 ▸ h3 d rfl)
  · rw [if_pos hxid, if_neg (fun h => hxid h.1)]

theorem serverOk_ok {buf : List Byte} {n : Nat} {os : List Opt} (h : In buf n os) (c : Client) (known : Bool)
    (hs : ∀ o ∈ os, o.code = 2 → ∀ d, c.serverDuid = some d → d ≠ [] → o.data.length = d.length) :
    (∃ o p, only 2 os = some o ∧ o.data ≠ [] ∧ (known = true → ∀ d, c.serverDuid = some d → d ≠ [] → o.data = d) ∧
        ((look buf n 2).bind fun r => serverOk c buf known r) = some (some (p, o.data.length)) ∧ At buf p o.data) ∨
      (¬ (∃ o, only 2 os = some o ∧ o.data ≠ [] ∧ (known = true → ∀ d, c.serverDuid = some d → d ≠ [] → o.data = d)) ∧
        ((look buf n 2).bind fun r => serverOk c buf known r) = some none) := by
  have hl := h.look 2
  cases he : lastOf 2 os with
  | none =>
    simp only [he] at hl
    right
    refine ⟨?_, by rw [hl]; rfl⟩
    rintro ⟨o, ho, _⟩
    rw [(only_some ho).1] at he; simp at he
  | some o =>
    simp only [he] at hl
    obtain ⟨p, e, hat⟩ := hl
    obtain ⟨ho, hoc⟩ := lastOf_mem he
    rw [e, Option.bind_some]
    unfold serverOk
    simp only
    by_cases h1 : count 2 os ≠ 1 ∨ o.data.length = 0
    · right
      rw [if_pos h1]
      refine ⟨?_, rfl⟩
      rintro ⟨o', h2, h3, _⟩
      obtain ⟨h4, h5⟩ := only_some h2
      rw [he] at h4
      simp only [Option.some.injEq] at h4
      rcases h1 with h1 | h1
      · exact h1 h5
      · exact h3 (h4 ▸ List.eq_nil_of_length_eq_zero h1)
    · rw [if_neg h1]
      have hcnt : count 2 os = 1 := by by_cases h' : count 2 os = 1; exact h'; exact absurd (Or.inl h') h1
      have hd : o.data ≠ [] := fun h' => h1 (Or.inr (by rw [h']; rfl))
      have honly := only_of he hcnt
      by_cases hk : known = true ∧ 0 < (c.serverDuid.getD []).length
      · rw [if_pos hk]
        rcases Option.eq_none_or_eq_some c.serverDuid with hsd | ⟨d, hsd⟩
        · rw [hsd] at hk; simp at hk
        · have hdne : d ≠ [] := by
            intro h'; rw [hsd, h'] at hk; simp at hk
          have hlen := hs o ho hoc d hsd hdne
          simp only [sameId, hsd]
          rw [← hlen, hat.rd hd, Option.bind_some, Option.bind_some]
          by_cases heq : o.data = d
          · left
            refine ⟨o, p, honly, hd, ?_, by simp [heq], hat⟩
            intro _ d' h' _
            simp only [Option.some.injEq] at h'
            exact heq.trans h'
          · right
            refine ⟨?_, by simp [heq]⟩
            rintro ⟨o', h2, _, h3⟩
            rw [honly] at h2
            simp only [Option.some.injEq] at h2
            exact heq (h2 ▸ h3 hk.1 d rfl hdne)
      · rw [if_neg hk]
        left
        refine ⟨o, p, honly, hd, ?_, rfl, hat⟩
        intro hkn d hsd hdne
        exact absurd ⟨hkn, by rw [hsd]; exact List.length_pos_iff.mpr hdne⟩ hk

/-- What a message that is not the answer may still change: the status, and the server the client will talk
to (while it has none, or still looks for one). -/
def Ignored (c : Client) (state : State) (c' : Client) : Prop :=
  ∃ st sd, c' = { c with status := st, serverDuid := sd } ∧ (sd = c.serverDuid ∨ state = .solicitation ∨ (state = .rebind ∧ c.serverDuid = none))

theorem onReply_cases (junk : Byte) (now : Nat) {buf : List Byte} {n : Nat} {os : List Opt} (h : In buf n os) (c : Client) (msg : Byte)
    (hs : ∀ o ∈ os, o.code = 2 → ∀ d, c.serverDuid = some d → d ≠ [] → o.data.length = d.length)
    (hm : ∀ r ∈ c.requests, ∀ o ∈ os, o.code = r % 65536 → ∃ v, Means c.iaid now o.code o.data v) :
    if msg = 7 ∧ ∃ o, only 2 os = some o ∧ o.data ≠ [] ∧ ∀ d, c.serverDuid = some d → d ≠ [] → o.data = d then
      ∃ c', onReply junk now c buf n msg = some (c', .done (replyCb c)) ∧ Took now os c c' ∧ c'.duid = c.duid ∧ c'.cbs = c.cbs
    else onReply junk now c buf n msg = some (c, .ignored) := by
  by_cases h7 : msg = 7
  · rcases serverOk_ok h c true hs with ⟨o, p, h1, h2, h3, e, hat⟩ | ⟨h1, e⟩
    · rw [if_pos ⟨h7, o, h1, h2, h3 rfl⟩]
      obtain ⟨c', e', hsame, ht⟩ := getRequest_ok junk now h c.requests c hm
      have hcb : replyCb c' = replyCb c := by unfold replyCb; rw [hsame.cbs]
      have hgo : onReply junk now c buf n msg = if replyCb c = some .confirm then
          some ({ c' with serverDuid := some o.data }, .done (some .confirm)) else some (c', .done (replyCb c)) := by
        unfold onReply
        rw [if_neg (fun h => h h7), ← Option.bind_assoc, e, Option.bind_some]
        simp only [e', Option.bind_some, hcb, hat.rd h2]
      rw [hgo]
      by_cases hc : replyCb c = some .confirm
      · rw [if_pos hc, hc]
        exact ⟨_, rfl, fun code _ => ht code, hsame.duid, hsame.cbs⟩
      · rw [if_neg hc]
        exact ⟨c', rfl, fun code _ => ht code, hsame.duid, hsame.cbs⟩
    · rw [if_neg (by rintro ⟨_, o, h2, h3, h4⟩; exact h1 ⟨o, h2, h3, fun _ => h4⟩)]
      unfold onReply
      rw [if_neg (fun h => h h7), ← Option.bind_assoc, e, Option.bind_some]
  · rw [if_neg (fun h => h7 h.1)]
    unfold onReply
    rw [if_pos h7]

theorem onSolicit_cases (junk : Byte) (now : Nat) {buf : List Byte} {n : Nat} {os : List Opt} (h : In buf n os) (c : Client) (msg : Byte)
    (hs : ∀ o ∈ os, o.code = 2 → ∀ d, c.serverDuid = some d → d ≠ [] → o.data.length = d.length)
    (hr : ∀ o ∈ os, o.code = 14 → o.data = [])
    (hm : ∀ r ∈ c.requests, ∀ o ∈ os, o.code = r % 65536 → ∃ v, Means c.iaid now o.code o.data v) :
    if msg = 2 ∧ ∃ o, only 2 os = some o ∧ o.data ≠ [] then
      ∃ c', onSolicit junk now c buf n msg = some (c', .done (if .advertise ∈ c.cbs then some .advertise else none)) ∧
        (c.status = 0 → Took now os c c') ∧ (c.status ≠ 0 → c'.values = c.values) ∧ (∃ o, only 2 os = some o ∧ c'.serverDuid = some o.data) ∧
        c'.duid = c.duid ∧ c'.cbs = c.cbs
    else ∃ sd, onSolicit junk now c buf n msg = some ({ c with serverDuid := sd }, .ignored) := by
  by_cases h27 : msg ≠ 7 ∧ msg ≠ 2
  · rw [if_neg (fun h => h27.2 h.1)]
    refine ⟨c.serverDuid, ?_⟩
    unfold onSolicit
    rw [if_pos h27]
  · rcases serverOk_ok h c false hs with ⟨o, p, h1, h2, _, e, hat⟩ | ⟨h1, e⟩
    · have hstep : onSolicit junk now c buf n msg = if msg = 7 then
            (look buf n 14).bind fun r =>
              match r with
              | none => some ({ c with serverDuid := some o.data }, .ignored)
              | some (_, rl, rk) =>
                if rl = 0 ∨ rk ≠ 1 then some ({ c with serverDuid := some o.data }, .ignored)
                else (takeAdvertised junk now buf n { c with serverDuid := some o.data }).bind fun c =>
                  some (c, .done (if .solicitation ∈ c.cbs then some .solicitation else none))
          else (takeAdvertised junk now buf n { c with serverDuid := some o.data }).bind fun c =>
            some (c, .done (if .advertise ∈ c.cbs then some .advertise else none)) := by
        unfold onSolicit
        rw [if_neg h27, ← Option.bind_assoc, e, Option.bind_some]
        simp only [hat.rd h2, Option.bind_some]
        rfl
      rw [hstep]
      by_cases h7 : msg = 7
      · rw [if_neg (fun h' => by rw [h7] at h'; exact absurd h'.1 (by decide)), if_pos h7]
        refine ⟨some o.data, ?_⟩
        have hl := h.look 14
        cases he : lastOf 14 os with
        | none =>
          simp only [he] at hl
          rw [hl]; rfl
        | some x =>
          simp only [he] at hl
          obtain ⟨q, e', _⟩ := hl
          obtain ⟨hx, hxc⟩ := lastOf_mem he
          rw [e', hr x hx hxc, Option.bind_some]
          simp only
          rw [if_pos (Or.inl (by rfl))]
      · rw [if_neg h7, if_pos ⟨by by_cases h' : msg = 2; exact h'; exact absurd ⟨h7, h'⟩ h27, o, h1, h2⟩]
        unfold takeAdvertised
        by_cases h0 : c.status = 0
        · obtain ⟨c', e', hsame, ht⟩ := getRequest_ok junk now h c.requests { c with serverDuid := some o.data } hm
          refine ⟨c', ?_, fun _ => fun code _ => ht code, fun h' => absurd h0 h', ⟨o, h1, hsame.server⟩, hsame.duid, hsame.cbs⟩
          simp only [if_pos h0, e', Option.bind_some]
          rw [hsame.cbs]
        · refine ⟨{ c with serverDuid := some o.data }, ?_, fun h' => absurd h' h0, fun _ => rfl, ⟨o, h1, rfl⟩, rfl, rfl⟩
          simp only [if_neg h0, Option.bind_some]
    · rw [if_neg (by rintro ⟨_, o, h2, h3⟩; exact h1 ⟨o, h2, h3, by simp⟩)]
      refine ⟨c.serverDuid, ?_⟩
      unfold onSolicit
      rw [if_neg h27, ← Option.bind_assoc, e, Option.bind_some]

theorem learnServer_ok {buf : List Byte} {n : Nat} {os : List Opt} (h : In buf n os) (c : Client) :
    ∃ sd, learnServer c buf n = some { c with serverDuid := sd } ∧ (sd = c.serverDuid ∨ (c.serverDuid = none ∧ ∃ o, only 2 os = some o ∧ sd = some o.data)) := by
  have hl := h.look 2
  cases he : lastOf 2 os with
  | none =>
    simp only [he] at hl
    exact ⟨c.serverDuid, by rw [learnServer, hl]; rfl, Or.inl rfl⟩
  | some o =>
    simp only [he] at hl
    obtain ⟨p, e, hat⟩ := hl
    obtain ⟨ho, hoc⟩ := lastOf_mem he
    rcases Option.eq_none_or_eq_some c.serverDuid with hs | ⟨d, hs⟩
    · by_cases h1 : count 2 os = 1
      · refine ⟨some o.data, ?_, Or.inr ⟨hs, o, only_of he h1, rfl⟩⟩
        rw [learnServer, e, Option.bind_some, hs]
        simp only [if_pos h1]
        have : rd buf p o.data.length = some o.data := by
          by_cases hd : o.data = []
          · have hp : p ≤ buf.length := by
              have := h.found 2
              unfold look at e
              rw [this] at e
              have key : ∀ (l : List Opt) (pos q : Nat) (d : List Byte), last 2 pos l = some (q, d) → q ≤ pos + (enc l).length := by
                intro l
                induction l with
                | nil => intro _ _ _ h; simp [last] at h
                | cons x t ih =>
                  intro pos q d h
                  simp only [last] at h
                  simp only [enc, List.length_append]
                  split at h
                  · rename_i r hr
                    obtain ⟨q', d'⟩ := r
                    simp only [Option.some.injEq, Prod.mk.injEq] at h
                    have := ih _ _ _ hr
                    omega
                  · split at h
                    · simp only [Option.some.injEq, Prod.mk.injEq] at h
                      rw [bytes_length]; omega
                    · simp at h
              obtain ⟨hdr, tail, hh, hb, hn⟩ := h.eq
              cases hla : last 2 4 os with
              | none => rw [hla] at e; simp at e
              | some r =>
                obtain ⟨q, d⟩ := r
                rw [hla] at e
                simp only [Option.map_some, Option.some.injEq, Prod.mk.injEq] at e
                have := key os 4 q d hla
                rw [hb, List.length_append, List.length_append]; omega
            rw [hd]
            rw [rd_some (by simpa using hp)]
            simp
          · exact hat.rd hd
        rw [this]; rfl
      · refine ⟨c.serverDuid, ?_, Or.inl rfl⟩
        rw [learnServer, e, Option.bind_some, hs]
        simp only [if_neg h1]
        rw [← hs]
    · refine ⟨c.serverDuid, ?_, Or.inl rfl⟩
      rw [learnServer, e, Option.bind_some, hs]
      simp only
      rw [← hs]

/-- **C131.** In every state, a well-formed message that is not the answer to what the client has sent calls
nothing and changes no value; one that is ends the conversation, and its values are those of the
message (when searching for a server, only if it reports success), and the server found is remembered.

Missing: replies with a rapid commit (see `rapid_commit_never`); ids of other lengths than the one they are
compared with (see `longer_id_accepted`); a failed `read` (`failed_read`). -/
theorem reply_partial (junk : Byte) (now : Nat) (c : Client) (state : State) (msg : Byte) (xid : Nat) (hx : xid < 16777216) (os : List Opt)
    (tail : List Byte) (hf : Formed c os) (hr : ∀ o ∈ os, o.code = 14 → o.data = [])
    (hm : ∀ r ∈ c.requests, ∀ o ∈ os, o.code = r % 65536 → ∃ v, Means c.iaid now o.code o.data v) :
    ∃ c' r, listener junk now c state (packet msg xid os ++ tail) (packet msg xid os).length = some (c', r) ∧
      (r = .ignored ↔ ¬ (Answers c state msg xid os ∧ (state = .solicitation → msg = 2))) ∧
      (r = .ignored → Ignored c state c') ∧
      (r ≠ .ignored → (if state = .solicitation ∧ statusOf os ≠ 0 then c'.values = c.values else Took now os c c') ∧
        (state = .solicitation → ∃ o, only 2 os = some o ∧ c'.serverDuid = some o.data) ∧
        r = .done (if state = .solicitation then (if .advertise ∈ c.cbs then some .advertise else none) else replyCb c)) := by
  have hin : In (packet msg xid os ++ tail) (packet msg xid os).length os := by
    refine ⟨⟨msg :: be3 xid, tail, rfl, ?_, ?_⟩, hf.ne, hf.ok⟩ <;> simp [packet]
  rw [listener_front junk now c state msg xid hx os tail hf]
  by_cases hfront : xid = c.xid ∧ ∃ o, lastOf 1 os = some o ∧ o.data ≠ [] ∧ ∀ d, c.duid = some d → o.data = d
  · rw [if_pos hfront]
    by_cases hsol : state = .solicitation
    · subst hsol
      have hs := onSolicit_cases junk now hin { c with status := statusOf os } msg hf.server hr hm
      by_cases hgood : msg = 2 ∧ ∃ o, only 2 os = some o ∧ o.data ≠ []
      · rw [if_pos hgood] at hs
        obtain ⟨c', e, ht, hv, hsd, _, _⟩ := hs
        obtain ⟨h2, o, h3, h4⟩ := hgood
        refine ⟨c', _, e, ⟨by simp, fun hn => absurd ⟨⟨hfront.1, hfront.2, ⟨o, h3, h4, by simp⟩, by rw [if_pos rfl]; exact Or.inl h2⟩, fun _ => h2⟩ hn⟩,
          by simp, fun _ => ⟨?_, fun _ => hsd, by rw [if_pos rfl]⟩⟩
        by_cases h0 : statusOf os = 0
        · rw [if_neg (fun h => h.2 h0)]; exact ht h0
        · rw [if_pos ⟨rfl, h0⟩]; exact hv h0
      · rw [if_neg hgood] at hs
        obtain ⟨sd, e⟩ := hs
        refine ⟨_, .ignored, e, ⟨fun _ => ?_, fun _ => rfl⟩, fun _ => ⟨_, _, rfl, Or.inr (Or.inl rfl)⟩, by simp⟩
        rintro ⟨ha, h2⟩
        obtain ⟨o, h3, h4, _⟩ := ha.server
        exact hgood ⟨h2 rfl, o, h3, h4⟩
    · -- all other states
      have main : ∀ c1 : Client, (∃ sd, c1 = { c with status := statusOf os, serverDuid := sd } ∧
            (sd = c.serverDuid ∨ (c.serverDuid = none ∧ ∃ o, only 2 os = some o ∧ sd = some o.data))) →
          (c1.serverDuid = c.serverDuid ∨ state = .rebind) →
          onState junk now { c with status := statusOf os } state (packet msg xid os ++ tail) (packet msg xid os).length msg =
            onReply junk now c1 (packet msg xid os ++ tail) (packet msg xid os).length msg →
          ∃ c' r, onState junk now { c with status := statusOf os } state (packet msg xid os ++ tail) (packet msg xid os).length msg = some (c', r) ∧
            (r = .ignored ↔ ¬ (Answers c state msg xid os ∧ (state = .solicitation → msg = 2))) ∧
            (r = .ignored → Ignored c state c') ∧
            (r ≠ .ignored → (if state = .solicitation ∧ statusOf os ≠ 0 then c'.values = c.values else Took now os c c') ∧
              (state = .solicitation → ∃ o, only 2 os = some o ∧ c'.serverDuid = some o.data) ∧
              r = .done (if state = .solicitation then (if .advertise ∈ c.cbs then some .advertise else none) else replyCb c)) := by
        rintro c1 ⟨sd, rfl, hsd⟩ hreb he
        rw [he]
        have hs1 : ∀ o ∈ os, o.code = 2 → ∀ d, sd = some d → d ≠ [] → o.data.length = d.length := by
          intro o ho hoc d hd hdne
          rcases hsd with h' | ⟨_, o', h', h''⟩
          · exact hf.server o ho hoc d (h' ▸ hd) hdne
          · have hmem : o ∈ os.filter (fun o => o.code = 2) := List.mem_filter.mpr ⟨ho, by simpa using hoc⟩
            unfold only at h'
            split at h'
            · rename_i x hx
              rw [hx] at hmem
              simp only [List.mem_singleton] at hmem
              simp only [Option.some.injEq] at h'
              rw [h''] at hd
              simp only [Option.some.injEq] at hd
              rw [← hd, ← h', hmem]
            · simp at h'
        have hr1 := onReply_cases junk now hin { c with status := statusOf os, serverDuid := sd } msg hs1 hm
        have hiff : (msg = 7 ∧ ∃ o, only 2 os = some o ∧ o.data ≠ [] ∧ ∀ d, sd = some d → d ≠ [] → o.data = d) ↔
            (Answers c state msg xid os ∧ (state = .solicitation → msg = 2)) := by
          constructor
          · rintro ⟨h7, o, h1, h2, h3⟩
            refine ⟨⟨hfront.1, hfront.2, ⟨o, h1, h2, fun _ d hd hdne => ?_⟩, by rw [if_neg hsol]; exact h7⟩, fun h => absurd h hsol⟩
            rcases hsd with h' | ⟨h', _⟩
            · exact h3 d (h'.trans hd) hdne
            · rw [h'] at hd; simp at hd
          · rintro ⟨ha, _⟩
            have h7 := ha.type
            rw [if_neg hsol] at h7
            obtain ⟨o, h1, h2, h3⟩ := ha.server
            refine ⟨h7, o, h1, h2, fun d hd hdne => ?_⟩
            rcases hsd with h' | ⟨_, o', h', h''⟩
            · exact h3 hsol d (h'.symm.trans hd) hdne
            · rw [h''] at hd
              rw [h1] at h'
              simp only [Option.some.injEq] at hd h'
              rw [← hd, h']
        by_cases hgood : msg = 7 ∧ ∃ o, only 2 os = some o ∧ o.data ≠ [] ∧ ∀ d, sd = some d → d ≠ [] → o.data = d
        · rw [if_pos hgood] at hr1
          obtain ⟨c', e, ht, _, _⟩ := hr1
          refine ⟨c', _, e, ⟨by simp, fun hn => absurd (hiff.mp hgood) hn⟩, by simp, fun _ => ⟨?_, fun h => absurd h hsol, by rw [if_neg hsol]; rfl⟩⟩
          rw [if_neg (fun h => hsol h.1)]
          exact ht
        · rw [if_neg hgood] at hr1
          refine ⟨_, .ignored, hr1, ⟨fun _ h => hgood (hiff.mpr h), fun _ => rfl⟩, fun _ => ⟨_, _, rfl, ?_⟩, by simp⟩
          rcases hreb with h' | h'
          · exact Or.inl h'
          · rcases hsd with h'' | ⟨h'', _⟩
            · exact Or.inl h''
            · exact Or.inr (Or.inr ⟨h', h''⟩)
      by_cases hreb : state = .rebind
      · obtain ⟨sd, e, hsd⟩ := learnServer_ok hin { c with status := statusOf os }
        refine main { c with status := statusOf os, serverDuid := sd } ⟨sd, rfl, hsd⟩ (Or.inr hreb) ?_
        subst hreb
        simp only [onState]
        rw [e]; rfl
      · refine main { c with status := statusOf os } ⟨c.serverDuid, rfl, Or.inl rfl⟩ (Or.inl rfl) ?_
        cases state with
        | solicitation => exact absurd rfl hsol
        | rebind => exact absurd rfl hreb
        | _ => rfl
  · rw [if_neg hfront]
    refine ⟨_, .ignored, rfl, ⟨fun _ => ?_, fun _ => rfl⟩, fun _ => ⟨_, _, rfl, Or.inl rfl⟩, by simp⟩
    rintro ⟨ha, _⟩
    exact hfront ⟨ha.number, ha.client⟩

/-- A client with its id that has sent a request to the server `[9]`, and the answer of that server. -/
def exWait : Client := { exAsk with serverDuid := some [9] }

example : (listener 0 50 exWait .request (packet 7 0xabcdef exOpts ++ [1, 2, 3]) (packet 7 0xabcdef exOpts).length).map (fun r => (r.1.values, r.2)) =
    some ([(3, [.addr (List.replicate 16 8)]), (23, [.addr (List.replicate 16 6), .addr (List.replicate 16 7)]), (31, [.addr []])],
      .done (some .request)) := by decide +kernel

example : Formed exWait exOpts ∧ Answers exWait .request 7 0xabcdef exOpts := by
  refine ⟨⟨by decide, by unfold Opt.Ok; decide +kernel, by decide +kernel, ?_, ?_⟩, ⟨rfl, ⟨⟨1, [1, 2]⟩, rfl, by decide, ?_⟩, ⟨⟨2, [9]⟩, rfl, by decide, ?_⟩, by decide⟩⟩
  · intro o ho hc d hd
    simp only [exOpts, List.mem_cons, List.not_mem_nil, or_false] at ho
    have : [1, 2] = d := by simpa [exWait, exAsk] using hd
    subst this
    rcases ho with rfl | rfl | rfl | rfl | rfl <;> first | rfl | (simp at hc)
  · intro o ho hc d hd _
    simp only [exOpts, List.mem_cons, List.not_mem_nil, or_false] at ho
    have : [9] = d := by simpa [exWait] using hd
    subst this
    rcases ho with rfl | rfl | rfl | rfl | rfl <;> first | rfl | (simp at hc)
  · intro d hd; simpa [exWait, exAsk] using hd
  · intro _ d hd _; simpa [exWait] using hd

/-- The same message does not reach a client that talks to another server, sent another number, or has
another id. -/
example : [{ exWait with serverDuid := some [8] }, { exWait with xid := 1 }, { exWait with duid := some [1, 3] }].map (fun c =>
    (listener 0 50 c .request (packet 7 0xabcdef exOpts) (packet 7 0xabcdef exOpts).length).map (fun r => decide (r = (c, .ignored)))) =
    [some true, some true, some true] := by decide +kernel

/-- **C131 (callbacks).** With one callback registered besides the one for advertisements, the callback that is called is the
one of the message the client has sent when it was started; a client that looks for a server hears
of advertisements.

Missing: several callbacks (see `confirm_calls_renew`). -/
theorem callback_partial (junk : Byte) (now : Nat) (c : Client) (state : State) (m msg : Byte) (k : Cb) (hst : startWith c = some (state, m))
    (hk : c.cbs = [k] ∨ c.cbs = [k, .advertise]) (xid : Nat) (hx : xid < 16777216) (os : List Opt)
    (tail : List Byte) (hf : Formed c os) (hr : ∀ o ∈ os, o.code = 14 → o.data = [])
    (hm : ∀ r ∈ c.requests, ∀ o ∈ os, o.code = r % 65536 → ∃ v, Means c.iaid now o.code o.data v) (c' : Client) (called : Option Cb)
    (h : listener junk now c state (packet msg xid os ++ tail) (packet msg xid os).length = some (c', .done called)) :
    (k ≠ .solicitation → called = some k) ∧ (k = .solicitation → called = if .advertise ∈ c.cbs then some .advertise else none) := by
  obtain ⟨c'', r, e, _, _, h3⟩ := reply_partial junk now c state msg xid hx os tail hf hr hm
  rw [e] at h
  simp only [Option.some.injEq, Prod.mk.injEq] at h
  obtain ⟨rfl, rfl⟩ := h
  have hcall := (h3 (by simp)).2.2
  simp only [Reply.done.injEq] at hcall
  rcases hk with hk | hk <;> cases k <;> simp [startWith, hk] at hst <;> obtain ⟨rfl, _⟩ := hst <;>
    simp [hcall, replyCb, hk]

example : startWith exWait = some (.request, 3) ∧ exWait.cbs = [.request] := by decide

/-- **C131 is false for rapid commits**: a reply with the rapid commit option the client has asked for, which
is empty by definition (RFC 8415 §21.14), is always discarded. -/
theorem rapid_commit_never (junk : Byte) (now : Nat) (c : Client) (xid : Nat) (hx : xid < 16777216) (os : List Opt)
    (tail : List Byte) (hf : Formed c os) (hr : ∀ o ∈ os, o.code = 14 → o.data = [])
    (hm : ∀ r ∈ c.requests, ∀ o ∈ os, o.code = r % 65536 → ∃ v, Means c.iaid now o.code o.data v) :
    ∃ c', listener junk now c .solicitation (packet 7 xid os ++ tail) (packet 7 xid os).length = some (c', .ignored) ∧ c'.values = c.values := by
  obtain ⟨c', r, e, hi, hg, _⟩ := reply_partial junk now c .solicitation 7 xid hx os tail hf hr hm
  have : r = .ignored := hi.mpr (fun h => absurd (h.2 rfl) (by decide))
  subst this
  obtain ⟨st, sd, rfl, _⟩ := hg rfl
  exact ⟨_, e, rfl⟩

/-- **C131 is false for ids of other lengths**: a message for the client `[1, 2, 3]` from the server `[9, 9]` is
taken by the client `[1, 2]` that talks to the server `[9]`. -/
theorem longer_id_accepted : (listener 0 50 exWait .request (packet 7 0xabcdef [⟨1, [1, 2, 3]⟩, ⟨2, [9, 9]⟩])
    (packet 7 0xabcdef [⟨1, [1, 2, 3]⟩, ⟨2, [9, 9]⟩]).length).map (fun r => r.2) = some (.done (some .request)) := by decide +kernel

/-- **C131 is false if `read` fails**: the packet is used though there is none. -/
theorem failed_read (junk : Byte) (now : Nat) (c : Client) (state : State) (buf : List Byte) : listener junk now c state buf (-1) = none := by
  simp [listener]

/-- **C131 is false for several callbacks**: the client sends a CONFIRM, and the answer is given to the
callback for RENEW. -/
theorem confirm_calls_renew : startWith { exWait with cbs := [.confirm, .renew] } = some (.confirm, 4) ∧
    (listener 0 50 { exWait with cbs := [.confirm, .renew] } .confirm (packet 7 0xabcdef exOpts) (packet 7 0xabcdef exOpts).length).map
      (fun r => r.2) = some (.done (some .renew)) := by decide +kernel

end Verif.Client6
