import Verif.Proof.Client6Name
/-!
# C128, C129: what the client reads from the options of a reply
-/
namespace Verif.Client6
open Verif.C Verif.Dhcp6.Spec Verif.Client6.Spec

/-- `get_addresses` of an IA_NA or IA_PD, up to the sub-options. -/
theorem getAddresses_ia (c : Client) (now : Nat) {buf : List Byte} (code off iaid t1 t2 : Nat) (subs : List Sub)
    (hcode : code = 3 ∨ code = 25) (hi : iaid < W32) (h1 : t1 < W32) (h2 : t2 < W32) (hok : ∀ x ∈ subs, x.Ok)
    (hat : At buf off (ia iaid t1 t2 (subs.map Sub.opt))) :
    getAddresses c now buf code off (ia iaid t1 t2 (subs.map Sub.opt)).length =
      if c.iaid ≠ iaid ∨ t1 > t2 ∨ subs = [] then some (c, [])
      else some (iaEnd c code t1 t2 (absorb now subs { status := c.status })) := by
  have hl : (ia iaid t1 t2 (subs.map Sub.opt)).length = 12 + (enc (subs.map Sub.opt)).length := by
    simp [ia, be4_length]; omega
  unfold ia at hat
  have e1 := be32_at hat.left.left.left hi
  have e2 := be32_at hat.left.left.right h1
  have e3 := be32_at hat.left.right h2
  have hs := hat.right
  simp only [List.length_append, be4_length] at e2 e3 hs
  unfold getAddresses
  rw [if_neg (by omega), e1, Option.bind_some]
  by_cases hid : c.iaid ≠ iaid
  · rw [if_pos hid, if_pos (Or.inl hid)]
  · rw [if_neg hid, if_pos hcode, e2, Option.bind_some, show off + 8 = off + (4 + 4) by omega, e3, Option.bind_some]
    by_cases ht : t1 > t2
    · rw [if_pos ht, if_pos (Or.inr (Or.inl ht))]
    · rw [if_neg ht]
      by_cases hn : subs = []
      · rw [if_pos (Or.inr (Or.inr hn)), if_pos (by rw [hl, hn]; simp [enc])]
      · have hpos : 0 < (enc (subs.map Sub.opt)).length := by
          cases subs with
          | nil => simp at hn
          | cons a b => simp [enc, bytes_length]; omega
        rw [if_neg (by omega), if_neg (by simp [ht, hn]; simpa using hid), hl,
          show 12 + (enc (subs.map Sub.opt)).length - 12 = (enc (subs.map Sub.opt)).length by omega,
          iaLoop_start now off 12 subs hn hok hs, Option.bind_some]

theorem getAddresses_ta (c : Client) (now : Nat) {buf : List Byte} (off iaid : Nat) (subs : List Sub)
    (hi : iaid < W32) (hok : ∀ x ∈ subs, x.Ok) (hat : At buf off (iata iaid (subs.map Sub.opt))) :
    getAddresses c now buf 4 off (iata iaid (subs.map Sub.opt)).length =
      if c.iaid ≠ iaid ∨ subs = [] then some (c, [])
      else some (iaEnd c 4 0 0 (absorb now subs { status := c.status })) := by
  have hl : (iata iaid (subs.map Sub.opt)).length = 4 + (enc (subs.map Sub.opt)).length := by
    simp [iata, be4_length]
  unfold iata at hat
  have e1 := be32_at hat.left hi
  have hs := hat.right
  simp only [be4_length] at hs
  unfold getAddresses
  rw [if_neg (by omega), e1, Option.bind_some]
  by_cases hid : c.iaid ≠ iaid
  · rw [if_pos hid, if_pos (Or.inl hid)]
  · rw [if_neg hid, if_neg (by decide)]
    by_cases hn : subs = []
    · rw [if_pos (Or.inr hn), if_pos (by rw [hl, hn]; simp [enc])]
    · have hpos : 0 < (enc (subs.map Sub.opt)).length := by
        cases subs with
        | nil => simp at hn
        | cons a b => simp [enc, bytes_length]; omega
      rw [if_neg (by omega), if_neg (by simp [hid, hn]), hl,
        show 4 + (enc (subs.map Sub.opt)).length - 4 = (enc (subs.map Sub.opt)).length by omega,
        iaLoop_start now off 4 subs hn hok hs, Option.bind_some]

theorem iaEnd_addr (c : Client) (now code t1 t2 : Nat) (hc : code = 3 ∨ code = 4) (subs : List Sub) (hp : ∀ x ∈ subs, x.isPfx = false) :
    iaEnd c code t1 t2 (absorb now subs { status := c.status }) = tookAddr (code == 4) c t1 t2 subs := by
  obtain ⟨i1, i2, i3, i4, i5⟩ := absorb_addr now subs { status := c.status } hp
  generalize absorb now subs { status := c.status } = s at *
  simp only at i1 i2 i3 i4
  unfold iaEnd tookAddr
  rw [i4, i3, i2, i1]
  cases hl : lastAddr subs with
  | some r =>
    obtain ⟨a, p, v⟩ := r
    rw [hl] at i5
    obtain ⟨j1, j2, j3, j4⟩ := i5
    simp only [j1, j2, j3, j4, true_and, gt_iff_lt, Nat.lt_irrefl, false_and, if_false, List.nil_append]
    by_cases hs : (lastStatus subs).getD 0 = 0
    · by_cases hpv : p ≤ v
      · have h1 : ¬ v < p := by omega
        have hm1 : c.expire < v → max c.expire v = v := fun h => by omega
        have hm2 : ¬ c.expire < v → max c.expire v = c.expire := fun h => by omega
        rcases hc with rfl | rfl <;> by_cases he : c.expire < v <;> simp [hs, hpv, h1, he, hm1, hm2]
      · have h1 : v < p := by omega
        simp [hs, hpv, h1]
    · simp [hs]
  | none =>
    rw [hl] at i5
    obtain ⟨j1, _, _, _⟩ := i5
    simp [j1]

/-- **C128 (addresses).** From a well-formed IA_NA, wherever it is in the packet: with another number, or
with T1 above T2, nothing is taken. Otherwise status, address, timers and end of the lease are those
of the association, as `tookAddr` says. (With several addresses only the last one is used.) -/
theorem ia_na_read (c : Client) (now : Nat) (pre post : List Byte) (iaid t1 t2 : Nat) (subs : List Sub)
    (hi : iaid < W32) (h1 : t1 < W32) (h2 : t2 < W32) (hok : ∀ x ∈ subs, x.Ok) (hp : ∀ x ∈ subs, x.isPfx = false) :
    getAddresses c now (pre ++ ia iaid t1 t2 (subs.map Sub.opt) ++ post) 3 pre.length (ia iaid t1 t2 (subs.map Sub.opt)).length =
      some (if c.iaid ≠ iaid ∨ t1 > t2 then (c, []) else tookAddr false c t1 t2 subs) := by
  rw [getAddresses_ia c now 3 pre.length iaid t1 t2 subs (Or.inl rfl) hi h1 h2 hok (At.mk _ _ _), iaEnd_addr c now 3 t1 t2 (Or.inl rfl) subs hp]
  by_cases h : c.iaid ≠ iaid ∨ t1 > t2
  · rw [if_pos h, if_pos (by rcases h with h | h; exact Or.inl h; exact Or.inr (Or.inl h))]
  · by_cases hn : subs = []
    · rw [if_pos (Or.inr (Or.inr hn)), if_neg h, hn]; rfl
    · rw [if_neg h, if_neg (fun k => by rcases k with k | k | k; exact h (Or.inl k); exact h (Or.inr k); exact hn k)]; rfl

/-- **C128 (temporary addresses).** The same for an IA_TA, which has no timers. -/
theorem ia_ta_read (c : Client) (now : Nat) (pre post : List Byte) (iaid : Nat) (subs : List Sub)
    (hi : iaid < W32) (hok : ∀ x ∈ subs, x.Ok) (hp : ∀ x ∈ subs, x.isPfx = false) :
    getAddresses c now (pre ++ iata iaid (subs.map Sub.opt) ++ post) 4 pre.length (iata iaid (subs.map Sub.opt)).length =
      some (if c.iaid ≠ iaid then (c, []) else tookAddr true c 0 0 subs) := by
  rw [getAddresses_ta c now pre.length iaid subs hi hok (At.mk _ _ _), iaEnd_addr c now 4 0 0 (Or.inr rfl) subs hp]
  by_cases h : c.iaid ≠ iaid
  · rw [if_pos h, if_pos (Or.inl h)]
  · by_cases hn : subs = []
    · rw [if_pos (Or.inr hn), if_neg h, hn]; rfl
    · rw [if_neg h, if_neg (fun k => by rcases k with k | k; exact h k; exact hn k)]; rfl

/-- **C128 (prefixes, partial).** From a well-formed IA_PD: with another number, or with T1 above T2,
nothing is taken. Otherwise the prefixes with a preferred lifetime below the valid one are taken, in
order, with the timers. Missing: a prefix with equal lifetimes is lost (`equal_lifetimes_lost`), and
the end of the lease is always forgotten: `expire` becomes zero whatever the lifetimes are. -/
theorem ia_pd_read_partial (c : Client) (now : Nat) (pre post : List Byte) (iaid t1 t2 : Nat) (subs : List Sub)
    (hi : iaid < W32) (h1 : t1 < W32) (h2 : t2 < W32) (hok : ∀ x ∈ subs, x.Ok) (ha : ∀ x ∈ subs, x.isAddr = false) :
    getAddresses c now (pre ++ ia iaid t1 t2 (subs.map Sub.opt) ++ post) 25 pre.length (ia iaid t1 t2 (subs.map Sub.opt)).length =
      some (if c.iaid ≠ iaid ∨ t1 > t2 then (c, [])
        else if usable now subs = [] then ({ c with status := (lastStatus subs).getD c.status }, [])
        else ({ c with status := (lastStatus subs).getD c.status, t1 := t1, t2 := t2, expire := 0 }, usable now subs)) := by
  rw [getAddresses_ia c now 25 pre.length iaid t1 t2 subs (Or.inr rfl) hi h1 h2 hok (At.mk _ _ _)]
  by_cases h : c.iaid ≠ iaid ∨ t1 > t2
  · rw [if_pos h, if_pos (by rcases h with h | h; exact Or.inl h; exact Or.inr (Or.inl h))]
  · by_cases hn : subs = []
    · rw [if_pos (Or.inr (Or.inr hn)), if_neg h, hn]; rfl
    · rw [if_neg h, if_neg (fun k => by rcases k with k | k | k; exact h (Or.inl k); exact h (Or.inr k); exact hn k)]
      obtain ⟨i2, i3, i4, i5⟩ := absorb_pfx now subs { status := c.status } ha
      simp only [List.append_nil, Nat.zero_add] at i3 i4 i5
      unfold iaEnd
      rw [i2, i3, i4, i5]
      simp only [gt_iff_lt, Nat.lt_irrefl, false_and, if_false]
      by_cases hu : usable now subs = []
      · simp [hu]
      · have : 0 < (usable now subs).length := List.length_pos_iff.mpr hu
        simp [hu, this]

/-- An association with a status, an address that is replaced by a second one, and something unknown. -/
def exSubs : List Sub :=
  [.status 0 (bytes "ok"), .addr (List.replicate 16 1) 5 9 [], .other ⟨99, []⟩, .addr (List.replicate 16 2) 60 90 [1]]

example : (∀ x ∈ exSubs, x.isPfx = false) ∧
    getAddresses { iaid := 7, expire := 80 } 1000 ([5] ++ ia 7 10 20 (exSubs.map Sub.opt) ++ [1, 2]) 3 1 (ia 7 10 20 (exSubs.map Sub.opt)).length =
      some ({ iaid := 7, t1 := 10, t2 := 20, expire := 90, iaNa := List.replicate 16 2 }, [.addr (List.replicate 16 2)]) := by
  refine ⟨by decide, by decide +kernel⟩

example : exSubs.all (fun x => decide (x.opt.code < 65536 ∧ x.opt.data.length < 65532)) = true := by decide +kernel

example : getAddresses { iaid := 7, expire := 80 } 1000
      (ia 7 10 20 ([Sub.pfx 5 9 64 (List.replicate 16 1) [], .pfx 9 5 64 (List.replicate 16 2) [], .pfx 1 2 48 (List.replicate 16 3) []].map Sub.opt))
      25 0 99 =
    some ({ iaid := 7, t1 := 10, t2 := 20, expire := 0 },
      [.pfx ⟨List.replicate 16 1, 64, 5, 9, 1009⟩, .pfx ⟨List.replicate 16 3, 48, 1, 2, 1002⟩]) := by decide +kernel

/-- **C128 is false for prefixes with equal lifetimes**: a prefix that is preferred as long as it is
valid, for ever in the example, is not taken (RFC 8415 §21.22 forbids only longer ones). -/
theorem equal_lifetimes_lost (c : Client) (hc : c.iaid = 7) (now : Nat) :
    getAddresses c now (ia 7 10 20 ([Sub.pfx 0xffffffff 0xffffffff 64 (List.replicate 16 1) []].map Sub.opt)) 25 0 41 =
      some (c, []) := by
  have h := ia_pd_read_partial c now [] [] 7 10 20 [Sub.pfx 0xffffffff 0xffffffff 64 (List.replicate 16 1) []]
    (by decide) (by decide) (by decide)
    (by
      intro x hx
      simp only [List.mem_singleton] at hx
      subst hx
      exact ⟨⟨by decide, by decide⟩, by decide, by decide, by decide⟩) (by
        intro x hx
        simp only [List.mem_singleton] at hx
        subst hx
        rfl)
  rw [if_neg (by simp [hc]), if_pos (by simp [usable, prefixes])] at h
  rw [List.nil_append, List.append_nil] at h
  have hl : (ia 7 10 20 ([Sub.pfx 0xffffffff 0xffffffff 64 (List.replicate 16 1) []].map Sub.opt)).length = 41 := by decide
  rw [hl] at h
  exact h

/-- **C128 is false for a shortened lease**: when an address is renewed for a shorter time, the client
goes on to report the longer one. -/
theorem shortened_lease_not_seen : (getAddresses { iaid := 7, expire := 7200 } 0
      (ia 7 10 20 ([Sub.addr (List.replicate 16 1) 60 60 []].map Sub.opt)) 3 0 40).map (fun r => (r.1.expire, r.2)) =
    some (7200, [.addr (List.replicate 16 1)]) := by decide +kernel

/-- **C128 is false for malformed associations**: an address sub-option without contents. The address
taken is made of the bytes of the following options of the packet, here of a list of DNS servers. -/
theorem address_from_next_option :
    (getAddresses { iaid := 7 } 0 (be4 7 ++ be4 10 ++ be4 20 ++ [0, 5, 0, 0] ++ [0, 98, 0, 0] ++ (⟨23, List.replicate 16 0xee ++ be4 9 ++ be4 9⟩ : Opt).bytes)
      3 0 20).map Prod.snd =
      some [.addr ([0, 98, 0, 0] ++ [0, 23, 0, 24] ++ List.replicate 8 0xee)] := by decide +kernel

/-- … and an association without timers at the end of the buffer is read beyond it. -/
theorem timers_behind_buffer : getAddresses { iaid := 7 } 0 (be4 7) 3 0 4 = none := by decide +kernel

theorem be32_defined {buf : List Byte} {p : Nat} (h : p + 4 ≤ buf.length) : ∃ n, be32 buf p = some n := by
  unfold be32
  rw [List.getElem?_eq_getElem (by omega), List.getElem?_eq_getElem (by omega), List.getElem?_eq_getElem (by omega),
    List.getElem?_eq_getElem (by omega)]
  exact ⟨_, rfl⟩

theorem iaSub_defined (now : Nat) {buf : List Byte} (code len o : Nat) (s : Ia) (h : o + 25 ≤ buf.length) (h2 : o + len ≤ buf.length) :
    ∃ s', iaSub now buf code len o s = some s' := by
  unfold iaSub
  by_cases h5 : code = 5
  · rw [if_pos h5]
    obtain ⟨d, e1, _, _⟩ := rd_ex (b := buf) (i := o) (n := 16) (by omega)
    obtain ⟨p, e2⟩ := be32_defined (buf := buf) (p := o + 16) (by omega)
    obtain ⟨v, e3⟩ := be32_defined (buf := buf) (p := o + 20) (by omega)
    rw [e1, Option.bind_some, e2, Option.bind_some, e3, Option.bind_some]; exact ⟨_, rfl⟩
  · rw [if_neg h5]
    by_cases h13 : code = 13
    · rw [if_pos h13]
      obtain ⟨st, e1⟩ := Dhcp6.be16_some (buf := buf) (p := o) (by omega)
      rw [e1, Option.bind_some]
      by_cases hl : len > 2
      · rw [if_pos hl, strnRead_ok _ _ (by omega)]; exact ⟨_, rfl⟩
      · rw [if_neg hl]; exact ⟨_, rfl⟩
    · rw [if_neg h13]
      by_cases h26 : code = 26
      · rw [if_pos h26]
        obtain ⟨p, e2⟩ := be32_defined (buf := buf) (p := o) (by omega)
        obtain ⟨v, e3⟩ := be32_defined (buf := buf) (p := o + 4) (by omega)
        obtain ⟨d, e1, _, _⟩ := rd_ex (b := buf) (i := o + 9) (n := 16) (by omega)
        rw [e2, Option.bind_some, e3, Option.bind_some, List.getElem?_eq_getElem (by omega), Option.bind_some, e1, Option.bind_some]
        simp only []
        split <;> exact ⟨_, rfl⟩
      · rw [if_neg h26]; exact ⟨_, rfl⟩

/-- **C128 (safety, partial).** Whatever the bytes of an association are: if the buffer goes on for as
many bytes as the association has and 28 more, nothing is read outside the buffer and the reading
ends. (So it does for every packet of at most 736 bytes in the buffer of 1500.) Missing: other
packets, see `timers_behind_buffer`. -/
theorem getAddresses_safe_partial (c : Client) (now : Nat) (buf : List Byte) (code off len : Nat)
    (h : off + 2 * len + 28 ≤ buf.length) : ∃ r, getAddresses c now buf code off len = some r := by
  have loop : ∀ (fuel pos : Nat) (s : Ia) (maxLen : Nat), maxLen ≤ len → pos < len → len ≤ pos + fuel →
      ∃ s', iaLoop now buf off len maxLen fuel pos s = some s' := by
    intro fuel
    induction fuel with
    | zero => intro pos s maxLen _ h1 h2; omega
    | succ fuel ih =>
      intro pos s maxLen hm h1 h2
      rw [iaLoop]
      obtain ⟨r, e, hr⟩ := Dhcp6.getSubOption_safe (buf.drop (off + pos)) (min maxLen (buf.drop (off + pos)).length) (Nat.min_le_right _ _)
      have hsub : ∃ r, Dhcp6.getSubOption (buf.drop (off + pos)) maxLen = some r ∧
          ∀ cd ol x, r = some (cd, ol, x) → 4 + ol ≤ maxLen := by
        unfold Dhcp6.getSubOption
        by_cases hs : (maxLen : Int) - 2 - 2 ≤ 0
        · rw [if_pos hs]; exact ⟨none, rfl, by simp⟩
        · rw [if_neg hs]
          obtain ⟨oc, e1⟩ := Dhcp6.be16_some (buf := buf.drop (off + pos)) (p := 0) (by rw [List.length_drop]; omega)
          obtain ⟨ol, e2⟩ := Dhcp6.be16_some (buf := buf.drop (off + pos)) (p := 2) (by rw [List.length_drop]; omega)
          simp only [e1, e2, Option.bind_eq_bind, Option.bind_some]
          by_cases ho : (maxLen : Int) - 2 - 2 - (ol : Int) < 0
          · rw [if_pos ho]; exact ⟨none, rfl, by simp⟩
          · rw [if_neg ho]
            refine ⟨_, rfl, ?_⟩
            intro cd ol' x hx
            simp only [Option.some.injEq, Prod.mk.injEq] at hx
            omega
      obtain ⟨r', e', hr'⟩ := hsub
      rw [e', Option.bind_some]
      cases r' with
      | none => exact ⟨_, rfl⟩
      | some t =>
        obtain ⟨cd, ol, x⟩ := t
        have hol := hr' cd ol x rfl
        simp only []
        rw [if_neg (by omega)]
        obtain ⟨s', es⟩ := iaSub_defined now (buf := buf) cd ol (off + pos + 4) s (by omega) (by omega)
        rw [es, Option.bind_some]
        by_cases hgo : pos + (2 + 2 + ol) < len
        · rw [if_pos hgo]; exact ih _ _ _ hm hgo (by omega)
        · rw [if_neg hgo]; exact ⟨_, rfl⟩
  unfold getAddresses
  by_cases hl : len < 4
  · rw [if_pos hl]; exact ⟨_, rfl⟩
  · rw [if_neg hl]
    obtain ⟨id, e1⟩ := be32_defined (buf := buf) (p := off) (by omega)
    rw [e1, Option.bind_some]
    by_cases hid : c.iaid ≠ id
    · rw [if_pos hid]; exact ⟨_, rfl⟩
    · rw [if_neg hid]
      by_cases hc : code = 3 ∨ code = 25
      · rw [if_pos hc]
        obtain ⟨t1, e2⟩ := be32_defined (buf := buf) (p := off + 4) (by omega)
        obtain ⟨t2, e3⟩ := be32_defined (buf := buf) (p := off + 8) (by omega)
        rw [e2, Option.bind_some, e3, Option.bind_some]
        by_cases ht : t1 > t2
        · rw [if_pos ht]; exact ⟨_, rfl⟩
        · rw [if_neg ht]
          by_cases h12 : len ≤ 12
          · rw [if_pos h12]; exact ⟨_, rfl⟩
          · rw [if_neg h12]
            obtain ⟨s', es⟩ := loop len 12 { status := c.status } (len - 12) (by omega) (by omega) (by omega)
            rw [es]; exact ⟨_, rfl⟩
      · rw [if_neg hc]
        by_cases h4 : len ≤ 4
        · rw [if_pos h4]; exact ⟨_, rfl⟩
        · rw [if_neg h4]
          obtain ⟨s', es⟩ := loop len 4 { status := c.status } (len - 4) (by omega) (by omega) (by omega)
          rw [es]; exact ⟨_, rfl⟩

/-- A status that claims a text it does not have, in a buffer with room behind. -/
example : (getAddresses { iaid := 7 } 0 (be4 7 ++ [0, 13, 0, 9, 0, 2] ++ [0, 13, 0, 0] ++ List.replicate 60 1) 4 0 14).map (·.1.status) =
    some 0 := by decide +kernel

/-- **C129 (names).** A list of well-formed domain names, wherever it is in the packet and whatever was
in the array before, is read as these names with dots. (A list of less than three bytes, which can
only hold the root, is taken for none.) -/
theorem domains_read (junk : Byte) (pre post : List Byte) (names : List (List (List Byte))) (hok : ∀ n ∈ names, NameOk n)
    (h3 : 3 ≤ (names.flatMap encName).length) :
    getDomains junk (pre ++ names.flatMap encName ++ post) pre.length (names.flatMap encName).length =
      some (names.map fun n => .name (dotted n)) := by
  have hl : ∀ t : List (List (List Byte)), t.length ≤ (t.flatMap encName).length := by
    intro t
    induction t with
    | nil => simp
    | cons a b ih =>
      have : 0 < (encName a).length := by simp [encName]
      simp only [List.flatMap_cons, List.length_append, List.length_cons]; omega
  have := hl names
  rw [getDomains, if_neg (by omega)]
  exact domLoop_ok junk pre.length _ names _ 0 hok (At.mk _ _ _) (by omega) (by omega)

example : getDomains 0xff ([1, 2] ++ [[bytes "www", bytes "example", bytes "org"], [bytes "lan"]].flatMap encName ++ [0]) 2 22 =
    some [.name (bytes "www.example.org"), .name (bytes "lan")] := by decide +kernel

/-- **C129 is false for names with a NUL in a label**: what is behind it is lost, and the rest of the list
is read at the wrong place. -/
theorem nul_in_label : getDomains 0 (([[[97, 0, 98]], [bytes "lan"]].flatMap encName) ++ List.replicate 9 0) 0 10 =
    some [.name [97], .name (bytes "lan")] ∧ dotted [[97, 0, 98]] = [97, 0, 98] := by decide +kernel

/-- **C129 is false for malformed lists**: a "label" of 255 bytes is accepted, and four of them lead out of
the array of 1026 bytes. The packet is not larger than what the client receives. -/
theorem domains_leave_array (junk : Byte) (off : Nat) : getDomains junk (List.replicate off 0 ++ List.replicate 1400 0xff) off 1400 = none := by
  have hs : ∀ n p, p + n ≤ 1400 → strncpy (List.replicate off 0 ++ List.replicate 1400 0xff) (off + p) n = some (List.replicate n 0xff) := by
    intro n
    induction n with
    | zero => intro p _; rfl
    | succ n ih =>
      intro p hp
      rw [strncpy, List.getElem?_append_right (by simp), List.getElem?_replicate, if_pos (by simp; omega), Option.bind_some,
        if_neg (by decide), Nat.add_assoc, ih (p + 1) (by omega)]
      rfl
  rw [getDomains, if_neg (by omega), domLoop, if_pos (by omega), hs 1025 0 (by omega), Option.bind_some]
  have hd : ∀ junk : Byte, dots 1027 (List.replicate 1025 0xff ++ [junk]) 0 = none := by
    intro junk
    have hstep : ∀ (f c : Nat) (nm : List Byte), nm.length = 1026 → nm[c]? = some 0xff → c < 1025 →
        dots (f + 1) nm c = dots f (nm.set c (ch '.')) (c + 256) := by
      intro f c nm hl hc hlt
      rw [dots, hc, Option.bind_some, if_neg (by decide), wr_some (by simp; omega), Option.bind_some, List.set_eq_take_append_cons_drop,
        if_pos (by omega)]
      simp only [List.length_singleton, List.append_assoc, List.singleton_append]
      rfl
    have hg : ∀ c, c < 1025 → (List.replicate 1025 (0xff : Byte) ++ [junk])[c]? = some 0xff := by
      intro c hc
      rw [List.getElem?_append_left (by rw [List.length_replicate]; omega), List.getElem?_replicate, if_pos hc]
    have hl : (List.replicate 1025 (0xff : Byte) ++ [junk]).length = 1026 := by
      rw [List.length_append, List.length_replicate]; rfl
    generalize List.replicate 1025 (0xff : Byte) ++ [junk] = nm at hg hl ⊢
    rw [hstep 1026 0 _ hl (hg 0 (by omega)) (by omega)]
    rw [hstep 1025 256 _ (by simpa using hl) (by rw [List.getElem?_set_ne (by decide)]; exact hg _ (by omega)) (by omega)]
    rw [hstep 1024 512 _ (by simpa using hl) (by rw [List.getElem?_set_ne (by decide), List.getElem?_set_ne (by decide)]; exact hg _ (by omega)) (by omega)]
    rw [hstep 1023 768 _ (by simpa using hl) (by
      rw [List.getElem?_set_ne (by decide), List.getElem?_set_ne (by decide), List.getElem?_set_ne (by decide)]; exact hg _ (by omega)) (by omega)]
    rw [hstep 1022 1024 _ (by simpa using hl) (by
      rw [List.getElem?_set_ne (by decide), List.getElem?_set_ne (by decide), List.getElem?_set_ne (by decide),
        List.getElem?_set_ne (by decide)]; exact hg _ (by omega)) (by omega)]
    rw [dots, List.getElem?_eq_none (by simp only [List.length_set]; omega)]
    rfl
  rw [hd]; rfl

/-- **C129 (servers).** A list of DNS or SNTP servers of 16 bytes each is read as these addresses in
order; a list of any other length is refused as a whole. -/
theorem servers_read (junk : Byte) (now : Nat) (c : Client) (pre post : List Byte) (code : Nat) (hc : code = 23 ∨ code = 31) :
    (∀ as : List (List Byte), (∀ a ∈ as, a.length = 16) →
      valueList junk now c (pre ++ as.flatten ++ post) code pre.length as.flatten.length = some (c, as.map .addr)) ∧
    (∀ data : List Byte, data.length % 16 ≠ 0 → valueList junk now c (pre ++ data ++ post) code pre.length data.length = some (c, [])) := by
  constructor
  · intro as h
    have hl : as.flatten.length = 16 * as.length := by
      induction as with
      | nil => rfl
      | cons a t ih =>
        simp only [List.flatten_cons, List.length_append, List.length_cons, h a (by simp), ih (fun x hx => h x (by simp [hx]))]; omega
    rw [valueList, if_pos hc, if_neg (by omega), show as.flatten.length / 16 = as.length by omega,
      servers_ok as h _ (At.mk _ _ _)]
    rfl
  · intro data h
    rw [valueList, if_pos hc, if_pos h]

example : valueList 0 0 {} ([1] ++ (List.replicate 16 2 ++ List.replicate 16 3)) 23 1 32 =
    some ({}, [.addr (List.replicate 16 2), .addr (List.replicate 16 3)]) := by decide +kernel

end Verif.Client6
