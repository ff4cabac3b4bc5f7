import Verif.Props.Client6Read
/-!
# Helper lemmas: finding options in a reply and taking their values
-/
namespace Verif.Client6
open Verif.C Verif.Dhcp6.Spec Verif.Client6.Spec

theorem last_spec (code : Nat) {buf : List Byte} (os : List Opt) : ∀ pos, At buf pos (enc os) →
    match lastOf code os with
    | none => last code pos os = none
    | some o => ∃ p, last code pos os = some (p, o.data) ∧ At buf p o.data := by
  induction os with
  | nil => intro pos _; rfl
  | cons x t ih =>
    intro pos hat
    simp only [enc] at hat
    have hr := ih _ hat.right
    have hl := hat.left
    simp only [lastOf, List.reverse_cons, List.find?_append] at hr ⊢
    cases hf : t.reverse.find? (fun o => o.code = code) with
    | some o =>
      simp only [hf] at hr
      obtain ⟨p, e, ha⟩ := hr
      simp only [Option.some_or, last]
      exact ⟨p, by rw [e], ha⟩
    | none =>
      simp only [hf] at hr
      simp only [Option.none_or, List.find?_cons, List.find?_nil, last]
      rw [hr]
      by_cases hc : x.code = code
      · simp only [hc, decide_true, if_true]
        refine ⟨pos + 4, rfl, ?_⟩
        rw [bytes_eq] at hl
        exact hl.right
      · simp [hc]

theorem enc_length (l : List Opt) : l.length ≤ (enc l).length := by
  induction l with
  | nil => simp
  | cons x t ih => simp only [enc, List.length_append, bytes_length, List.length_cons]; omega

/-- A packet in the buffer. -/
structure In (buf : List Byte) (n : Nat) (os : List Opt) : Prop where
  eq : ∃ hdr tail : List Byte, hdr.length = 4 ∧ buf = hdr ++ enc os ++ tail ∧ n = (hdr ++ enc os).length
  ne : os ≠ []
  ok : ∀ o ∈ os, o.Ok

theorem In.at {buf : List Byte} {n : Nat} {os : List Opt} (h : In buf n os) : At buf 4 (enc os) := by
  obtain ⟨hdr, tail, hh, hb, _⟩ := h.eq
  rw [hb, ← hh]; exact At.mk _ _ _

theorem In.found {buf : List Byte} {n : Nat} {os : List Opt} (h : In buf n os) (code : Nat) :
    Dhcp6.getOption buf n code (n + 1) =
      .ok { ptr := (last code 4 os).map Prod.fst, len := (last code 4 os).map (fun r => r.2.length), count := count code os } := by
  obtain ⟨hdr, tail, hh, hb, hn⟩ := h.eq
  have := enc_length os
  rw [hb, hn]
  exact Dhcp6.getOption_finds hdr hh os h.ne h.ok code _ (by rw [List.length_append]; omega) tail

theorem In.look {buf : List Byte} {n : Nat} {os : List Opt} (h : In buf n os) (code : Nat) :
    match lastOf code os with
    | none => look buf n code = some none
    | some o => ∃ p, look buf n code = some (some (p, o.data.length, count code os)) ∧ At buf p o.data := by
  have hs := last_spec code os 4 h.at
  cases hl : lastOf code os with
  | none =>
    simp only [hl] at hs
    simp only [Client6.look, h.found code, hs, Option.map_none]
  | some o =>
    simp only [hl] at hs
    obtain ⟨p, e, ha⟩ := hs
    refine ⟨p, ?_, ha⟩
    simp only [Client6.look, h.found code, e, Option.map_some]

/-- What `get_dhcpv6_request` leaves alone. -/
structure Same (c c' : Client) : Prop where
  cbs : c'.cbs = c.cbs
  duid : c'.duid = c.duid
  server : c'.serverDuid = c.serverDuid
  xid : c'.xid = c.xid
  requests : c'.requests = c.requests
  sends : c'.sends = c.sends
  iaid : c'.iaid = c.iaid

theorem Same.rfl' (c : Client) : Same c c := ⟨rfl, rfl, rfl, rfl, rfl, rfl, rfl⟩

theorem Same.trans {a b c : Client} (h : Same a b) (g : Same b c) : Same a c :=
  ⟨g.cbs.trans h.cbs, g.duid.trans h.duid, g.server.trans h.server, g.xid.trans h.xid, g.requests.trans h.requests,
    g.sends.trans h.sends, g.iaid.trans h.iaid⟩

theorem tookAddr_same (t : Bool) (c : Client) (t1 t2 : Nat) (subs : List Sub) :
    Same c (tookAddr t c t1 t2 subs).1 ∧ (tookAddr t c t1 t2 subs).1.values = c.values ∧ (tookAddr t c t1 t2 subs).2 = addrValue subs := by
  unfold tookAddr addrValue
  cases lastAddr subs with
  | none => exact ⟨⟨rfl, rfl, rfl, rfl, rfl, rfl, rfl⟩, rfl, rfl⟩
  | some x =>
    obtain ⟨a, p, v⟩ := x
    simp only
    by_cases h : (lastStatus subs).getD 0 = 0 ∧ p ≤ v
    · rw [if_pos h, if_pos h]
      cases t <;> exact ⟨⟨rfl, rfl, rfl, rfl, rfl, rfl, rfl⟩, rfl, rfl⟩
    · rw [if_neg h, if_neg h]
      exact ⟨⟨rfl, rfl, rfl, rfl, rfl, rfl, rfl⟩, rfl, rfl⟩

theorem At.split {buf : List Byte} {p : Nat} {l : List Byte} (h : At buf p l) (hp : p ≤ buf.length) :
    ∃ pre post, buf = pre ++ l ++ post ∧ pre.length = p := by
  obtain ⟨q, hq⟩ := h
  exact ⟨buf.take p, q, by rw [List.append_assoc, ← hq, List.take_append_drop], by rw [List.length_take]; omega⟩

theorem valueList_means (junk : Byte) (now : Nat) (c : Client) {buf : List Byte} {p code : Nat} {data : List Byte} {v : List Val}
    (hm : Means c.iaid now code data v) (hat : At buf p data) (hp : p ≤ buf.length) :
    ∃ c', valueList junk now c buf code p data.length = some (c', v) ∧ Same c c' ∧ c'.values = c.values := by
  obtain ⟨pre, post, rfl, rfl⟩ := hat.split hp
  cases hm with
  | servers _ as hc h => exact ⟨c, (servers_read junk now c pre post code hc).1 as h, Same.rfl' c, rfl⟩
  | notServers _ _ hc h => exact ⟨c, (servers_read junk now c pre post code hc).2 data h, Same.rfl' c, rfl⟩
  | domains names h h3 =>
    refine ⟨c, ?_, Same.rfl' c, rfl⟩
    rw [valueList, if_neg (by decide), if_neg (by decide), if_pos rfl, domains_read junk pre post names h h3]; rfl
  | noDomains _ h =>
    refine ⟨c, ?_, Same.rfl' c, rfl⟩
    rw [valueList, if_neg (by decide), if_neg (by decide), if_pos rfl, getDomains, if_pos (by omega)]; rfl
  | na id t1 t2 subs hi h1 h2 hok hpf =>
    rw [valueList, if_neg (by decide), if_pos (by decide), ia_na_read c now pre post id t1 t2 subs hi h1 h2 hok hpf]
    obtain ⟨s1, s2, s3⟩ := tookAddr_same false c t1 t2 subs
    by_cases h : id = c.iaid ∧ t1 ≤ t2
    · rw [if_pos h, if_neg (by rintro (h' | h'); exact h' h.1.symm; omega)]
      exact ⟨_, by rw [← s3], s1, s2⟩
    · rw [if_neg h, if_pos (by
        by_cases hi' : c.iaid = id
        · exact Or.inr (by by_cases h' : t1 > t2; exact h'; exact absurd ⟨hi'.symm, by omega⟩ h)
        · exact Or.inl hi')]
      exact ⟨c, rfl, Same.rfl' c, rfl⟩
  | ta id subs hi hok hpf =>
    rw [valueList, if_neg (by decide), if_pos (by decide), ia_ta_read c now pre post id subs hi hok hpf]
    obtain ⟨s1, s2, s3⟩ := tookAddr_same true c 0 0 subs
    by_cases h : id = c.iaid
    · rw [if_pos h, if_neg (fun h' => h' h.symm)]
      exact ⟨_, by rw [← s3], s1, s2⟩
    · rw [if_neg h, if_pos (fun h' => h h'.symm)]
      exact ⟨c, rfl, Same.rfl' c, rfl⟩
  | pd id t1 t2 subs hi h1 h2 hok hpa =>
    rw [valueList, if_neg (by decide), if_pos (by decide), ia_pd_read_partial c now pre post id t1 t2 subs hi h1 h2 hok hpa]
    by_cases h : id = c.iaid ∧ t1 ≤ t2
    · rw [if_pos h, if_neg (by rintro (h' | h'); exact h' h.1.symm; omega)]
      by_cases hu : usable now subs = []
      · rw [if_pos hu, hu]
        exact ⟨_, rfl, ⟨rfl, rfl, rfl, rfl, rfl, rfl, rfl⟩, rfl⟩
      · rw [if_neg hu]
        exact ⟨_, rfl, ⟨rfl, rfl, rfl, rfl, rfl, rfl, rfl⟩, rfl⟩
    · rw [if_neg h, if_pos (by
        by_cases hi' : c.iaid = id
        · exact Or.inr (by by_cases h' : t1 > t2; exact h'; exact absurd ⟨hi'.symm, by omega⟩ h)
        · exact Or.inl hi')]
      exact ⟨c, rfl, Same.rfl' c, rfl⟩
  | other _ _ h =>
    simp only [List.mem_cons, List.not_mem_nil, or_false, not_or] at h
    obtain ⟨h3, h4, h23, h24, h25, h31⟩ := h
    refine ⟨c, ?_, Same.rfl' c, rfl⟩
    rw [valueList, if_neg (by omega), if_neg (by omega), if_neg h24]

theorem valuesOf_set (c : Client) (code k : Nat) (v : List Val) :
    valuesOf (c.setValue code v) k = if k = code then v else valuesOf c k := by
  unfold valuesOf Client.setValue
  by_cases hk : k = code
  · subst hk
    rw [if_pos rfl]
    by_cases hv : v = []
    · have : (c.values.filter fun e => e.1 ≠ k).find? (fun e => e.1 = k) = none := by
        rw [List.find?_eq_none]; intro e he; simpa using (List.mem_filter.mp he).2
      simp only [if_pos hv, List.nil_append, this]; exact hv.symm
    · simp [if_neg hv]
  · rw [if_neg hk]
    have : ∀ l : List (Nat × List Val), (l.filter fun e => e.1 ≠ code).find? (fun e => e.1 = k) = l.find? (fun e => e.1 = k) := by
      intro l
      induction l with
      | nil => rfl
      | cons e t ih =>
        by_cases he : e.1 = code
        · rw [List.filter_cons_of_neg (by simpa using he), ih, List.find?_cons_of_neg (by simp; omega)]
        · rw [List.filter_cons_of_pos (by simpa using he)]
          by_cases hek : e.1 = k
          · rw [List.find?_cons_of_pos (by simpa using hek), List.find?_cons_of_pos (by simpa using hek)]
          · rw [List.find?_cons_of_neg (by simpa using hek), List.find?_cons_of_neg (by simpa using hek), ih]
    by_cases hv : v = []
    · simp only [if_pos hv, List.nil_append, this]
    · simp only [if_neg hv, List.singleton_append]
      rw [List.find?_cons_of_neg (by simp; omega), this]

theorem setValue_same (c : Client) (code : Nat) (v : List Val) : Same c (c.setValue code v) := ⟨rfl, rfl, rfl, rfl, rfl, rfl, rfl⟩

theorem lastOf_mem {code : Nat} {os : List Opt} {o : Opt} (h : lastOf code os = some o) : o ∈ os ∧ o.code = code := by
  have h1 := List.mem_of_find?_eq_some h
  have h2 := List.find?_some h
  exact ⟨by simpa using h1, by simpa using h2⟩

theorem getOne_ok (junk : Byte) (now : Nat) {buf : List Byte} {n : Nat} {os : List Opt} (h : In buf n os) (c : Client) (code : Nat)
    (hm : ∀ o ∈ os, o.code = code → ∃ v, Means c.iaid now code o.data v) :
    ∃ c', getOne junk now buf n c code = some c' ∧ Same c c' ∧ (∀ k, k ≠ code → valuesOf c' k = valuesOf c k) ∧
      match lastOf code os with
      | some o => ∀ v, Means c.iaid now code o.data v → valuesOf c' code = v
      | none => valuesOf c' code = [] := by
  have hs := last_spec code os 4 h.at
  cases hl : lastOf code os with
  | none =>
    simp only [hl] at hs
    refine ⟨c.setValue code [], ?_, setValue_same _ _ _, ?_, ?_⟩
    · simp only [getOne, h.found code, hs, Option.map_none]
    · intro k hk; rw [valuesOf_set, if_neg hk]
    · show valuesOf _ _ = _
      rw [valuesOf_set, if_pos rfl]
  | some o =>
    simp only [hl] at hs
    obtain ⟨p, e, ha⟩ := hs
    obtain ⟨ho, hoc⟩ := lastOf_mem hl
    obtain ⟨v, hv⟩ := hm o ho hoc
    have hple : p ≤ buf.length := by
      by_cases h' : o.data = []
      · obtain ⟨hdr, tail, hh, hb, hn⟩ := h.eq
        have key : ∀ (l : List Opt) (pos q : Nat) (d : List Byte), last code pos l = some (q, d) → q ≤ pos + (enc l).length := by
          intro l
          induction l with
          | nil => intro _ _ _ h; simp [last] at h
          | cons x t ih =>
            intro pos q d h
            simp only [last] at h
            simp only [enc, List.length_append]
            split at h
            · rename_i r hr
              obtain ⟨q', d'⟩ := r
              simp only [Option.some.injEq, Prod.mk.injEq] at h
              have := ih _ _ _ hr
              omega
            · split at h
              · simp only [Option.some.injEq, Prod.mk.injEq] at h
                rw [bytes_length]; omega
              · simp at h
        have := key os 4 p _ e
        rw [hb, List.length_append, List.length_append]; omega
      · have := ha.le h'; omega
    have each : ∀ v, Means c.iaid now code o.data v → ∃ c', valueList junk now c buf code p o.data.length = some (c', v) ∧ Same c c' ∧ c'.values = c.values :=
      fun v hv => valueList_means junk now c hv ha hple
    obtain ⟨c', e', hsame, hvals⟩ := each v hv
    refine ⟨c'.setValue code v, ?_, hsame.trans (setValue_same _ _ _), ?_, ?_⟩
    · simp only [getOne, h.found code, e, Option.map_some, e', Option.bind_some]
    · intro k hk; rw [valuesOf_set, if_neg hk]; unfold valuesOf; rw [hvals]
    · show ∀ v', _ → valuesOf _ _ = _
      intro v' hv'
      rw [valuesOf_set, if_pos rfl]
      obtain ⟨c'', e'', _⟩ := each v' hv'
      rw [e'] at e''
      simp only [Option.some.injEq, Prod.mk.injEq] at e''
      exact e''.2

theorem getRequest_ok (junk : Byte) (now : Nat) {buf : List Byte} {n : Nat} {os : List Opt} (h : In buf n os) (reqs : List Nat) :
    ∀ c : Client, (∀ r ∈ reqs, ∀ o ∈ os, o.code = r % 65536 → ∃ v, Means c.iaid now o.code o.data v) →
    ∃ c', getRequest junk now buf n reqs c = some c' ∧ Same c c' ∧
      ∀ code, if ∃ r ∈ reqs, r % 65536 = code then
          match lastOf code os with
          | some o => ∀ v, Means c.iaid now code o.data v → valuesOf c' code = v
          | none => valuesOf c' code = []
        else valuesOf c' code = valuesOf c code := by
  induction reqs with
  | nil => intro c _; exact ⟨c, rfl, Same.rfl' c, fun code => by rw [if_neg (by simp)]⟩
  | cons r t ih =>
    intro c hm
    obtain ⟨c1, e1, s1, k1, v1⟩ := getOne_ok junk now h c (r % 65536) (fun o ho hoc => by
      have := hm r (by simp) o ho hoc; rwa [hoc] at this)
    obtain ⟨c2, e2, s2, v2⟩ := ih c1 (fun r' hr' o ho hoc => by
      rw [s1.iaid]; exact hm r' (by simp [hr']) o ho hoc)
    refine ⟨c2, by rw [getRequest, e1, Option.bind_some, e2], s1.trans s2, fun code => ?_⟩
    have := v2 code
    by_cases ht : ∃ r' ∈ t, r' % 65536 = code
    · rw [if_pos ht] at this
      rw [if_pos (by obtain ⟨r', h1, h2⟩ := ht; exact ⟨r', by simp [h1], h2⟩)]
      cases hl : lastOf code os with
      | none => rw [hl] at this; exact this
      | some o =>
        rw [hl] at this
        show ∀ v, _
        intro v hv
        exact this v (by rw [s1.iaid]; exact hv)
    · rw [if_neg ht] at this
      by_cases hr : r % 65536 = code
      · rw [if_pos ⟨r, by simp, hr⟩]
        rw [← hr]
        rw [← hr] at this
        cases hl : lastOf (r % 65536) os with
        | none => rw [hl] at v1; show valuesOf _ _ = _; rw [this]; exact v1
        | some o =>
          rw [hl] at v1
          show ∀ v, _
          intro v hv
          rw [this]; exact v1 v hv
      · rw [if_neg (by
          rintro ⟨r', h1, h2⟩
          rcases List.mem_cons.mp h1 with h1 | h1
          · exact hr (h1 ▸ h2)
          · exact ht ⟨r', h1, h2⟩), this]
        exact k1 code (fun h => hr h.symm)

end Verif.Client6
