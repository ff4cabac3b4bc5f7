import Verif.Proof.ServerRun
/-!
# C39, C40, C41, C70, C71: the DHCP server

`s` is the server after an arbitrary run `pre` from the start.  A range that ends in 255.255.255.255 is excluded
(see `findFree`).
-/
namespace Verif.Server
open Verif.C

section
variable {a b c d : Nat} {e : Bool} {pre : List Step} {s : Srv} {o : List Out}

theorem reach (hb : b + 1 ≠ W32) (hr : run (start a b c d e) pre = some (s, o)) :
    Inv s ∧ s.endIp + 1 ≠ W32 ∧ Cfg (start a b c d e) s := by
  obtain ⟨t, out, h, hi, hc⟩ := run_inv pre (start a b c d e) (inv_start a b c d e) hb
  rw [hr] at h; cases h
  exact ⟨hi, by rw [hc.b]; exact hb, hc⟩

/-! ## C41: the indexes -/

/-- C41: nothing that clients send leads to a dangling lease; the list, the hash table and the leases in memory
always agree. -/
theorem index_consistent (a b c d : Nat) (e : Bool) (hb : b + 1 ≠ W32) (es : List Step) :
    ∃ t out, run (start a b c d e) es = some (t, out) ∧ Spec.Consistent t := by
  obtain ⟨t, out, h, hi, -⟩ := run_inv es (start a b c d e) (inv_start a b c d e) hb
  refine ⟨t, out, h, hi.nodup, ?_, ?_⟩
  · intro id
    rw [hi.live]
    cases t.heap id <;> simp
  · intro nip id
    rw [hi.hash, hi.live]
    constructor
    · rintro ⟨l, x, y⟩; exact ⟨⟨l, x⟩, l, x, y⟩
    · rintro ⟨_, l, x, y⟩; exact ⟨l, x, y⟩

/-- C41, partial: the list is ordered by expiry as long as the clock and the expiries stay below 2^31 (2038).
Missing: later times, see `ordered_refuted`. -/
theorem ordered_partial (hb : b + 1 ≠ W32) (hr : run (start a b c d e) pre = some (s, o))
    (ht : Spec.Times (fun now => 0 ≤ now ∧ now + d < 2147483648) pre) : Spec.Descending s := by
  have := run_keeps (fun s => s.leaseSeconds = d ∧ Small s ∧ Ordered s) (fun e => 0 ≤ e.now ∧ e.now + d < 2147483648)
    (fun s e t out hi hp hq c => ord_step d s e t out hi hp hq c) pre (start a b c d e) s o (inv_start a b c d e) hb
    ⟨rfl, by rintro l ⟨id, h⟩; simp [start] at h, List.Pairwise.nil⟩ ht hr
  exact ordered_desc this.2.2

/-- C41 fails after 2038: the difference of two expiries is cut to 32 bits, and an offer (which expires at the
absolute time 300) is put in front of a lease. -/
theorem ordered_refuted : ∃ es s o, run (start 10 20 1 3600 true) es = some (s, o) ∧ ¬ Spec.Descending s := by
  let es : List Step := [⟨2200000000, ⟨3, 7, 0, none, some 11⟩, true⟩, ⟨2200000001, ⟨1, 8, 0, none, none⟩, true⟩]
  have h : (run (start 10 20 1 3600 true) es).map (fun r => (r.1.list, r.1.heap 0, r.1.heap 1)) =
      some ([1, 0], some ⟨2200003600, 11, 7⟩, some ⟨300, 10, 8⟩) := by decide +kernel
  obtain ⟨r, h1, h2⟩ := Option.map_eq_some_iff.1 h
  refine ⟨es, r.1, r.2, h1, ?_⟩
  simp only [Prod.mk.injEq] at h2
  unfold Spec.Descending
  rw [h2.1]
  intro hp
  have := (List.pairwise_cons.1 hp).1 0 (by simp) _ _ h2.2.2 h2.2.1
  revert this; decide

example : ∃ r, run (start 10 20 1 3600 true) [⟨1000, ⟨3, 7, 0, none, some 11⟩, true⟩, ⟨1001, ⟨1, 8, 0, none, none⟩, true⟩] = some r ∧
    r.1.list = [0, 1] ∧ (r.1.heap 0).map (·.expire) = some 4600 ∧ r.1.hash 10 = some 1 ∧ r.1.hash 11 = some 0 := by
  refine ⟨_, rfl, ?_⟩; decide +kernel

/-! ## C39: an address has one holder -/

/-- C39, the table: no address and no client is in two leases, and every address is in the range. -/
theorem table_exclusive (hb : b + 1 ≠ W32) (hr : run (start a b c d e) pre = some (s, o)) : Spec.Exclusive s := by
  obtain ⟨hi, _, hc⟩ := reach hb hr
  refine ⟨?_, ?_⟩
  · intro l m hl hm h
    exact hi.uniq ((holds_iff hi l).1 hl) ((holds_iff hi m).1 hm) h
  · intro l hl
    obtain ⟨id, h⟩ := (holds_iff hi l).1 hl
    have v := hi.valid id l h
    exact ⟨v.lo, v.hi, v.z⟩

/-- C39 fails: client 7 is acknowledged address 11 for an hour; a second later client 8 requests the same address
and is acknowledged it too. -/
theorem exclusive_refuted : (run (start 10 20 1 3600 true)
    [⟨1000, ⟨1, 7, 0, none, none⟩, true⟩, ⟨1001, ⟨3, 7, 0, some 1, some 10⟩, true⟩,
      ⟨1002, ⟨3, 8, 0, some 1, some 10⟩, true⟩]).map (·.2) =
    some [.offer 7 10, .ack 7 10 3600, .event 7 10, .ack 8 10 3600, .event 8 10] := by decide +kernel

/-- C39 fails also if every client asks only for what it was offered: an offer is forgotten at once, and the
address is offered to a second client. -/
theorem exclusive_refuted_polite : (run (start 10 10 1 3600 true)
    [⟨1000, ⟨1, 7, 0, none, none⟩, true⟩, ⟨1001, ⟨1, 8, 0, none, none⟩, true⟩,
      ⟨1002, ⟨3, 7, 0, some 1, some 10⟩, true⟩, ⟨1003, ⟨3, 8, 0, some 1, some 10⟩, true⟩]).map (·.2) =
    some [.offer 7 10, .offer 8 10, .ack 7 10 3600, .event 7 10, .ack 8 10 3600, .event 8 10] := by decide +kernel

/-- C39: while a lease has not expired, a packet of another client either leaves it alone, and the address is not
given out, or it is a REQUEST for the address by a client without lease, which takes it over. -/
theorem kept_or_stolen (hb : b + 1 ≠ W32) (hr : run (start a b c d e) pre = some (s, o)) (l : Lease) (hl : Spec.Holds s l)
    (now : Int) (hn : now ≤ l.expire) (p : Pkt) (hp : p.mac ≠ l.mac) (mem : Bool) (t : Srv) (out : List Out)
    (h : recv s now p mem = some (t, out)) :
    (Spec.Holds t l ∧ (∀ m n, Out.offer m n ∈ out → n ≠ l.nip) ∧ ∀ m n k, Out.ack m n k ∈ out → n ≠ l.nip) ∨
    (p.type = 3 ∧ Spec.asked e p = l.nip ∧ (∀ m, Spec.Holds s m → m.mac ≠ p.mac) ∧
      out = [.ack p.mac l.nip d, .event p.mac l.nip] ∧ Spec.Holds t ⟨now + d, l.nip, p.mac⟩ ∧ ¬ Spec.Holds t l) := by
  obtain ⟨hi, hW, hc⟩ := reach hb hr
  have cs := step_case hi hW h
  have ht := (cs.inv hi).1
  have hd : s.leaseSeconds = d := hc.d
  have he : s.little = e := hc.e
  simp only [holds_iff hi, holds_iff ht] at hl ⊢
  cases cs with
  | offer t id nip _ _ hv w ad =>
    left
    have hne : nip ≠ l.nip := by
      intro e
      cases w with
      | own m hm e1 e2 => exact hp (by rw [← e1, hi.uniq hm hl (Or.inl (e2.trans e))])
      | asked _ _ hx => have := hx l hl e.symm; omega
      | free _ _ hx => exact hx l hl e.symm
      | oldest id m _ _ _ hm e1 hx =>
        have := hi.uniq ⟨id, hm⟩ hl (Or.inl (e1.trans e))
        subst this; omega
    refine ⟨(ad.has l).2 (Or.inr ⟨hl, fun x => hp x.symm, fun x => hne x.symm⟩), ?_, ?_⟩
    · intro m n hm; simp at hm; rw [hm.2]; exact hne
    · intro m n k hm; simp at hm
  | ack t id _ ty hv hown _ _ hh has _ =>
    rw [hd, he] at has
    rw [he] at hown
    simp only [hd, he]
    by_cases heq : Spec.asked e p = l.nip
    · right
      have hnone : ∀ m, Has s m → m.mac ≠ p.mac := by
        intro m hm e1
        have := hi.uniq hm hl (Or.inl ((hown m hm e1).trans heq))
        subst this; exact hp e1.symm
      rw [heq] at has ⊢
      refine ⟨ty, rfl, hnone, rfl, (has _).2 (Or.inl rfl), ?_⟩
      intro hx
      rcases (has l).1 hx with e1 | ⟨_, _, e1⟩
      · exact hp (by rw [e1])
      · exact e1 rfl
    · left
      refine ⟨(has l).2 (Or.inr ⟨hl, fun x => hp x.symm, fun x => heq x.symm⟩), ?_, ?_⟩
      · intro m n hm; simp at hm
      · intro m n k hm; simp at hm; rw [hm.2.1]; exact heq
  | decline t m _ _ _ _ hm _ r =>
    left
    exact ⟨(r.has l).2 ⟨hl, fun x => hp (by rw [x, hm])⟩, by simp, by simp⟩
  | release t id m _ _ _ hm hmm _ ad =>
    left
    refine ⟨(ad.has l).2 (Or.inr ⟨hl, fun x => hp (hmm.symm.trans x.symm), ?_⟩), by simp, by simp⟩
    intro x
    exact hp (by rw [← hmm, hi.uniq hm hl (Or.inl x.symm)])
  | wrong => left; refine ⟨hl, ?_, ?_⟩ <;> (split <;> simp)
  | _ => left; exact ⟨hl, by simp, by simp⟩

/-- C39: and a REQUEST like that always succeeds. -/
theorem stolen_always (hb : b + 1 ≠ W32) (hr : run (start a b c d e) pre = some (s, o)) (l : Lease) (hl : Spec.Holds s l)
    (now : Int) (p : Pkt) (hp : Spec.client p.mac) (hno : ∀ m, Spec.Holds s m → m.mac ≠ p.mac) (ht : p.type = 3)
    (hf : ¬ Spec.foreign s p) (hq : Spec.asked e p = l.nip) (mem : Bool) :
    (recv s now p mem).map (·.2) = some [.ack p.mac l.nip d, .event p.mac l.nip] := by
  obtain ⟨hi, hW, hc⟩ := reach hb hr
  obtain ⟨t, out, h, cs⟩ := recv_case hi hW now p mem
  have hd : s.leaseSeconds = d := hc.d
  have he : s.little = e := hc.e
  simp only [holds_iff hi] at hl hno
  rw [h]
  obtain ⟨id, hid⟩ := hl
  have v := hi.valid id l hid
  cases cs with
  | foreign x => exact absurd x hf
  | offer _ _ _ _ x => rw [ht] at x; cases x
  | nooffer _ x => rw [ht] at x; cases x
  | ack => simp only [hd, he, hq, Option.map_some]
  | noask _ _ x => rw [he, hq] at x; exact absurd x v.z
  | nakNone _ _ _ _ x => rw [he, hq] at x; exact absurd ⟨⟨v.z, v.lo, v.hi, hp.2, hp.1⟩, Or.inr ⟨l, ⟨id, hid⟩, rfl⟩⟩ x
  | wrong m _ _ _ hm e1 => exact absurd e1 (hno m hm)
  | decline _ _ _ x => rw [ht] at x; cases x
  | nodecline _ x => rw [ht] at x; cases x
  | release _ _ _ _ x => rw [ht] at x; cases x
  | norelease _ x => rw [ht] at x; cases x
  | inform _ x => rw [ht] at x; cases x
  | other _ _ x => exact absurd ht x

/-- C39, partial: once an address was acknowledged to a client, it is offered to nobody and acknowledged to nobody
else for the lease time, if nobody else requests it and the client itself only sends REQUEST and INFORM.  Missing:
REQUESTs of others (`exclusive_refuted`), DISCOVER of the client itself (`discover_ends_lease`). -/
theorem held_partial (hb : b + 1 ≠ W32) (hr : run (start a b c d e) pre = some (s, o)) (now : Int) (p : Pkt) (mem : Bool)
    (s1 : Srv) (o1 : List Out) (h1 : recv s now p mem = some (s1, o1)) (mac nip k : Nat) (hack : Out.ack mac nip k ∈ o1)
    (es : List Step) (s2 : Srv) (o2 : List Out) (h2 : run s1 es = some (s2, o2))
    (htime : Spec.Times (fun t => now ≤ t ∧ t ≤ now + k) es)
    (hother : ∀ x ∈ es, x.pkt.mac ≠ mac → x.pkt.type = 3 → Spec.asked e x.pkt ≠ nip)
    (hself : ∀ x ∈ es, x.pkt.mac = mac → x.pkt.type = 3 ∨ x.pkt.type = 8) :
    (∀ m, Out.offer m nip ∉ o2) ∧ (∀ m k', Out.ack m nip k' ∈ o2 → m = mac) ∧
      ∃ ex, now + k ≤ ex ∧ Spec.Holds s2 ⟨ex, nip, mac⟩ := by
  obtain ⟨hi, hW, hc⟩ := reach hb hr
  have cs := step_case hi hW h1
  obtain ⟨hi1, hc1⟩ := cs.inv hi
  -- after the acknowledgement
  have key : (k = d ∧ s1.leaseSeconds = d ∧ s1.little = e) ∧ Has s1 ⟨now + k, nip, mac⟩ := by
    have hd : s.leaseSeconds = d := hc.d
    refine ⟨⟨?_, by rw [hc1.d]; exact hd, by rw [hc1.e]; exact hc.e⟩, ?_⟩
    · cases cs with
      | ack => simp at hack; rw [hack.2.2]; exact hd
      | wrong => split at hack <;> simp at hack
      | _ => simp at hack
    · cases cs with
      | ack t id _ _ _ _ _ _ hh =>
        simp at hack
        refine ⟨id, ?_⟩
        rw [hh, hack.1, hack.2.1, hack.2.2]
      | wrong => split at hack <;> simp at hack
      | _ => simp at hack
  obtain ⟨⟨hkd, hd1, he1⟩, hhas⟩ := key
  subst hkd
  have hW1 : s1.endIp + 1 ≠ W32 := by rw [hc1.b]; exact hW
  have := run_out
    (fun s => s.leaseSeconds = k ∧ s.little = e ∧ ∃ ex, now + k ≤ ex ∧ Has s ⟨ex, nip, mac⟩)
    (fun x => (now ≤ x.now ∧ x.now ≤ now + k) ∧ (x.pkt.mac ≠ mac → x.pkt.type = 3 → Spec.asked e x.pkt ≠ nip) ∧
      (x.pkt.mac = mac → x.pkt.type = 3 ∨ x.pkt.type = 8))
    (fun out => (∀ m, out ≠ .offer m nip) ∧ ∀ m k', out = .ack m nip k' → m = mac) ?_ es s1 s2 o2 hi1 hW1
    ⟨hd1, he1, now + k, Int.le_refl _, hhas⟩ (fun x hx => ⟨htime x hx, hother x hx, hself x hx⟩) h2
  · obtain ⟨⟨_, _, ex, hex, hh⟩, ho⟩ := this
    have hi2 : Inv s2 := by
      obtain ⟨t, q, h, hi, -⟩ := run_inv es s1 hi1 hW1
      rw [h2] at h; cases h; exact hi
    exact ⟨fun m hm => (ho _ hm).1 m rfl, fun m k' hm => (ho _ hm).2 m k' rfl, ex, hex, (holds_iff hi2 _).2 hh⟩
  · intro s x t out hi ⟨hd, he, ex, hex, hh⟩ ⟨htm, hot, hse⟩ cs
    have hcfg := (cs.inv hi).2
    refine ⟨⟨by rw [hcfg.d]; exact hd, by rw [hcfg.e]; exact he, ?_⟩, ?_⟩
    · cases cs with
      | offer t id n _ ty hv w ad =>
        have hm : x.pkt.mac ≠ mac := by intro e1; rcases hse e1 with e2 | e2 <;> rw [ty] at e2 <;> cases e2
        refine ⟨ex, hex, (ad.has _).2 (Or.inr ⟨hh, fun e1 => hm e1.symm, ?_⟩)⟩
        intro e1
        have e1 : nip = n := e1
        subst e1
        cases w with
        | own l hl e1 e2 => have := hi.uniq hl hh (Or.inl e2); subst this; exact hm e1.symm
        | asked _ _ hx => have : ex < x.now := hx _ hh rfl; omega
        | free _ _ hx => exact hx _ hh rfl
        | oldest i l _ _ _ hl e1 hx => have := hi.uniq ⟨i, hl⟩ hh (Or.inl e1); subst this; have : ex < x.now := hx; omega
      | ack t id _ ty _ hown _ _ _ has _ =>
        rw [hd, he] at has
        rw [he] at hown
        by_cases hm : x.pkt.mac = mac
        · have := hown _ hh hm.symm
          have e1 : nip = Spec.asked e x.pkt := this
          rw [← e1, hm] at has
          exact ⟨x.now + k, by omega, (has _).2 (Or.inl rfl)⟩
        · exact ⟨ex, hex, (has _).2 (Or.inr ⟨hh, fun e1 => hm e1.symm, fun e1 => hot hm ty e1.symm⟩)⟩
      | decline t l _ ty _ hl hm _ r =>
        refine ⟨ex, hex, (r.has _).2 ⟨hh, ?_⟩⟩
        rintro rfl
        rcases hse hm.symm with e2 | e2 <;> rw [ty] at e2 <;> cases e2
      | release t id l _ ty _ hl hm _ ad =>
        have hne : l.mac ≠ mac := by
          intro e1
          rcases hse (hm.symm.trans e1) with e2 | e2 <;> rw [ty] at e2 <;> cases e2
        refine ⟨ex, hex, (ad.has _).2 (Or.inr ⟨hh, fun e1 => hne e1.symm, ?_⟩)⟩
        intro e1
        have := hi.uniq hl hh (Or.inl e1.symm)
        subst this; exact hne rfl
      | _ => exact ⟨ex, hex, hh⟩
    · intro out' hm'
      cases cs with
      | offer t id n _ ty hv w ad =>
        simp at hm'
        subst hm'
        have hm : x.pkt.mac ≠ mac := by intro e1; rcases hse e1 with e2 | e2 <;> rw [ty] at e2 <;> cases e2
        refine ⟨?_, by simp⟩
        intro m e1
        have e1 : n = nip := by injection e1
        subst e1
        cases w with
        | own l hl e1 e2 => have := hi.uniq hl hh (Or.inl e2); subst this; exact hm e1.symm
        | asked _ _ hx => have : ex < x.now := hx _ hh rfl; omega
        | free _ _ hx => exact hx _ hh rfl
        | oldest i l _ _ _ hl e1 hx => have := hi.uniq ⟨i, hl⟩ hh (Or.inl e1); subst this; have : ex < x.now := hx; omega
      | ack t id _ ty =>
        simp at hm'
        rcases hm' with rfl | rfl
        · refine ⟨by simp, ?_⟩
          intro m k' e1
          injection e1 with e1 e2
          apply Classical.byContradiction
          intro hne
          rw [← e1] at hne
          rw [he] at e2
          exact hot hne ty e2
        · exact ⟨by simp, by simp⟩
      | wrong => split at hm' <;> simp at hm' <;> subst hm' <;> exact ⟨by simp, by simp⟩
      | nakNone => simp at hm'; subst hm'; exact ⟨by simp, by simp⟩
      | inform => simp at hm'; subst hm'; exact ⟨by simp, by simp⟩
      | _ => simp at hm'

/-- A DISCOVER of the holder itself replaces its lease by an offer, which has expired: the address goes to the next
client although the lease would have lasted. -/
theorem discover_ends_lease : (run (start 10 10 1 3600 true)
    [⟨1000, ⟨3, 7, 0, none, some 10⟩, true⟩, ⟨1001, ⟨1, 7, 0, none, none⟩, true⟩,
      ⟨1002, ⟨1, 8, 0, none, none⟩, true⟩]).map (·.2) =
    some [.ack 7 10 3600, .event 7 10, .offer 7 10, .offer 8 10] := by decide +kernel

example : ∃ r1 r2, run (start 10 12 1 3600 true) [⟨1000, ⟨1, 7, 0, none, none⟩, true⟩] = some r1 ∧
    recv r1.1 1001 ⟨3, 7, 0, some 1, some 10⟩ true = some r2 ∧ Out.ack 7 10 3600 ∈ r2.2 ∧
    (run r2.1 [⟨1100, ⟨1, 8, 0, none, some 10⟩, true⟩, ⟨1101, ⟨3, 8, 0, none, some 11⟩, true⟩,
      ⟨1200, ⟨1, 9, 0, none, none⟩, true⟩, ⟨1201, ⟨1, 6, 0, none, none⟩, true⟩, ⟨1300, ⟨3, 7, 0, none, some 10⟩, true⟩]).map (·.2) =
      some [.offer 8 11, .ack 8 11 3600, .event 8 11, .offer 9 12, .offer 6 12, .ack 7 10 3600, .event 7 10] := by
  refine ⟨_, _, rfl, rfl, ?_⟩; decide +kernel

/-! ## C40: offers -/

/-- C40 fails: an address that was offered to client 7 is offered to client 8 a second later. -/
theorem reserved_refuted : (run (start 10 20 1 3600 true)
    [⟨1000, ⟨1, 7, 0, none, none⟩, true⟩, ⟨1001, ⟨1, 8, 0, none, some 10⟩, true⟩]).map (·.2) =
    some [.offer 7 10, .offer 8 10] := by decide +kernel

/-- C40, partial: an offered address is not given to another client, ever, if the range has more usable addresses
than there are clients, no other client asks for it, and the client does not decline it.  Missing: clients that ask
for the address (`reserved_refuted`), exhausted ranges (`exclusive_refuted_polite`). -/
theorem reserved_partial (hb : b + 1 ≠ W32) (hr : run (start a b c d e) pre = some (s, o)) (now : Int) (p : Pkt) (mem : Bool)
    (s1 : Srv) (o1 : List Out) (h1 : recv s now p mem = some (s1, o1)) (mac nip : Nat) (hoff : Out.offer mac nip ∈ o1)
    (es : List Step) (s2 : Srv) (o2 : List Out) (h2 : run s1 es = some (s2, o2))
    (clients addrs : List Nat) (hcl : ∀ x ∈ pre ++ es, x.pkt.mac ∈ clients) (hpc : p.mac ∈ clients)
    (haddr : addrs.Nodup ∧ ∀ ip ∈ addrs, Spec.usable s ip) (hmore : clients.length < addrs.length)
    (hother : ∀ x ∈ es, x.pkt.mac ≠ mac → (x.pkt.type = 1 → x.pkt.reqIp ≠ some nip) ∧ (x.pkt.type = 3 → Spec.asked e x.pkt ≠ nip))
    (hself : ∀ x ∈ es, x.pkt.mac = mac → x.pkt.type ≠ 4) :
    (∀ m, Out.offer m nip ∈ o2 → m = mac) ∧ (∀ m k, Out.ack m nip k ∈ o2 → m = mac) ∧
      ∃ ex, Spec.Holds s2 ⟨ex, nip, mac⟩ := by
  obtain ⟨hi, hW, hc⟩ := reach hb hr
  have hm0 : ∀ l, Has s l → l.mac ∈ clients :=
    run_keeps (fun s => ∀ l, Has s l → l.mac ∈ clients) (fun x => x.pkt.mac ∈ clients)
      (fun s e t out hi hp hq c => macs_step clients s e t out hi hp hq c) pre (start a b c d e) s o (inv_start a b c d e) hb
      (by rintro l ⟨id, h⟩; simp [start] at h) (fun x hx => hcl x (by simp [hx])) hr
  have cs := step_case hi hW h1
  obtain ⟨hi1, hc1⟩ := cs.inv hi
  have hm1 : ∀ l, Has s1 l → l.mac ∈ clients := macs_step clients s ⟨now, p, mem⟩ s1 o1 hi hm0 hpc cs
  have hhas : Has s1 ⟨300, nip, mac⟩ := by
    cases cs with
    | offer t id n _ _ _ _ ad => simp at hoff; refine ⟨id, ?_⟩; rw [ad.here, hoff.1, hoff.2]
    | wrong => split at hoff <;> simp at hoff
    | _ => simp at hoff
  have hW1 : s1.endIp + 1 ≠ W32 := by rw [hc1.b]; exact hW
  have hcs1 : s1.startIp = a ∧ s1.endIp = b := ⟨by rw [hc1.a, hc.a]; rfl, by rw [hc1.b, hc.b]; rfl⟩
  have hus : ∀ ip ∈ addrs, a ≤ ip ∧ ip ≤ b ∧ ip % 256 ≠ 0 ∧ ip % 256 ≠ 255 := by
    intro ip hip
    have := haddr.2 ip hip
    unfold Spec.usable at this
    rw [hc.a, hc.b] at this
    exact this
  have := run_out
    (fun s => (s.startIp = a ∧ s.endIp = b ∧ s.little = e ∧ ∀ l, Has s l → l.mac ∈ clients) ∧ ∃ ex, Has s ⟨ex, nip, mac⟩)
    (fun x => x.pkt.mac ∈ clients ∧ (x.pkt.mac ≠ mac → (x.pkt.type = 1 → x.pkt.reqIp ≠ some nip) ∧ (x.pkt.type = 3 → Spec.asked e x.pkt ≠ nip)) ∧
      (x.pkt.mac = mac → x.pkt.type ≠ 4))
    (fun out => (∀ m, out = .offer m nip → m = mac) ∧ ∀ m k', out = .ack m nip k' → m = mac) ?_ es s1 s2 o2 hi1 hW1
    ⟨⟨hcs1.1, hcs1.2, by rw [hc1.e]; exact hc.e, hm1⟩, _, hhas⟩ (fun x hx => ⟨hcl x (by simp [hx]), hother x hx, hself x hx⟩) h2
  · obtain ⟨⟨_, ex, hh⟩, ho⟩ := this
    have hi2 : Inv s2 := by
      obtain ⟨t, q, h, hi, -⟩ := run_inv es s1 hi1 hW1
      rw [h2] at h; cases h; exact hi
    exact ⟨fun m hm => (ho _ hm).1 m rfl, fun m k' hm => (ho _ hm).2 m k' rfl, ex, (holds_iff hi2 _).2 hh⟩
  · intro s x t out hi ⟨⟨hsa, hsb, he, hms⟩, ex, hh⟩ ⟨hxm, hot, hse⟩ cs
    have hcfg := (cs.inv hi).2
    -- whoever is offered or acknowledged the address is its holder
    have hwhy : ∀ n, x.pkt.type = 1 → Why s x.now x.pkt n → x.pkt.mac ≠ mac → n ≠ nip := by
      intro n ty w hm e1
      subst e1
      cases w with
      | own l hl e1 e2 => have := hi.uniq hl hh (Or.inl e2); subst this; exact hm e1.symm
      | asked _ hx _ => exact (hot hm).1 ty hx
      | free _ _ hx => exact hx _ hh rfl
      | oldest i l _ hall _ hl e1 hx =>
        have := full_count hi addrs clients haddr.1 (fun ip hip => hall ip ?_) hms
        · omega
        · unfold Spec.usable; rw [hsa, hsb]; exact hus ip hip
    refine ⟨⟨⟨by rw [hcfg.a]; exact hsa, by rw [hcfg.b]; exact hsb, by rw [hcfg.e]; exact he, macs_step clients s x t out hi hms hxm cs⟩, ?_⟩, ?_⟩
    · cases cs with
      | offer t id n _ ty hv w ad =>
        by_cases hm : x.pkt.mac = mac
        · cases w with
          | own l hl e1 e2 =>
            have := hi.uniq hl hh (Or.inr (e1.trans hm))
            subst this
            have e2 : nip = n := e2
            subst e2
            exact ⟨300, id, by rw [ad.here, hm]⟩
          | asked hno _ _ => exact absurd hm.symm (hno _ hh)
          | free hno _ _ => exact absurd hm.symm (hno _ hh)
          | oldest _ _ hno => exact absurd hm.symm (hno _ hh)
        · exact ⟨ex, (ad.has _).2 (Or.inr ⟨hh, fun e1 => hm e1.symm, fun e1 => hwhy n ty w hm e1.symm⟩)⟩
      | ack t id _ ty _ hown _ _ _ has _ =>
        rw [he] at has hown
        by_cases hm : x.pkt.mac = mac
        · have := hown _ hh hm.symm
          have e1 : nip = Spec.asked e x.pkt := this
          rw [← e1, hm] at has
          exact ⟨_, (has _).2 (Or.inl rfl)⟩
        · exact ⟨ex, (has _).2 (Or.inr ⟨hh, fun e1 => hm e1.symm, fun e1 => (hot hm).2 ty e1.symm⟩)⟩
      | decline t l _ ty _ hl hm _ r =>
        refine ⟨ex, (r.has _).2 ⟨hh, ?_⟩⟩
        rintro rfl
        exact hse hm.symm ty
      | release t id l _ ty _ hl hm _ ad =>
        by_cases hne : l.mac = mac
        · have := hi.uniq hl hh (Or.inr hne)
          subst this
          exact ⟨_, id, ad.here⟩
        · refine ⟨ex, (ad.has _).2 (Or.inr ⟨hh, fun e1 => hne e1.symm, ?_⟩)⟩
          intro e1
          have := hi.uniq hl hh (Or.inl e1.symm)
          subst this; exact hne rfl
      | _ => exact ⟨ex, hh⟩
    · intro out' hm'
      cases cs with
      | offer t id n _ ty hv w ad =>
        simp at hm'
        subst hm'
        refine ⟨?_, by simp⟩
        intro m e1
        injection e1 with e1 e2
        rw [← e1]
        exact Classical.byContradiction fun hm => hwhy n ty w hm e2
      | ack t id _ ty =>
        simp at hm'
        rcases hm' with rfl | rfl
        · refine ⟨by simp, ?_⟩
          intro m k' e1
          injection e1 with e1 e2
          rw [he] at e2
          rw [← e1]
          exact Classical.byContradiction fun hm => (hot hm).2 ty e2
        · exact ⟨by simp, by simp⟩
      | wrong => split at hm' <;> simp at hm' <;> subst hm' <;> exact ⟨by simp, by simp⟩
      | nakNone => simp at hm'; subst hm'; exact ⟨by simp, by simp⟩
      | inform => simp at hm'; subst hm'; exact ⟨by simp, by simp⟩
      | _ => simp at hm'

example : ∃ r, recv (start 10 13 1 3600 true) 1000 ⟨1, 7, 0, none, none⟩ true = some r ∧ Out.offer 7 10 ∈ r.2 ∧
    (run r.1 [⟨5000, ⟨1, 8, 0, none, none⟩, true⟩, ⟨6000, ⟨3, 9, 0, none, some 12⟩, true⟩, ⟨6001, ⟨1, 7, 0, none, some 12⟩, true⟩]).map (·.2) =
      some [.offer 8 11, .ack 9 12 3600, .event 9 12, .offer 7 10] ∧
    [10, 11, 12, 13].Nodup ∧ (∀ ip ∈ [10, 11, 12, 13], Spec.usable (start 10 13 1 3600 true) ip) ∧ [7, 8, 9].length < [10, 11, 12, 13].length := by
  refine ⟨_, rfl, ?_, ?_, ?_, ?_, ?_⟩
  · decide +kernel
  · decide +kernel
  · decide
  · intro ip h; simp at h; unfold Spec.usable; simp [start]; omega
  · decide

/-- An address is offered only in answer to a DISCOVER; it is in the range, and nobody else has a lease on it that
has not expired. -/
theorem offer_sound (hb : b + 1 ≠ W32) (hr : run (start a b c d e) pre = some (s, o)) (now : Int) (p : Pkt) (mem : Bool)
    (t : Srv) (out : List Out) (h : recv s now p mem = some (t, out)) (mac nip : Nat) (ho : Out.offer mac nip ∈ out) :
    p.type = 1 ∧ mac = p.mac ∧ Spec.client mac ∧ a ≤ nip ∧ nip ≤ b ∧ out = [.offer mac nip] ∧
      (∀ l, Spec.Holds s l → l.nip = nip → l.mac = mac ∨ l.expire < now) ∧ Spec.Holds t ⟨300, nip, mac⟩ := by
  obtain ⟨hi, hW, hc⟩ := reach hb hr
  have cs := step_case hi hW h
  have ht := (cs.inv hi).1
  simp only [holds_iff hi, holds_iff ht]
  cases cs with
  | offer t id n _ ty hv w ad =>
    simp at ho
    obtain ⟨rfl, rfl⟩ := ho
    refine ⟨ty, rfl, ⟨hv.na, hv.nb⟩, by have := hv.lo; rw [hc.a] at this; exact this, by have := hv.hi; rw [hc.b] at this; exact this, rfl, ?_, ⟨id, ad.here⟩⟩
    intro l hl e1
    cases w with
    | own m hm e2 e3 => left; rw [hi.uniq hl hm (Or.inl (e1.trans e3.symm))]; exact e2
    | asked _ _ hx => right; exact hx l hl e1
    | free _ _ hx => exact absurd e1 (hx l hl)
    | oldest i m _ _ _ hm e3 hx => right; rw [hi.uniq hl ⟨i, hm⟩ (Or.inl (e1.trans e3.symm))]; exact hx
  | wrong => split at ho <;> simp at ho
  | _ => simp at ho

/-- An address is acknowledged only in answer to a REQUEST for it, to a client that has no other lease; it is in the
range, the client gets the configured lease time, the callback is called with it, and the lease is entered. -/
theorem ack_sound (hb : b + 1 ≠ W32) (hr : run (start a b c d e) pre = some (s, o)) (now : Int) (p : Pkt) (mem : Bool)
    (t : Srv) (out : List Out) (h : recv s now p mem = some (t, out)) (mac nip k : Nat) (ho : Out.ack mac nip k ∈ out) :
    p.type = 3 ∧ mac = p.mac ∧ Spec.client mac ∧ nip = Spec.asked e p ∧ a ≤ nip ∧ nip ≤ b ∧ k = d ∧
      out = [.ack mac nip d, .event mac nip] ∧ (∀ l, Spec.Holds s l → l.mac = mac → l.nip = nip) ∧
      ∀ l, Spec.Holds t l ↔ l = ⟨now + d, nip, mac⟩ ∨ (Spec.Holds s l ∧ l.mac ≠ mac ∧ l.nip ≠ nip) := by
  obtain ⟨hi, hW, hc⟩ := reach hb hr
  have cs := step_case hi hW h
  have ht := (cs.inv hi).1
  have hd : s.leaseSeconds = d := hc.d
  have he : s.little = e := hc.e
  simp only [holds_iff hi, holds_iff ht]
  cases cs with
  | ack t id _ ty hv hown _ _ hh has _ =>
    simp at ho
    obtain ⟨rfl, rfl, rfl⟩ := ho
    rw [he, hd] at *
    refine ⟨ty, rfl, ⟨hv.na, hv.nb⟩, rfl, by have := hv.lo; rw [hc.a] at this; exact this, by have := hv.hi; rw [hc.b] at this; exact this, rfl, rfl, hown, has⟩
  | wrong => split at ho <;> simp at ho
  | _ => simp at ho

/-! ## C71: clients are served -/

/-- C71: a DISCOVER is answered by an OFFER if the client has a lease or a usable address is free. -/
theorem discover_offers (hb : b + 1 ≠ W32) (hr : run (start a b c d e) pre = some (s, o)) (now : Int) (p : Pkt)
    (ht : p.type = 1) (hf : ¬ Spec.foreign s p) (hm : Spec.client p.mac)
    (hfree : (∃ l, Spec.Holds s l ∧ l.mac = p.mac) ∨ ∃ ip, Spec.usable s ip ∧ ∀ l, Spec.Holds s l → l.nip ≠ ip) :
    ∃ t nip, recv s now p true = some (t, [.offer p.mac nip]) ∧ a ≤ nip ∧ nip ≤ b ∧ Spec.Holds t ⟨300, nip, p.mac⟩ := by
  obtain ⟨hi, hW, hc⟩ := reach hb hr
  obtain ⟨t, out, h, cs⟩ := recv_case hi hW now p true
  have hti := (cs.inv hi).1
  simp only [holds_iff hi] at hfree
  cases cs with
  | foreign x => exact absurd x hf
  | offer t id nip _ _ hv _ ad =>
    exact ⟨t, nip, h, by have := hv.lo; rw [hc.a] at this; exact this, by have := hv.hi; rw [hc.b] at this; exact this, (holds_iff hti _).2 ⟨id, ad.here⟩⟩
  | nooffer _ _ x y =>
    exfalso
    have hno := y rfl hm
    rcases hfree with ⟨l, hl, e1⟩ | ⟨ip, hu, hx⟩
    · exact hno l hl e1
    · obtain ⟨l, hl, e1⟩ := (x rfl hm hno).2.1 ip hu (by rintro rfl; exact hu.2.2.1 rfl)
      exact hx l hl e1
  | ack _ _ _ x => rw [ht] at x; cases x
  | noask _ x => rw [ht] at x; cases x
  | nakNone _ x => rw [ht] at x; cases x
  | wrong _ _ x => rw [ht] at x; cases x
  | decline _ _ _ x => rw [ht] at x; cases x
  | nodecline _ x => rw [ht] at x; cases x
  | release _ _ _ _ x => rw [ht] at x; cases x
  | norelease _ x => rw [ht] at x; cases x
  | inform _ x => rw [ht] at x; cases x
  | other _ x => exact absurd ht x

/-- C71: a REQUEST for the address the client was offered or has a lease on is acknowledged. -/
theorem request_acked (hb : b + 1 ≠ W32) (hr : run (start a b c d e) pre = some (s, o)) (now : Int) (p : Pkt) (mem : Bool)
    (ht : p.type = 3) (hf : ¬ Spec.foreign s p) (l : Lease) (hl : Spec.Holds s l) (hm : l.mac = p.mac) (hq : Spec.asked e p = l.nip) :
    ∃ t, recv s now p mem = some (t, [.ack p.mac l.nip d, .event p.mac l.nip]) ∧ Spec.Holds t ⟨now + d, l.nip, p.mac⟩ := by
  obtain ⟨hi, hW, hc⟩ := reach hb hr
  obtain ⟨t, out, h, cs⟩ := recv_case hi hW now p mem
  have hti := (cs.inv hi).1
  have hd : s.leaseSeconds = d := hc.d
  have he : s.little = e := hc.e
  simp only [holds_iff hi] at hl
  obtain ⟨id, hid⟩ := hl
  have v := hi.valid id l hid
  cases cs with
  | foreign x => exact absurd x hf
  | offer _ _ _ _ x => rw [ht] at x; cases x
  | nooffer _ x => rw [ht] at x; cases x
  | ack t id' _ _ _ _ _ _ hh => simp only [hd, he, hq] at h hh; exact ⟨t, h, (holds_iff hti _).2 ⟨id', hh⟩⟩
  | noask _ _ x => rw [he, hq] at x; exact absurd x v.z
  | nakNone _ _ _ x _ => exact absurd hm (x l ⟨id, hid⟩)
  | wrong m _ _ _ hm' e1 e2 =>
    rw [hi.uniq hm' ⟨id, hid⟩ (Or.inr (e1.trans hm.symm)), he, hq] at e2
    exact absurd rfl e2
  | decline _ _ _ x => rw [ht] at x; cases x
  | nodecline _ x => rw [ht] at x; cases x
  | release _ _ _ _ x => rw [ht] at x; cases x
  | norelease _ x => rw [ht] at x; cases x
  | inform _ x => rw [ht] at x; cases x
  | other _ _ x => exact absurd ht x

/-- C71: the whole handshake: a new client is offered an address in the range, and gets it when it asks for it. -/
theorem handshake (hb : b + 1 ≠ W32) (hr : run (start a b c d e) pre = some (s, o)) (mac : Nat) (hm : Spec.client mac)
    (hfree : ∃ ip, Spec.usable s ip ∧ ∀ l, Spec.Holds s l → l.nip ≠ ip) (now now' : Int) (req : Option Nat) (mem : Bool) :
    ∃ nip t, a ≤ nip ∧ nip ≤ b ∧
      run s [⟨now, { type := 1, mac := mac, reqIp := req }, true⟩, ⟨now', { type := 3, mac := mac, serverId := some c, reqIp := some nip }, mem⟩] =
        some (t, [.offer mac nip, .ack mac nip d, .event mac nip]) ∧ Spec.Holds t ⟨now' + d, nip, mac⟩ := by
  obtain ⟨t1, nip, h1, h2, h3, h4⟩ := discover_offers hb hr now { type := 1, mac := mac, reqIp := req } rfl
    (by rintro ⟨n, x, _⟩; cases x) hm (Or.inr hfree)
  have hr1 : run (start a b c d e) (pre ++ [⟨now, { type := 1, mac := mac, reqIp := req }, true⟩]) = some (t1, o ++ [.offer mac nip]) := by
    clear h2 h3 h4 hfree
    revert hr
    generalize start a b c d e = q
    intro hr
    induction pre generalizing q o with
    | nil => simp [run] at hr; rw [hr.1, hr.2]; simp [run, h1]
    | cons x xs ih =>
      obtain ⟨u, o1, o2, g1, g2, g3⟩ := run_cons q x xs s o hr
      have := ih u g2
      simp only [List.cons_append, run, g1, Option.bind_eq_bind, Option.bind_some, this, g3, List.append_assoc]
  obtain ⟨hi1, -, hc1⟩ := reach hb hr1
  have hcs : t1.serverNip = c := hc1.c
  obtain ⟨id, hmem, hid⟩ := h4
  have v := hi1.valid id _ hid
  obtain ⟨t, h5, h6⟩ := request_acked hb hr1 now' { type := 3, mac := mac, serverId := some c, reqIp := some nip } mem rfl
    (by rintro ⟨n, x, y⟩; cases x; exact y hcs.symm) _ ⟨id, hmem, hid⟩ rfl
    (by
      have : nip ≠ 0 := v.z
      unfold Spec.asked
      cases nip with
      | zero => exact absurd rfl this
      | succ n => rfl)
  exact ⟨nip, t, h2, h3, by simp [run, h1, h5], h6⟩

example : (run (start 10 20 1 3600 true) [⟨1000, ⟨1, 7, 0, none, none⟩, true⟩, ⟨1001, ⟨3, 7, 0, some 1, some 10⟩, true⟩]).map (·.2) =
    some [.offer 7 10, .ack 7 10 3600, .event 7 10] := by decide +kernel

/-- What the order is for (C41), partial: a DISCOVER of a client is left without answer only if all usable addresses
are taken and no lease has expired, as long as the clock stays below 2^31. -/
theorem refused_only_if_full_partial (hb : b + 1 ≠ W32) (hr : run (start a b c d e) pre = some (s, o))
    (ht : Spec.Times (fun now => 0 ≤ now ∧ now + d < 2147483648) pre) (now : Int) (p : Pkt)
    (hp : p.type = 1) (hf : ¬ Spec.foreign s p) (hm : Spec.client p.mac) (t : Srv) (h : recv s now p true = some (t, [])) :
    (∀ ip, Spec.usable s ip → ∃ l, Spec.Holds s l ∧ l.nip = ip) ∧ ∀ l, Spec.Holds s l → now ≤ l.expire := by
  obtain ⟨hi, hW, hc⟩ := reach hb hr
  have hord := run_keeps (fun s => s.leaseSeconds = d ∧ Small s ∧ Ordered s) (fun e => 0 ≤ e.now ∧ e.now + d < 2147483648)
    (fun s e t out hi hp hq c => ord_step d s e t out hi hp hq c) pre (start a b c d e) s o (inv_start a b c d e) hb
    ⟨rfl, by rintro l ⟨id, h⟩; simp [start] at h, List.Pairwise.nil⟩ ht hr
  have cs := step_case hi hW h
  simp only [holds_iff hi]
  revert cs
  generalize hout : ([] : List Out) = out
  intro cs
  cases cs with
  | foreign x => exact absurd x hf
  | offer => cases hout
  | nooffer _ _ x y =>
    have hno := y rfl hm
    obtain ⟨hlast, hall, _⟩ := x rfl hm hno
    refine ⟨fun ip hu => hall ip hu (by rintro rfl; exact hu.2.2.1 rfl), ?_⟩
    intro l hl
    rcases hlast with he | ⟨id, m, h1, h2, h3⟩
    · obtain ⟨j, hj⟩ := hl
      have := (hi.live j).2 ⟨l, hj⟩
      rw [he] at this; simp at this
    · have := last_oldest hi hord.2.2 h1 h2 l hl
      omega
  | ack => cases hout
  | noask _ x => rw [hp] at x; cases x
  | nakNone _ x => rw [hp] at x; cases x
  | wrong _ _ x => rw [hp] at x; cases x
  | decline _ _ _ x => rw [hp] at x; cases x
  | nodecline _ x => rw [hp] at x; cases x
  | release _ _ _ _ x => rw [hp] at x; cases x
  | norelease _ x => rw [hp] at x; cases x
  | inform => cases hout
  | other _ x => exact absurd hp x

example : ∃ r t, run (start 10 10 1 3600 true) [⟨1000, ⟨3, 7, 0, none, some 10⟩, true⟩] = some r ∧
    recv r.1 1001 ⟨1, 8, 0, none, none⟩ true = some (t, []) := by
  refine ⟨_, _, rfl, rfl⟩

/-- C71: a REQUEST is refused only if the client has a lease on another address, or the server cannot enter the
lease: address out of range, no client address, or no memory. -/
theorem nak_sound (hb : b + 1 ≠ W32) (hr : run (start a b c d e) pre = some (s, o)) (now : Int) (p : Pkt) (mem : Bool)
    (t : Srv) (out : List Out) (h : recv s now p mem = some (t, out)) (mac : Nat) (ho : Out.nak mac ∈ out) :
    p.type = 3 ∧ mac = p.mac ∧ out = [.nak mac] ∧
      ((∃ l, Spec.Holds s l ∧ l.mac = mac ∧ l.nip ≠ Spec.asked e p ∧ p.serverId.isSome) ∨
       ((∀ l, Spec.Holds s l → l.mac ≠ mac) ∧ (Spec.asked e p < a ∨ b < Spec.asked e p ∨ ¬ Spec.client mac ∨ mem = false))) ∧
      ∀ l, Spec.Holds t l ↔ Spec.Holds s l := by
  obtain ⟨hi, hW, hc⟩ := reach hb hr
  have cs := step_case hi hW h
  have he : s.little = e := hc.e
  simp only [holds_iff hi]
  cases cs with
  | offer => simp at ho
  | ack => simp at ho
  | inform => simp at ho
  | wrong l _ ty _ hl hm hn =>
    rw [he] at hn
    split at ho
    · rename_i hs
      simp at ho
      subst ho
      exact ⟨ty, rfl, by rw [if_pos hs], Or.inl ⟨l, hl, hm, hn, hs⟩, fun x => holds_iff hi x⟩
    · simp at ho
  | nakNone _ ty hz hno hv =>
    simp at ho
    subst ho
    rw [he] at hv hz
    refine ⟨ty, rfl, rfl, Or.inr ⟨hno, ?_⟩, fun x => holds_iff hi x⟩
    have ha : s.startIp = a := hc.a
    have hbb : s.endIp = b := hc.b
    apply Classical.byContradiction
    intro hn
    have hn1 : ¬ Spec.asked e p < a := fun x => hn (Or.inl x)
    have hn2 : ¬ b < Spec.asked e p := fun x => hn (Or.inr (Or.inl x))
    have hn3 : Spec.client p.mac := Classical.byContradiction fun x => hn (Or.inr (Or.inr (Or.inl x)))
    have hn4 : mem = true := by
      cases mem
      · exact absurd (Or.inr (Or.inr (Or.inr rfl))) hn
      · rfl
    exact hv ⟨⟨hz, by omega, by omega, hn3.2, hn3.1⟩, Or.inl hn4⟩
  | _ => simp at ho

/-- C71: an address the client neither has nor asked for is not a network or broadcast address, or one whose lease
has expired. -/
theorem offer_usable (hb : b + 1 ≠ W32) (hr : run (start a b c d e) pre = some (s, o)) (now : Int) (p : Pkt) (mem : Bool)
    (t : Srv) (out : List Out) (h : recv s now p mem = some (t, out)) (mac nip : Nat) (ho : Out.offer mac nip ∈ out)
    (hown : ∀ l, Spec.Holds s l → l.mac ≠ mac) (hreq : p.reqIp ≠ some nip) :
    Spec.usable s nip ∨ ∃ l, Spec.Holds s l ∧ l.nip = nip ∧ l.expire < now := by
  obtain ⟨hi, hW, hc⟩ := reach hb hr
  have cs := step_case hi hW h
  simp only [holds_iff hi] at hown ⊢
  cases cs with
  | offer t id n _ ty hv w ad =>
    simp at ho
    obtain ⟨rfl, rfl⟩ := ho
    cases w with
    | own m hm e2 e3 => exact absurd e2 (hown m hm)
    | asked _ hx _ => exact absurd hx hreq
    | free _ hu _ => exact Or.inl hu
    | oldest i m _ _ _ hm e3 hx => exact Or.inr ⟨m, ⟨i, hm⟩, e3, hx⟩
  | wrong => split at ho <;> simp at ho
  | _ => simp at ho

example : ∃ r, recv (start 254 300 1 3600 true) 1000 ⟨1, 7, 0, none, none⟩ true = some r ∧ r.2 = [.offer 7 254] ∧
    (recv r.1 1000 ⟨1, 8, 0, none, none⟩ true).map (·.2) = some [.offer 8 257] := by
  refine ⟨_, rfl, ?_⟩; decide +kernel

/-- C71: packets that name another server change nothing and are not answered, and neither do DECLINE and RELEASE
that name no server. -/
theorem foreign_ignored (hb : b + 1 ≠ W32) (hr : run (start a b c d e) pre = some (s, o)) (now : Int) (p : Pkt) (mem : Bool)
    (hf : (∃ n, p.serverId = some n ∧ n ≠ c) ∨ (p.serverId = none ∧ (p.type = 4 ∨ p.type = 7))) :
    recv s now p mem = some (s, []) := by
  obtain ⟨hi, hW, hc⟩ := reach hb hr
  obtain ⟨t, out, h, cs⟩ := recv_case hi hW now p mem
  have hsc : s.serverNip = c := hc.c
  have hf : Spec.foreign s p ∨ (¬ Spec.foreign s p ∧ p.serverId = none ∧ (p.type = 4 ∨ p.type = 7)) := by
    rcases hf with ⟨n, x, y⟩ | ⟨x, y⟩
    · exact Or.inl ⟨n, x, by rw [hsc]; exact y⟩
    · right
      refine ⟨?_, x, y⟩
      rintro ⟨n, z, _⟩; rw [x] at z; cases z
  have hty : ∀ k, ¬ Spec.foreign s p → p.type = k → k ≠ 4 → k ≠ 7 → False := by
    intro k h1 h2 h3 h4
    rcases hf with hf | ⟨_, _, hf⟩
    · exact h1 hf
    · omega
  have hsid : ¬ Spec.foreign s p → p.serverId.isSome = true → False := by
    intro h1 h2
    rcases hf with hf | ⟨_, hf, _⟩
    · exact h1 hf
    · rw [hf] at h2; cases h2
  cases cs with
  | foreign => exact h
  | offer _ _ _ x y => exact (hty _ x y (by decide) (by decide)).elim
  | nooffer => exact h
  | ack _ _ x y => exact (hty _ x y (by decide) (by decide)).elim
  | noask => exact h
  | nakNone x y => exact (hty _ x y (by decide) (by decide)).elim
  | wrong _ x y => exact (hty _ x y (by decide) (by decide)).elim
  | decline _ _ x _ y => exact (hsid x y).elim
  | nodecline => exact h
  | release _ _ _ x _ y => exact (hsid x y).elim
  | norelease => exact h
  | inform x y => exact (hty _ x y (by decide) (by decide)).elim
  | other => exact h

/-- C71: an INFORM is answered and changes nothing. -/
theorem inform_answered (hb : b + 1 ≠ W32) (hr : run (start a b c d e) pre = some (s, o)) (now : Int) (p : Pkt) (mem : Bool)
    (ht : p.type = 8) (hf : ¬ Spec.foreign s p) : recv s now p mem = some (s, [.inform p.mac]) := by
  obtain ⟨hi, hW, hc⟩ := reach hb hr
  obtain ⟨t, out, h, cs⟩ := recv_case hi hW now p mem
  cases cs with
  | foreign x => exact absurd x hf
  | inform => exact h
  | offer _ _ _ _ x => rw [ht] at x; cases x
  | nooffer _ x => rw [ht] at x; cases x
  | ack _ _ _ x => rw [ht] at x; cases x
  | noask _ x => rw [ht] at x; cases x
  | nakNone _ x => rw [ht] at x; cases x
  | wrong _ _ x => rw [ht] at x; cases x
  | decline _ _ _ x => rw [ht] at x; cases x
  | nodecline _ x => rw [ht] at x; cases x
  | release _ _ _ _ x => rw [ht] at x; cases x
  | norelease _ x => rw [ht] at x; cases x
  | other _ _ _ _ _ x => exact absurd ht x

example : (run (start 10 20 1 3600 true) [⟨1000, ⟨8, 7, 0, none, none⟩, true⟩, ⟨1001, ⟨3, 7, 0, some 2, some 11⟩, true⟩]).map (·.2) =
    some [.inform 7] := by decide +kernel

/-! ## C70: renewal and release -/

/-- C70, partial: on a big-endian machine a client that renews its lease with its address in `ciaddr` is
acknowledged it.  Missing: little-endian machines, see `renewal_refuted`. -/
theorem renewal_partial (hb : b + 1 ≠ W32) (hr : run (start a b c d false) pre = some (s, o)) (now : Int) (l : Lease)
    (hl : Spec.Holds s l) (mem : Bool) :
    ∃ t, recv s now { type := 3, mac := l.mac, ciaddr := l.nip } mem = some (t, [.ack l.mac l.nip d, .event l.mac l.nip]) ∧
      Spec.Holds t ⟨now + d, l.nip, l.mac⟩ :=
  request_acked hb hr now { type := 3, mac := l.mac, ciaddr := l.nip } mem rfl (by rintro ⟨n, x, _⟩; cases x) l hl rfl rfl

/-- C70 fails on little-endian machines: the renewal of 192.168.77.2 is not answered. -/
theorem renewal_refuted : (run (start 3232255234 3232255300 3232255233 3600 true)
    [⟨1000, ⟨3, 7, 0, none, some 3232255234⟩, true⟩, ⟨2800, ⟨3, 7, 3232255234, none, none⟩, true⟩]).map (·.2) =
    some [.ack 7 3232255234 3600, .event 7 3232255234] := by decide +kernel

/-- C70 on little-endian machines: no renewal of any address that differs from its reversal is answered. -/
theorem renewal_unanswered (hb : b + 1 ≠ W32) (hr : run (start a b c d true) pre = some (s, o)) (now : Int) (l : Lease)
    (hl : Spec.Holds s l) (mem : Bool)
    (hn : l.nip % 256 * 16777216 + l.nip / 256 % 256 * 65536 + l.nip / 65536 % 256 * 256 + l.nip / 16777216 % 256 ≠ l.nip) :
    recv s now { type := 3, mac := l.mac, ciaddr := l.nip } mem = some (s, []) := by
  obtain ⟨hi, hW, hc⟩ := reach hb hr
  obtain ⟨t, out, h, cs⟩ := recv_case hi hW now { type := 3, mac := l.mac, ciaddr := l.nip } mem
  have he : s.little = true := hc.e
  simp only [holds_iff hi] at hl
  have hask : Spec.asked true { type := 3, mac := l.mac, ciaddr := l.nip } ≠ l.nip := hn
  cases cs with
  | foreign x => exact h
  | offer _ _ _ _ x => cases x
  | nooffer _ x => cases x
  | ack t id' _ _ _ hown => rw [he] at hown; exact absurd (hown l hl rfl).symm hask
  | noask _ _ x => exact h
  | nakNone _ _ _ x _ => exact absurd rfl (x l hl)
  | wrong => exact h
  | decline _ _ _ x => cases x
  | nodecline _ x => cases x
  | release _ _ _ _ x => cases x
  | norelease _ x => cases x
  | inform _ x => cases x
  | other _ _ x => exact absurd rfl x

/-- C70, partial: on a big-endian machine a RELEASE ends the lease.  Missing: little-endian machines, see
`release_refuted`. -/
theorem release_partial (hb : b + 1 ≠ W32) (hr : run (start a b c d false) pre = some (s, o)) (now : Int)
    (hnow : 0 ≤ now ∧ now < 4294967296) (l : Lease) (hl : Spec.Holds s l) (mem : Bool) :
    ∃ t, recv s now { type := 7, mac := l.mac, ciaddr := l.nip, serverId := some c } mem = some (t, []) ∧
      ∀ m, Spec.Holds t m ↔ m = ⟨now, l.nip, l.mac⟩ ∨ (Spec.Holds s m ∧ m ≠ l) := by
  obtain ⟨hi, hW, hc⟩ := reach hb hr
  obtain ⟨t, out, h, cs⟩ := recv_case hi hW now { type := 7, mac := l.mac, ciaddr := l.nip, serverId := some c } mem
  have he : s.little = false := hc.e
  have hsn : s.serverNip = c := hc.c
  have hti := (cs.inv hi).1
  simp only [holds_iff hi] at hl ⊢
  have hraw : rawCiaddr s { type := 7, mac := l.mac, ciaddr := l.nip, serverId := some c } = l.nip := by
    simp [rawCiaddr, he]
  cases cs with
  | foreign x => obtain ⟨n, x, y⟩ := x; cases x; exact absurd hsn.symm y
  | release t id m _ _ _ hm e1 e2 ad =>
    have := hi.uniq hm hl (Or.inr e1)
    subst this
    refine ⟨t, h, ?_⟩
    intro x
    rw [holds_iff hti, ad.has]
    have e3 : now % 4294967296 = now := Int.emod_eq_of_lt hnow.1 hnow.2
    rw [e3]
    constructor
    · rintro (h | ⟨h, h', _⟩)
      · exact Or.inl h
      · exact Or.inr ⟨h, fun e => h' (by rw [e])⟩
    · rintro (h | ⟨h, h'⟩)
      · exact Or.inl h
      · exact Or.inr ⟨h, fun e => h' (hi.uniq h hl (Or.inr e)), fun e => h' (hi.uniq h hl (Or.inl e))⟩
  | norelease _ _ x => exact absurd hraw (x rfl l hl rfl)
  | offer _ _ _ _ x => cases x
  | nooffer _ x => cases x
  | ack _ _ _ x => cases x
  | noask _ x => cases x
  | nakNone _ x => cases x
  | wrong _ _ x => cases x
  | decline _ _ _ x => cases x
  | nodecline _ x => cases x
  | inform _ x => cases x
  | other _ _ _ _ x => exact absurd rfl x

/-- C70 fails on little-endian machines: after the RELEASE of 192.168.77.2 the lease still has its hour. -/
theorem release_refuted : (run (start 3232255234 3232255300 3232255233 3600 true)
    [⟨1000, ⟨3, 7, 0, none, some 3232255234⟩, true⟩, ⟨1200, ⟨7, 7, 3232255234, some 3232255233, none⟩, true⟩]).map
      (fun r => r.1.list.map r.1.heap) = some [some ⟨4600, 3232255234, 7⟩] := by decide +kernel

/-- C70: a DECLINE of the address a client has a lease on removes the lease, on all machines. -/
theorem decline_removes (hb : b + 1 ≠ W32) (hr : run (start a b c d e) pre = some (s, o)) (now : Int) (l : Lease)
    (hl : Spec.Holds s l) (mem : Bool) :
    ∃ t, recv s now { type := 4, mac := l.mac, serverId := some c, reqIp := some l.nip } mem = some (t, []) ∧
      ∀ m, Spec.Holds t m ↔ Spec.Holds s m ∧ m ≠ l := by
  obtain ⟨hi, hW, hc⟩ := reach hb hr
  obtain ⟨t, out, h, cs⟩ := recv_case hi hW now { type := 4, mac := l.mac, serverId := some c, reqIp := some l.nip } mem
  have hsn : s.serverNip = c := hc.c
  have hti := (cs.inv hi).1
  simp only [holds_iff hi] at hl ⊢
  cases cs with
  | foreign x => obtain ⟨n, x, y⟩ := x; cases x; exact absurd hsn.symm y
  | decline t m _ _ _ hm e1 e2 r =>
    have := hi.uniq hm hl (Or.inr e1)
    subst this
    exact ⟨t, h, fun x => by rw [holds_iff hti, r.has]⟩
  | nodecline _ _ x => exact absurd rfl (x rfl l hl rfl)
  | offer _ _ _ _ x => cases x
  | nooffer _ x => cases x
  | ack _ _ _ x => cases x
  | noask _ x => cases x
  | nakNone _ x => cases x
  | wrong _ _ x => cases x
  | release _ _ _ _ x => cases x
  | norelease _ x => cases x
  | inform _ x => cases x
  | other _ _ _ x => exact absurd rfl x

example : (run (start 10 20 1 3600 false) [⟨1000, ⟨3, 7, 0, none, some 11⟩, true⟩, ⟨2800, ⟨3, 7, 11, none, none⟩, true⟩,
      ⟨3000, ⟨7, 7, 11, some 1, none⟩, true⟩]).map (fun r => (r.2, r.1.list.map r.1.heap)) =
    some ([.ack 7 11 3600, .event 7 11, .ack 7 11 3600, .event 7 11], [some ⟨3000, 11, 7⟩]) := by decide +kernel

example : (run (start 10 20 1 3600 true) [⟨1000, ⟨3, 7, 0, none, some 11⟩, true⟩,
      ⟨3000, ⟨4, 7, 0, some 1, some 11⟩, true⟩]).map (fun r => r.1.list) = some [] := by decide +kernel

end

end Verif.Server
