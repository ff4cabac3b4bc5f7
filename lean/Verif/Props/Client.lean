import Verif.Proof.ClientAck
/-!
# C36, C37, C38, C73 – C76: the DHCP client
-/
namespace Verif.Client
open Verif.C Verif.Options

/-! ### Material for examples and witnesses -/

/-- A run from a reachable state. -/
theorem run_reach {A : Op → Env → Prop} {mac : List Byte} {codes : List Nat} (evs : List (Op × Env)) {c c' : Cl} {l : Spec.Log}
    {outs : List (List Out)} (r : Spec.Reach A mac codes c l) (ha : ∀ ev ∈ evs, A ev.1 ev.2)
    (hp : Spec.polite (Spec.running l) evs = true) (h : c.run evs = some (c', outs)) :
    Spec.Reach A mac codes c' (l ++ (evs.map (·.1)).zip outs) := by
  induction evs generalizing c l outs with
  | nil => cases h; simpa using r
  | cons ev t ih =>
    obtain ⟨op, e⟩ := ev
    unfold Cl.run at h
    simp only [Option.bind_eq_bind, Option.bind_eq_some_iff] at h
    obtain ⟨⟨c1, o⟩, hs, ⟨c2, os⟩, hr, h⟩ := h
    cases h
    have r1 : Spec.Reach A mac codes c1 (l ++ [(op, o)]) := by
      refine .step r ?_ (ha (op, e) (by simp)) hs
      intro a hop
      subst hop
      unfold Spec.polite at hp
      simp only [Bool.and_eq_true, Bool.not_eq_true'] at hp
      exact hp.1
    have := ih r1 (fun ev hev => ha ev (by simp [hev])) (by
      rw [running_snoc]
      unfold Spec.polite at hp
      cases op <;> simp_all) hr
    simpa using this

/-- A run from the beginning, with what it ends in. -/
theorem reached {α : Type} {mac : List Byte} {codes : List Nat} (A : Op → Env → Prop) (evs : List (Op × Env))
    (f : Cl × List (List Out) → α) (v : α) (ha : ∀ ev ∈ evs, A ev.1 ev.2) (hp : Spec.polite false evs = true)
    (h : ((new mac codes).run evs).map f = some v) :
    ∃ c outs, Spec.Reach A mac codes c ((evs.map (·.1)).zip outs) ∧ f (c, outs) = v := by
  cases hr : (new mac codes).run evs with
  | none => rw [hr] at h; cases h
  | some r =>
    rw [hr] at h
    obtain ⟨c, outs⟩ := r
    exact ⟨c, outs, by simpa using run_reach evs (.init (A := A)) ha hp hr, Option.some.inj h⟩

/-- The hardware address of the examples. -/
def mac0 : List Byte := [2, 0, 0, 0, 0, 1]

/-- The environment of the examples: sockets can be opened, `rand()` gives the transaction id 1.2.3.4. -/
def env0 : Env := ⟨true, true, [1, 2, 3, 4], fun _ _ => 0, .le⟩

/-- A packet of the server for the examples, with the transaction id 1.2.3.4. -/
def packet (type : Byte) (yi : List Byte) (opts : List Byte) : List Byte :=
  [2, 1, 6, 0, 1, 2, 3, 4, 0, 0, 0, 0, 0, 0, 0, 0] ++ yi ++ [0, 0, 0, 0, 0, 0, 0, 0] ++ mac0 ++ List.replicate 206 0 ++
    [53, 1, type] ++ opts ++ [255] ++ List.replicate (384 - opts.length) 0

/-- An OFFER of 10.0.0.5 by 10.0.0.1. -/
def offer0 : List Byte := packet 2 [10, 0, 0, 5] [54, 4, 10, 0, 0, 1]

/-- An ACK of the server 10.0.0.1 for an address with a netmask and a lease time of two hours. -/
def ack0 (yi : List Byte) : List Byte :=
  packet 5 yi [54, 4, 10, 0, 0, 1, 51, 4, 0, 0, 28, 32, 1, 4, 255, 255, 255, 0]

/-- The handshake of the examples: afterwards timer 3 is for renewing, 4 for rebinding, 5 for expiry. -/
def handshake (yi : List Byte) : List (Op × Env) :=
  [(.start none, env0), (.recv offer0 300, env0), (.recv (ack0 yi) 300, env0)]

/-- What the client does in it. -/
def shook (a : Nat) : List (List Out) :=
  [[.discover [1, 2, 3, 4] 0], [.request [1, 2, 3, 4] (some 0x0a000005) (some 0x0a000001) 0 none], [.lease (some a)]]

/-! ### C36: leases -/

theorem not_in_started {e : Env} {a : Option Nat} {c c' : Cl} {o : List Out} (h : Started e a c c' o) (x : Out) (hx : x ∈ o) :
    x = .noLease ∨ x = .request c'.xid (some c'.requestedIp) none 0 none ∧ c'.state = .rebooting ∨ ∃ y, x = .discover y 0 := by
  cases h with
  | quit hr => left; simpa using hx
  | fail => cases hx
  | reboot hs => right; left; exact ⟨by simpa using hx, hs⟩
  | disc => right; right; exact ⟨_, by simpa using hx⟩

/-- **C36 (soundness).** A lease is reported only on receipt of a packet for the own hardware address with
the transaction id of the request that waits for an answer, and this packet is an ACK; what is
reported is the address in its `yiaddr`. -/
theorem lease_sound {A : Op → Env → Prop} {mac : List Byte} {codes : List Nat} {c c' : Cl} {l : Spec.Log} {op : Op} {e : Env}
    {o : List Out} (r : Spec.Reach A mac codes c l) (polite : ∀ a, op = .start a → Spec.running l = false)
    (s : c.step op e = some (c', o)) (x : Option Nat) (hx : .lease x ∈ o) :
    ∃ pkt re xid, op = .recv pkt re ∧ 0 ≤ re ∧ Spec.running l = true ∧ Spec.pending l = some xid ∧ Spec.Mine mac xid pkt ∧
      Spec.HasType pkt re 5 ∧ x = some (Spec.yiaddr pkt) := by
  have hi := reach_inv r
  obtain ⟨ht, hg⟩ := reach_step r polite s
  cases ht with
  | skip => cases hx
  | begun h => rcases not_in_started h _ hx with h | ⟨h, _⟩ | ⟨_, h⟩ <;> cases h
  | stopped =>
    unfold Cl.stop at hx
    dsimp only at hx
    split at hx <;> simp at hx
  | retried h1 h => rcases not_in_started h _ hx with h | ⟨h, _⟩ | ⟨_, h⟩ <;> cases h
  | expired hs hk hr hsm hlv h =>
    rw [List.mem_append] at hx
    rcases hx with hx | hx
    · rcases not_in_started h _ hx with h | ⟨h, _⟩ | ⟨_, h⟩ <;> cases h
    · simp at hx
  | asked => simp at hx
  | unanswered => simp at hx
  | renewed => simp at hx
  | rebound => simp at hx
  | offered => simp at hx
  | acked hs hm hre ho hty hi' ha hlt hvals hs' has hx' hq hsm =>
    rename_i pkt re i a
    simp only [List.mem_singleton, Out.lease.injEq] at hx
    subst hx
    refine ⟨pkt, re, c.xid, rfl, hre, ?_, hi.pend ?_, ?_, type_of hty hi', by rw [getBe_beVal ha]; rfl⟩
    · cases hr : Spec.running l with
      | true => rfl
      | false => have := (hi.idle hr).mode; rw [hm] at this; cases this
    · rcases hs with h | h | h <;> simp [h]
    · rw [← hi.macOk]; exact owner_mine ho
  | refused => simp at hx

/-- **C36 (requests).** A request naming a server is for the address that server offered, with the
transaction id of the offer. -/
theorem request_carries_offer {A : Op → Env → Prop} {mac : List Byte} {codes : List Nat} {c c' : Cl} {l : Spec.Log} {op : Op}
    {e : Env} {o : List Out} (r : Spec.Reach A mac codes c l) (polite : ∀ a, op = .start a → Spec.running l = false)
    (s : c.step op e = some (c', o)) (x : List Byte) (a : Option Nat) (srv ci : Nat) (d : Option Nat)
    (hx : .request x a (some srv) ci d ∈ o) :
    ∃ addr, a = some addr ∧ ci = 0 ∧ d = none ∧ Spec.Offered mac (l ++ [(op, o)]) x addr srv := by
  have hi := reach_inv r
  obtain ⟨ht, hg⟩ := reach_step r polite s
  have hi' := inv_step hi ht hg polite
  cases ht with
  | skip => cases hx
  | begun h => rcases not_in_started h _ hx with h | ⟨h, _⟩ | ⟨_, h⟩ <;> cases h
  | stopped =>
    unfold Cl.stop at hx
    dsimp only at hx
    split at hx <;> simp at hx
  | retried h1 h => rcases not_in_started h _ hx with h | ⟨h, _⟩ | ⟨_, h⟩ <;> cases h
  | expired hs hk hr hsm hlv h =>
    rw [List.mem_append] at hx
    rcases hx with hx | hx
    · rcases not_in_started h _ hx with h | ⟨h, _⟩ | ⟨_, h⟩ <;> cases h
    · simp at hx
  | asked hs hl hr hs' hl' hr' hx' hq hv hsm hk =>
    simp only [List.mem_singleton, Out.request.injEq, Option.some.injEq] at hx
    obtain ⟨rfl, rfl, rfl, rfl, rfl⟩ := hx
    have := hi'.req hs'
    rw [hx', hq, hv] at this
    exact ⟨_, rfl, rfl, rfl, this⟩
  | unanswered => simp at hx
  | renewed => simp at hx
  | rebound => simp at hx
  | offered hs hm hre ho hty hi0 hsrv ha hs' hl' hr' hx' hq hv hsm =>
    simp only [List.mem_singleton, Out.request.injEq, Option.some.injEq] at hx
    obtain ⟨rfl, rfl, rfl, rfl, rfl⟩ := hx
    have := hi'.req hs'
    rw [hx', hq, hv] at this
    exact ⟨_, rfl, rfl, rfl, this⟩
  | acked => simp at hx
  | refused => simp at hx

/-- The handshake reports 10.0.0.5 and its netmask. -/
example : ((new mac0 [1]).run (handshake [10, 0, 0, 5])).map (fun r => (r.1.state, r.1.vals 1, r.2)) =
    some (.bound, some [bytes "255.255.255.0"], [[.discover [1, 2, 3, 4] 0],
      [.request [1, 2, 3, 4] (some 0x0a000005) (some 0x0a000001) 0 none], [.lease (some 0x0a000005)]]) := by
  decide +kernel

/-- **C36 fails** in part: the address in the ACK is reported although it is not the one that was
offered and requested, and the renewal is then for the requested one. -/
theorem ack_other_address : ∃ c l, Spec.Reach Spec.Any mac0 [1] c l ∧
    l.map (·.2) = [[.discover [1, 2, 3, 4] 0], [.request [1, 2, 3, 4] (some 0x0a000005) (some 0x0a000001) 0 none],
      [.lease (some 0x0a000009)], [.request [1, 2, 3, 4] none none 0x0a000005 (some 0x0a000001)]] := by
  obtain ⟨c, outs, hr, hv⟩ := reached (mac := mac0) (codes := [1]) Spec.Any (handshake [10, 0, 0, 9] ++ [(.fire 3, env0)])
    (fun r => r.2) (shook 0x0a000009 ++ [[.request [1, 2, 3, 4] none none 0x0a000005 (some 0x0a000001)]])
    (fun _ _ => trivial) (by decide) (by decide +kernel)
  refine ⟨c, _, hr, ?_⟩
  dsimp only at hv
  rw [hv]
  decide +kernel

/-! ### C37: renewing and rebinding -/

/-- **C37 fails.** While a client renews its lease, every packet is ignored: neither the state nor the lease
changes and nothing is reported, whatever the packet contains. -/
theorem renewal_ignores_answers {A : Op → Env → Prop} {mac : List Byte} {codes : List Nat} {c c' : Cl} {l : Spec.Log}
    {pkt : List Byte} {re : Int} {e : Env} {o : List Out} (r : Spec.Reach A mac codes c l) (hs : c.state = .renewing)
    (s : c.step (.recv pkt re) e = some (c', o)) :
    o = [] ∧ c'.state = .renewing ∧ c'.leaseSeconds = c.leaseSeconds ∧ c'.live = c.live ∧ c'.assigned = c.assigned := by
  obtain ⟨ht, -⟩ := reach_step r (fun a h => by cases h) s
  cases ht with
  | skip => exact ⟨rfl, hs, rfl, rfl, rfl⟩
  | offered hs' => rw [hs] at hs'; cases hs'
  | acked hs' => rw [hs] at hs'; simp at hs'
  | refused hs' => rw [hs] at hs'; simp at hs'

/-- Such a client: half an hour after the handshake it unicasts its request to the server, and the
matching ACK is ignored. -/
theorem renewal_ignores_answers_witness : ∃ c l, Spec.Reach Spec.Any mac0 [1] c l ∧ c.state = .renewing ∧ c.watch = true ∧
    Spec.pending l = some [1, 2, 3, 4] ∧ Spec.Mine mac0 [1, 2, 3, 4] (ack0 [10, 0, 0, 5]) ∧
    (c.step (.recv (ack0 [10, 0, 0, 5]) 300) env0).map (·.2) = some [] := by
  obtain ⟨c, outs, hr, hv⟩ := reached (mac := mac0) (codes := [1]) Spec.Any (handshake [10, 0, 0, 5] ++ [(.fire 3, env0)])
    (fun r => ((r.1.state, r.1.watch, r.2), (r.1.step (.recv (ack0 [10, 0, 0, 5]) 300) env0).map (·.2)))
    ((.renewing, true, shook 0x0a000005 ++ [[.request [1, 2, 3, 4] none none 0x0a000005 (some 0x0a000001)]]), some [])
    (fun _ _ => trivial) (by decide) (by decide +kernel)
  simp only [Prod.mk.injEq] at hv
  obtain ⟨⟨h1, h2, h3⟩, h4⟩ := hv
  refine ⟨c, _, hr, h1, h2, ?_, ⟨by decide +kernel, by decide +kernel, by decide +kernel⟩, h4⟩
  rw [h3]
  decide +kernel

/-- **C37 (partial).** A client that waits for an answer to a request which it sent by broadcast (so not when
renewing) takes a proper ACK: it is bound, reports the address, has the announced lease time and the options asked for, and
its timers are planned from it. -/
theorem ack_accepted_partial {A : Op → Env → Prop} {mac : List Byte} {codes : List Nat} {c : Cl} {l : Spec.Log}
    (r : Spec.Reach A mac codes c l) (hs : c.state = .rebooting ∨ c.state = .requesting ∨ c.state = .rebinding)
    (hm : c.mode = .l2) (hw : c.watch = true) (pkt : List Byte) (re : Int) (os fs ss : List Options.Spec.Item)
    (hP : Spec.Proper codes pkt re os fs ss) (hre : 0 ≤ re) (xid : List Byte) (hp : Spec.pending l = some xid)
    (hmine : Spec.Mine mac xid pkt) (hty : (Options.Spec.value 53 (Options.Spec.all os fs ss)).map List.head? = some (some 5))
    (e : Env) :
    ∃ c', c.step (.recv pkt re) e = some (c', [.lease (some (Spec.yiaddr pkt))]) ∧ c'.state = .bound ∧
      Spec.LeaseTime (Options.Spec.all os fs ss) c'.leaseSeconds ∧ c'.expire = c'.leaseSeconds ∧
      c'.t1 = c'.leaseSeconds / 2 ∧ c'.t2 = c'.leaseSeconds * 7 / 8 ∧
      c'.live.map Prod.snd = [.expire, .rebind, .renew] ∧ Spec.Reported codes (Options.Spec.all os fs ss) c'.vals := by
  have hi := reach_inv r
  have hx : c.xid = xid := by
    have := hi.pend (by rcases hs with h | h | h <;> simp [h])
    rw [hp] at this
    exact (Option.some.inj this).symm
  have hlen := hP.layout.size
  have ho : c.owner pkt = true := mine_owner hlen (by rw [hi.macOk, hx]; exact hmine)
  obtain ⟨d, hd⟩ : ∃ d, Options.Spec.value 53 (Options.Spec.all os fs ss) = some d := by
    cases h : Options.Spec.value 53 (Options.Spec.all os fs ss) with
    | none => rw [h] at hty; cases hty
    | some d => exact ⟨d, rfl⟩
  have hk := OptValue.lookup_legal hP.layout 53
  rw [hd] at hk hty
  obtain ⟨i, n, rest, hg, hi1, hn, hnl, hin, hdr⟩ := hk
  have hty' : pkt[i]? = some 5 := by
    have : pkt[i]? = (pkt.drop i)[0]? := by simp
    rw [this, hdr]
    cases d with
    | nil => simp at hty
    | cons a t => simpa using hty
  obtain ⟨c', o, hack⟩ := ack_some hP hi.good hi.codesOk e
  have hrecv : c.step (.recv pkt re) e = c.onAck pkt (re % 65536).toNat e := by
    simp only [Cl.step, hw, if_true]
    unfold Cl.recv
    have hg : getOption pkt (re % 65536).toNat 0x35 2000 = .ptr i := hg
    rw [if_neg (by rw [hm]; simp), if_pos hm, if_neg (by omega), if_neg (by rw [ho]; simp), hg]
    simp only [hty', Option.bind_eq_bind, Option.bind_some]
    rcases hs with h | h | h <;> rw [h] <;> simp
  obtain ⟨a, ha, h1, h2, h3, h4, h5, h6, h7, h8, h9, h10, h11, h12⟩ := ack_case hi.good hack
  refine ⟨c', by rw [hrecv, hack, h1, getBe_beVal ha]; rfl, h4, ?_, h12, ?_, h11, ?_, ?_⟩
  · obtain ⟨t, ht, htl⟩ := proper_time hP e.host
    rw [h2] at ht
    cases ht
    exact htl
  · rw [h10]; simp [Timers.bound, Nat.shiftRight_eq_div_pow]
  · have := h9.shape
    cases this with
    | bound hs hl => rw [hl]; rfl
    | idle hs => rw [h4] at hs; simp at hs
    | quit hs => rw [h4] at hs; simp at hs
    | disc hs => rw [h4] at hs; cases hs
    | reboot hs => rw [h4] at hs; cases hs
    | req hs => rw [h4] at hs; cases hs
    | nak hs => rw [h4] at hs; simp at hs
    | renew hs => rw [h4] at hs; cases hs
    | rebind hs => rw [h4] at hs; cases hs
  · obtain ⟨v, hv, hrep⟩ := proper_values hP e.host e.junk c.vals
    rw [hi.codesOk, hv] at h3
    rw [← Option.some.inj h3]
    exact hrep

/-- The ACK of the examples is proper. -/
theorem ack0_proper (yi : List Byte) (h : yi.length = 4) : Spec.Proper [1] (ack0 yi) 300
    [.opt 53 [5], .opt 54 [10, 0, 0, 1], .opt 51 [0, 0, 28, 32], .opt 1 [255, 255, 255, 0]] [] [] where
  layout := {
    size := by simp only [ack0, packet, mac0, List.length_append, List.length_replicate, List.length_cons, List.length_nil, h]
    plen_le := by decide
    area := ⟨List.replicate 366 0, by
      unfold ack0 packet
      rw [List.append_assoc, List.append_assoc, List.append_assoc,
        List.drop_left' (by simp only [mac0, List.length_append, List.length_replicate, List.length_cons, List.length_nil, h])]
      decide +kernel⟩
    inside := by decide
    file := fun h => by simp [Options.Spec.overload] at h
    sname := fun h => by simp [Options.Spec.overload] at h
    ok := by simp [Options.Spec.Item.Ok] }
  type := by intro d hd; simp [Options.Spec.all, Options.Spec.overload, Options.Spec.value] at hd; subst hd; simp
  server := ⟨_, rfl, by decide⟩
  time := by intro d hd; simp [Options.Spec.all, Options.Spec.overload, Options.Spec.value] at hd; subst hd; rfl
  asked := by decide
  lists := by
    intro k hk d hd
    simp only [List.mem_singleton] at hk
    subst hk
    simp [Options.Spec.all, Options.Spec.overload, Options.Spec.value] at hd
    subst hd
    decide

/-- Rebinding (timer 4): the ACK is taken, with its two hours. -/
example : ((new mac0 [1]).run (handshake [10, 0, 0, 5] ++ [(.fire 3, env0), (.fire 4, env0),
      (.recv (ack0 [10, 0, 0, 5]) 300, env0)])).map (fun r => (r.1.state, [r.1.leaseSeconds, r.1.t1, r.1.t2], r.2.drop 4)) =
    some (.bound, [7200, 3600, 6300], [[.request [1, 2, 3, 4] none none 0x0a000005 none], [.lease (some 0x0a000005)]]) := by
  decide +kernel

/-! ### C38: malformed messages -/

/-- **C38 (partial).** A proper packet is processed without undefined behaviour in every state. Missing for
the full C38: packets without server identifier, with a short lease time or with options shorter
than their type – these do crash, see below. -/
theorem recv_defined_partial {A : Op → Env → Prop} {mac : List Byte} {codes : List Nat} {c : Cl} {l : Spec.Log}
    (r : Spec.Reach A mac codes c l) (hw : c.watch = true) (pkt : List Byte) (re : Int) (os fs ss : List Options.Spec.Item)
    (hP : Spec.Proper codes pkt re os fs ss) (e : Env) : ∃ c' o, c.step (.recv pkt re) e = some (c', o) := by
  have hi := reach_inv r
  have hlen := hP.layout.size
  obtain ⟨srv, hsrv⟩ := proper_server hP e.host
  obtain ⟨a, ha⟩ := OptValue.getBe_ex e.host 4 pkt 16 (by omega)
  simp only [Cl.step, hw, if_true]
  unfold Cl.recv
  split
  · exact ⟨_, _, rfl⟩
  dsimp only
  split
  · exact ⟨_, _, rfl⟩
  split
  · exact ⟨_, _, rfl⟩
  by_cases hm : c.mode = .l2
  · rw [if_pos hm]
    have hk := OptValue.lookup_legal hP.layout 53
    cases hd : Options.Spec.value 53 (Options.Spec.all os fs ss) with
    | none =>
      rw [hd] at hk
      have hk : getOption pkt (re % 65536).toNat 0x35 2000 = .null := hk
      rw [hk]
      exact ⟨_, _, rfl⟩
    | some d =>
      rw [hd] at hk
      obtain ⟨i, n, rest, hg, hi1, hn, hnl, hin, hdr⟩ := hk
      have hg : getOption pkt (re % 65536).toNat 0x35 2000 = .ptr i := hg
      have hne := List.length_pos_iff.2 (hP.type d hd)
      rw [hg]
      simp only [List.getElem?_eq_getElem (show i < pkt.length by omega), Option.bind_eq_bind, Option.bind_some]
      have hack := ack_some hP hi.good hi.codesOk e
      split
      · split
        · exact ⟨_, _, rfl⟩
        · rw [hsrv, ha]
          exact ⟨_, _, rfl⟩
      all_goals first
        | exact ⟨_, _, rfl⟩
        | (split
           · exact hack
           · split <;> exact ⟨_, _, rfl⟩)
  · rw [if_neg hm, getOption_l3 pkt hlen]
    exact ⟨_, _, rfl⟩

/-- **C38 fails**: an OFFER without server identifier makes a client that looks for servers read through
a null pointer. -/
theorem offer_without_server_crashes : ∃ c l, Spec.Reach Spec.Any mac0 [1] c l ∧ c.watch = true ∧
    Spec.Mine mac0 [1, 2, 3, 4] (packet 2 [10, 0, 0, 5] []) ∧
    (c.step (.recv (packet 2 [10, 0, 0, 5] []) 300) env0).isNone = true := by
  obtain ⟨c, outs, hr, hv⟩ := reached (mac := mac0) (codes := [1]) Spec.Any [(.start none, env0)]
    (fun r => (r.1.watch, (r.1.step (.recv (packet 2 [10, 0, 0, 5] []) 300) env0).isNone)) (true, true)
    (fun _ _ => trivial) (by decide) (by decide +kernel)
  simp only [Prod.mk.injEq] at hv
  exact ⟨c, _, hr, hv.1, ⟨by decide +kernel, by decide +kernel, by decide +kernel⟩, hv.2⟩

/-- **C38 fails**: likewise an ACK without server identifier for a client that asks for its last address. -/
theorem ack_without_server_crashes : ∃ c l, Spec.Reach Spec.Any mac0 [1] c l ∧ c.watch = true ∧
    Spec.Mine mac0 [1, 2, 3, 4] (packet 5 [10, 0, 0, 5] []) ∧
    (c.step (.recv (packet 5 [10, 0, 0, 5] []) 300) env0).isNone = true := by
  obtain ⟨c, outs, hr, hv⟩ := reached (mac := mac0) (codes := [1]) Spec.Any [(.start (some 0x0a000005), env0)]
    (fun r => (r.1.watch, (r.1.step (.recv (packet 5 [10, 0, 0, 5] []) 300) env0).isNone)) (true, true)
    (fun _ _ => trivial) (by decide) (by decide +kernel)
  simp only [Prod.mk.injEq] at hv
  exact ⟨c, _, hr, hv.1, ⟨by decide +kernel, by decide +kernel, by decide +kernel⟩, hv.2⟩

/-! ### C73: stopping -/

/-- **C73 (for users who do not start a running client).** A client that is not running has no timer
and no watch; until it is started again the only event possible is another stop, which does
nothing visible. -/
theorem stopped_silent_partial {A : Op → Env → Prop} {mac : List Byte} {codes : List Nat} {c : Cl} {l : Spec.Log}
    (r : Spec.Reach A mac codes c l) (h : Spec.running l = false) :
    c.live = [] ∧ c.watch = false ∧
    ∀ op e c' o, (∀ a, op ≠ .start a) → c.step op e = some (c', o) → op = .stop ∧ o = [] := by
  obtain ⟨hs, hl, hm, hw, -⟩ := (reach_inv r).idle h
  refine ⟨hl, hw, ?_⟩
  intro op e c' o hop hst
  cases op with
  | start a => exact absurd rfl (hop a)
  | stop =>
    refine ⟨rfl, ?_⟩
    simp only [Cl.step, Option.some.injEq] at hst
    have : c.stop.2 = o := by rw [hst]
    rw [← this]
    unfold Cl.stop
    dsimp only
    rw [if_neg]
    rw [switch_none c (by rw [hw]; simp)]
    dsimp only
    rcases hs with h | h <;> rw [h] <;> simp
  | recv p re => simp [Cl.step, hw] at hst
  | hup => simp [Cl.step, hw] at hst
  | fire id => simp [Cl.step, Cl.fire, hl] at hst

/-- **C73 (release).** An address is given back only by a stop, and only if the user was told of a lease
that has not ended. -/
theorem release_sound {A : Op → Env → Prop} {mac : List Byte} {codes : List Nat} {c c' : Cl} {l : Spec.Log} {op : Op} {e : Env}
    {o : List Out} (r : Spec.Reach A mac codes c l) (polite : ∀ a, op = .start a → Spec.running l = false)
    (s : c.step op e = some (c', o)) (x y : Nat) (hx : .release x y ∈ o) : op = .stop ∧ Spec.holding l = true := by
  have hi := reach_inv r
  obtain ⟨ht, hg⟩ := reach_step r polite s
  cases ht with
  | skip => cases hx
  | begun h => rcases not_in_started h _ hx with h | ⟨h, _⟩ | ⟨_, h⟩ <;> cases h
  | stopped =>
    refine ⟨rfl, hi.held ?_⟩
    unfold Cl.stop at hx
    dsimp only at hx
    split at hx
    · rename_i h
      rw [show (c.switch .none true).1.state = c.state by rw [switch_eq]] at h
      exact h
    · cases hx
  | retried h1 h => rcases not_in_started h _ hx with h | ⟨h, _⟩ | ⟨_, h⟩ <;> cases h
  | expired hs hk hr hsm hlv h =>
    rw [List.mem_append] at hx
    rcases hx with hx | hx
    · rcases not_in_started h _ hx with h | ⟨h, _⟩ | ⟨_, h⟩ <;> cases h
    · simp at hx
  | asked => simp at hx
  | unanswered => simp at hx
  | renewed => simp at hx
  | rebound => simp at hx
  | offered => simp at hx
  | acked => simp at hx
  | refused => simp at hx

/-- Stopped while bound: the address is released and nothing is left. -/
example : ((new mac0 [1]).run (handshake [10, 0, 0, 5] ++ [(.stop, env0)])).map (fun r => (r.1.live, r.1.watch, r.2.drop 3)) =
    some ([], false, [[.release 0x0a000005 0x0a000001]]) := by decide +kernel

/-- **C73 fails** for a client that was started twice: the first timer is forgotten, and after the stop the
client sends. -/
theorem double_start_leaks : ((new mac0 [1]).run [(.start none, env0), (.start none, env0), (.stop, env0), (.fire 1, env0)]).map
    (fun r => r.2) = some [[.discover [1, 2, 3, 4] 0], [.discover [1, 2, 3, 4] 0], [], [.discover [1, 2, 3, 4] 0]] := by
  decide +kernel

/-! ### C74: giving up -/

theorem shape_live {c : Cl} (h : Shape c) (hs : c.state = .rebooting ∨ c.state = .bound ∨ c.state = .renewing ∨ c.state = .rebinding) :
    c.live ≠ [] := by
  intro h0
  cases h with
  | idle hs' => rcases hs' with h | h <;> rw [h] at hs <;> simp at hs
  | quit hs' => rcases hs' with h | h <;> rw [h] at hs <;> simp at hs
  | disc _ hl => rw [hl] at h0; cases h0
  | reboot _ hl => rw [hl] at h0; cases h0
  | req _ hl => rw [hl] at h0; cases h0
  | nak _ hl => rw [hl] at h0; cases h0
  | bound _ hl => rw [hl] at h0; cases h0
  | renew _ hl => rcases hl with hl | hl <;> rw [hl] at h0 <;> cases h0
  | rebind _ hl => rcases hl with hl | hl <;> rw [hl] at h0 <;> cases h0

theorem started_live {e : Env} {a : Option Nat} {c c' : Cl} {o : List Out} (h : Started e a c c' o) (ho : e.open2 = true) :
    c'.live ≠ [] ∨ o = [.noLease] := by
  cases h with
  | quit hr => exact Or.inr rfl
  | fail ho' => rw [ho] at ho'; cases ho'
  | reboot _ hl => left; rw [hl]; simp
  | disc _ hl => left; rw [hl]; simp

theorem stuck_inv {mac : List Byte} {codes : List Nat} {c : Cl} {l : Spec.Log}
    (r : Spec.Reach Spec.Sockets mac codes c l) (h : Spec.running l = true) : c.live ≠ [] ∨ Spec.lastOut l = some .noLease := by
  induction r with
  | init => cases h
  | step r hpol ha hs ih =>
    rename_i c c' l op e o
    obtain ⟨ht, hg⟩ := reach_step r hpol hs
    have hi' := (reach_inv (.step r hpol ha hs)).good
    have keep : op ≠ .stop → (∀ a, op ≠ .start a) → Spec.running l = true := by
      intro h1 h2
      rw [running_snoc] at h
      split at h
      · exact absurd rfl (h2 _)
      · exact absurd rfl h1
      · exact h
    cases ht with
    | skip w hop =>
      have hr : Spec.running l = true := keep (by rcases hop with rfl | ⟨_, _, rfl⟩ <;> simp) (by rcases hop with rfl | ⟨_, _, rfl⟩ <;> simp)
      rcases ih hr with h | h
      · exact Or.inl h
      · right; rw [lastOut_snoc]; simpa using h
    | begun h =>
      rcases started_live h ha.2 with h | h
      · exact Or.inl h
      · right; rw [lastOut_snoc, h]; rfl
    | stopped => rw [running_snoc] at h; cases h
    | retried h1 h =>
      rcases started_live h ha.2 with h | h
      · exact Or.inl h
      · right; rw [lastOut_snoc, h]; rfl
    | expired hs hk hr hsm hlv h' =>
      left
      cases h' with
      | quit hr' => rw [hr] at hr'; cases hr'
      | fail ho' => rw [ha.2] at ho'; cases ho'
      | reboot _ hl => rw [hl]; simp
      | disc _ hl => rw [hl]; simp
    | asked hs hl hr hs' hl' => left; rw [hl']; simp
    | unanswered => right; rw [lastOut_snoc]; rfl
    | renewed hs hk hs' hx hq hv hsm hl' => left; intro h0; rw [h0] at hl'; cases hl'
    | rebound hs hk hs' hx hq hv hsm hl' => left; intro h0; rw [h0] at hl'; cases hl'
    | offered hs hm hre ho hty hi hsrv ha hs' hl' => left; rw [hl']; simp
    | acked hs hm hre ho hty hi ha hlt hvals hs' => left; exact shape_live hi'.shape (Or.inr (Or.inl hs'))
    | refused hs hm hre ho hty hi hs' hl' => left; rw [hl']; simp

/-- **C74 (partial: sockets can be opened).** A running client never hangs: either it has reported that
there is no lease, or there is a timer whose expiry makes it go on. -/
theorem never_stuck_partial {mac : List Byte} {codes : List Nat} {c : Cl} {l : Spec.Log}
    (r : Spec.Reach Spec.Sockets mac codes c l) (h : Spec.running l = true) :
    Spec.lastOut l = some .noLease ∨ ∃ id, ∀ e, ∃ c' o, c.step (.fire id) e = some (c', o) := by
  rcases stuck_inv r h with h | h
  · right
    cases hl : c.live with
    | nil => exact absurd hl h
    | cons x t =>
      refine ⟨x.1, fun e => ?_⟩
      have : c.live.find? (·.1 = x.1) = some x := by rw [hl]; simp
      simp only [Cl.step, Cl.fire, this]
      exact ⟨_, _, rfl⟩
  · exact Or.inl h

theorem rank_pos {c : Cl} (h : Shape c) : rank c = 0 ↔ c.live = [] := by
  constructor
  · intro h0
    cases h with
    | idle _ hl => exact hl
    | quit _ hl => exact hl
    | disc _ hl => simp [rank, hl] at h0; split at h0 <;> omega
    | reboot _ hl => simp [rank, hl] at h0
    | req _ hl _ _ hr => simp [rank, hl] at h0; omega
    | nak _ hl => simp [rank, hl] at h0
    | bound _ hl => simp [rank, hl] at h0
    | renew _ hl => rcases hl with hl | hl <;> simp [rank, hl] at h0
    | rebind _ hl => rcases hl with hl | hl <;> simp [rank, hl] at h0
  · intro h0; simp [rank, h0]

theorem sent_started {e : Env} {a : Option Nat} {c c' : Cl} {o : List Out} (h : Started e a c c' o) (ho : e.open2 = true) :
    Spec.sent o ≤ 1 ∧ (c'.live = [] → c.live = [] → Spec.sent o = 0) := by
  cases h with
  | quit => exact ⟨by decide, fun _ _ => rfl⟩
  | fail ho' => rw [ho] at ho'; cases ho'
  | reboot _ hl => exact ⟨by simp [Spec.sent], fun h => by rw [hl] at h; cases h⟩
  | disc _ hl => exact ⟨by simp [Spec.sent], fun h => by rw [hl] at h; cases h⟩

/-- One timer: the rank decreases, and pays for the message. -/
theorem fire_sent {c c' : Cl} {id : Nat} {e : Env} {o : List Out} (hg : Good c) (hg' : Good c') (ht : Trans c (.fire id) e c' o)
    (ho : e.open2 = true) : rank c' < rank c ∧ Spec.sent o + (rank c' - 1) ≤ rank c - 1 := by
  have hr := rank_fire hg ht ho
  refine ⟨hr, ?_⟩
  have hp := rank_pos hg'.shape
  have key : Spec.sent o ≤ 1 ∧ (c'.live = [] → Spec.sent o = 0) := by
    cases ht with
    | skip => exact ⟨by decide, fun _ => rfl⟩
    | retried h1 h => have := sent_started h ho; exact ⟨this.1, fun h => this.2 h (retried_live h1)⟩
    | expired hs hk hr hsm hlv h =>
      have := sent_started h ho
      have e : ∀ o, Spec.sent (o ++ [.lost]) = Spec.sent o := by intro o; simp [Spec.sent]
      rw [e]
      exact ⟨this.1, fun h => this.2 h hlv⟩
    | asked hs hl hr hs' hl' => exact ⟨by simp [Spec.sent], fun h => by rw [hl'] at h; cases h⟩
    | unanswered => exact ⟨by decide, fun _ => rfl⟩
    | renewed hs hk hs' hx hq hv hsm hl' => exact ⟨by simp [Spec.sent], fun h => by rw [h] at hl'; cases hl'⟩
    | rebound hs hk hs' hx hq hv hsm hl' => exact ⟨by simp [Spec.sent], fun h => by rw [h] at hl'; cases hl'⟩
  by_cases h0 : rank c' = 0
  · rw [key.2 (hp.1 h0)]; omega
  · have := key.1; omega

theorem timers_bounded {A : Op → Env → Prop} {mac : List Byte} {codes : List Nat} {c c' : Cl} {l : Spec.Log}
    {evs : List (Op × Env)} {outs : List (List Out)} (r : Spec.Reach A mac codes c l) (hA : ∀ op e, A op e)
    (ht : Spec.TimersOnly evs)
    (h : c.run evs = some (c', outs)) : evs.length + rank c' ≤ rank c ∧ Spec.sent outs.flatten + (rank c' - 1) ≤ rank c - 1 := by
  induction evs generalizing c l outs with
  | nil => cases h; exact ⟨by simp, by simp [Spec.sent]⟩
  | cons ev t ih =>
    obtain ⟨op, e⟩ := ev
    unfold Cl.run at h
    simp only [Option.bind_eq_bind, Option.bind_eq_some_iff] at h
    obtain ⟨⟨c1, o⟩, hs, ⟨c2, os⟩, hr, h⟩ := h
    cases h
    obtain ⟨⟨id, hop⟩, hsk⟩ := ht (op, e) (by simp)
    dsimp only at hop
    subst hop
    obtain ⟨htr, hg⟩ := reach_step r (fun a h => by cases h) hs
    obtain ⟨h1, h2⟩ := fire_sent (reach_inv r).good hg htr hsk.2
    obtain ⟨h3, h4⟩ := ih (.step r (fun a h => by cases h) (hA _ _) hs) (fun ev hev => ht ev (by simp [hev])) hr
    have hse : Spec.sent (o ++ os.flatten) = Spec.sent o + Spec.sent os.flatten := by simp [Spec.sent]
    simp only [List.length_cons, List.flatten_cons]
    dsimp only at h3 h4 ⊢
    rw [hse]
    constructor <;> omega

/-- **C74 (a phase).** After a start, if nothing is received, at most seven timers fire and at most
seven messages are sent: a request for the last address and six DISCOVERs. -/
theorem start_gives_up {mac : List Byte} {codes : List Nat} {c c1 c' : Cl} {l : Spec.Log} {a : Option Nat} {e : Env} {o : List Out}
    {evs : List (Op × Env)} {outs : List (List Out)} (r : Spec.Reach Spec.Any mac codes c l) (hr : Spec.running l = false)
    (he : Spec.Sockets (.start a) e) (s : c.step (.start a) e = some (c1, o)) (ht : Spec.TimersOnly evs)
    (h : c1.run evs = some (c', outs)) :
    evs.length ≤ 7 ∧ Spec.sent (o ++ outs.flatten) ≤ 7 ∧ (a = none → evs.length ≤ 6 ∧ Spec.sent (o ++ outs.flatten) ≤ 6) := by
  have hd := (reach_inv r).idle hr
  obtain ⟨htr, hg⟩ := reach_step r (fun _ _ => hr) s
  have r1 : Spec.Reach Spec.Any mac codes c1 (l ++ [(.start a, o)]) := .step r (fun _ _ => hr) trivial s
  obtain ⟨h1, h2⟩ := timers_bounded r1 (fun _ _ => trivial) ht h
  have hse : Spec.sent (o ++ outs.flatten) = Spec.sent o + Spec.sent outs.flatten := by simp [Spec.sent]
  rw [hse]
  cases htr with
  | skip w hop => rcases hop with h | ⟨_, _, h⟩ <;> cases h
  | begun h =>
    have h3 := started_rank h hd.live he.2
    have h4 := sent_started h he.2
    have h5 := h3.2.1 hd.retry
    have hp := rank_pos hg.shape
    have h6 : c1.live = [] → Spec.sent o = 0 := fun h => h4.2 h hd.live
    have h7 : rank c1 = 0 → Spec.sent o = 0 := fun h => h6 (hp.1 h)
    refine ⟨by omega, by omega, fun ha => ?_⟩
    have := h3.2.2.1 hd.retry ha
    omega

/-- **C74 (a phase).** After an accepted OFFER, if nothing more is received, at most three REQUESTs are
sent. -/
theorem offer_gives_up {mac : List Byte} {codes : List Nat} {c c1 c' : Cl} {l : Spec.Log} {pkt : List Byte} {re : Int} {e : Env}
    {x : List Byte} {q : Option Nat} {srv ci : Nat} {d : Option Nat}
    {evs : List (Op × Env)} {outs : List (List Out)} (r : Spec.Reach Spec.Any mac codes c l)
    (s : c.step (.recv pkt re) e = some (c1, [.request x q (some srv) ci d])) (ht : Spec.TimersOnly evs)
    (h : c1.run evs = some (c', outs)) : evs.length ≤ 3 ∧ 1 + Spec.sent outs.flatten ≤ 3 := by
  obtain ⟨htr, hg⟩ := reach_step r (fun a h => by cases h) s
  have r1 : Spec.Reach Spec.Any mac codes c1 _ := .step r (fun a h => by cases h) trivial s
  obtain ⟨h1, h2⟩ := timers_bounded r1 (fun _ _ => trivial) ht h
  cases htr with
  | offered hs hm hre ho hty hi hsrv ha hs' hl' hr' =>
    have : rank c1 = 3 := by simp [rank, hl', hr']
    omega

/-- **C74 (all states).** Without a lease at most 264 timers fire one after the other without an
answer, in any state of any run: the client ends. (The large bound is due to refusals, see below.) -/
theorem gives_up_without_lease {mac : List Byte} {codes : List Nat} {c c' : Cl} {l : Spec.Log}
    {evs : List (Op × Env)} {outs : List (List Out)} (r : Spec.Reach Spec.Any mac codes c l) (hh : Spec.holding l = false)
    (ht : Spec.TimersOnly evs) (h : c.run evs = some (c', outs)) : evs.length ≤ 264 := by
  obtain ⟨h1, -⟩ := timers_bounded r (fun _ _ => trivial) ht h
  have hi := reach_inv r
  have hn : ¬ (c.state = .bound ∨ c.state = .renewing ∨ c.state = .rebinding) := by
    intro h; have := hi.held h; rw [hh] at this; cases this
  have : rank c ≤ 264 := by
    have := hi.good.shape
    cases this with
    | idle _ hl => simp [rank, hl]
    | quit _ hl => simp [rank, hl]
    | disc _ hl => simp [rank, hl]; split <;> omega
    | reboot _ hl => simp [rank, hl]
    | req _ hl _ _ hr => simp [rank, hl]; omega
    | nak _ hl => simp [rank, hl]
    | bound hs hl => simp [hs] at hn
    | renew hs hl => simp [hs] at hn
    | rebind hs hl => simp [hs] at hn
  omega

/-- **C74 (termination).** From every state only finitely many timers can fire one after the other. -/
theorem timers_end {mac : List Byte} {codes : List Nat} {c : Cl} {l : Spec.Log} (r : Spec.Reach Spec.Any mac codes c l) :
    ∃ n, ∀ evs c' outs, Spec.TimersOnly evs → c.run evs = some (c', outs) → evs.length ≤ n :=
  ⟨rank c, fun _ _ _ ht h => by have := (timers_bounded r (fun _ _ => trivial) ht h).1; omega⟩

/-- The longest phase: start with a last address, seven timers. -/
example : ((new mac0 [1]).run ((.start (some 0x0a000005), env0) :: (List.range 7).map (fun i => (.fire (i + 1), env0)))).map
    (fun r => (r.1.live, r.2)) = some ([], [[.request [1, 2, 3, 4] (some 0x0a000005) none 0 none]] ++
      List.replicate 6 [.discover [1, 2, 3, 4] 0] ++ [[.noLease]]) := by decide +kernel

/-- **C74 fails** after refusals: the count of NAKs is carried over into the count of DISCOVERs and is
reset by a stop only. After the sixth NAK the client gives up at once; if it accepts one more OFFER,
and that is refused as well, the next phase has 255 DISCOVERs. Here the first twenty. -/
theorem naks_break_retry_count :
    let nak := packet 6 [0, 0, 0, 0] []
    let round (n : Nat) : List (Op × Env) := [(.recv offer0 300, env0), (.recv nak 300, env0), (.fire n, env0)]
    ((new mac0 [1]).run ((.start none, env0) :: (round 3 ++ round 6 ++ round 9 ++ round 12 ++ round 15 ++ round 18 ++ round 20) ++
      (List.range 20).map (fun i => (.fire (21 + i), env0)))).map (fun r => (r.1.retry, r.2.drop 19)) =
    some (27, [[.request [1, 2, 3, 4] (some 0x0a000005) (some 0x0a000001) 0 none], [], [.discover [1, 2, 3, 4] 0]] ++
      List.replicate 20 [.discover [1, 2, 3, 4] 0]) := by
  decide +kernel

/-- **C74 fails** if a socket cannot be opened: when the lease has expired and the packet socket is not
available at that moment, the client is left without timers and reports nothing more. -/
theorem stuck_without_socket : ∃ c l, Spec.Reach Spec.Any mac0 [1] c l ∧ Spec.running l = true ∧ c.live = [] ∧ c.watch = false ∧
    Spec.lastOut l = some .lost := by
  obtain ⟨c, outs, hr, hv⟩ := reached (mac := mac0) (codes := [1]) Spec.Any
    (handshake [10, 0, 0, 5] ++ [(.fire 5, { env0 with open1 := false, open2 := false })])
    (fun r => (r.1.live, r.1.watch, r.2)) ([], false, shook 0x0a000005 ++ [[.lost]]) (fun _ _ => trivial) (by decide) (by decide +kernel)
  simp only [Prod.mk.injEq] at hv
  obtain ⟨h1, h2, h3⟩ := hv
  refine ⟨c, _, hr, ?_, h1, h2, ?_⟩ <;> rw [h3] <;> decide +kernel

/-! ### C75: the end of a lease -/

/-- **C75 (soundness).** The end of a lease is reported only to users who were told of the lease, and not
of its end before. -/
theorem lost_sound {A : Op → Env → Prop} {mac : List Byte} {codes : List Nat} {c c' : Cl} {l : Spec.Log} {op : Op} {e : Env}
    {o : List Out} (r : Spec.Reach A mac codes c l) (polite : ∀ a, op = .start a → Spec.running l = false)
    (s : c.step op e = some (c', o)) (hx : .lost ∈ o) : Spec.holding l = true ∧ ∃ id, op = .fire id := by
  have hi := reach_inv r
  obtain ⟨ht, hg⟩ := reach_step r polite s
  cases ht with
  | skip => cases hx
  | begun h => rcases not_in_started h _ hx with h | ⟨h, _⟩ | ⟨_, h⟩ <;> cases h
  | stopped =>
    unfold Cl.stop at hx
    dsimp only at hx
    split at hx <;> simp at hx
  | retried h1 h => rcases not_in_started h _ hx with h | ⟨h, _⟩ | ⟨_, h⟩ <;> cases h
  | expired hs hk hr hsm hlv h => exact ⟨hi.held hs, _, rfl⟩
  | asked => simp at hx
  | unanswered => simp at hx
  | renewed => simp at hx
  | rebound => simp at hx
  | offered => simp at hx
  | acked => simp at hx
  | refused => simp at hx

theorem hold_started {e : Env} {a : Option Nat} {c c' : Cl} {o : List Out} (h : Started e a c c' o) :
    o.foldl Spec.holdOut false = false := by
  cases h <;> rfl

theorem held_inv {mac : List Byte} {codes : List Nat} {c : Cl} {l : Spec.Log} (r : Spec.Reach Spec.NoNak mac codes c l)
    (h : Spec.holding l = true) : ∃ id, (id, Kind.expire) ∈ c.live := by
  induction r with
  | init => cases h
  | step r hpol ha hs ih =>
    rename_i c c' l op e o
    have hi := reach_inv r
    obtain ⟨ht, hg⟩ := reach_step r hpol hs
    -- no lease before, nothing reported now
    have no : c.live = [] ∨ (∃ id k, c.live = [(id, k)] ∧ k ≠ .expire) → o.foldl Spec.holdOut false = false → False := by
      intro hl ho
      have hf : Spec.holding l = false := by
        cases hh : Spec.holding l with
        | false => rfl
        | true =>
          obtain ⟨id, hid⟩ := ih hh
          rcases hl with hl | ⟨i, k, hl, hk⟩
          · rw [hl] at hid; cases hid
          · rw [hl] at hid
            simp only [List.mem_singleton, Prod.mk.injEq] at hid
            exact absurd hid.2.symm hk
      rw [holding_snoc, hf, ho] at h
      simp at h
    cases ht with
    | skip w hop =>
      rw [holding_snoc, if_neg (by rcases hop with rfl | ⟨_, _, rfl⟩ <;> simp)] at h
      exact ih h
    | begun h1 => exact absurd (hold_started h1) (fun h2 => no (Or.inl (hi.idle (hpol _ rfl)).live) h2)
    | stopped => rw [holding_snoc] at h; simp at h
    | retried h1 h2 =>
      exfalso
      refine no (Or.inr ?_) (hold_started h2)
      cases h1 with
      | discover _ hl => exact ⟨_, _, hl, by simp⟩
      | reboot _ hl => exact ⟨_, _, hl, by simp⟩
      | restart _ hl => exact ⟨_, _, hl, by simp⟩
    | expired hs hk hr hsm hlv h2 =>
      rw [holding_snoc, if_neg (by simp), List.foldl_append] at h
      cases h
    | asked hs hl => exact absurd rfl (fun h2 => no (Or.inr ⟨_, _, hl, by simp⟩) h2)
    | unanswered hs hl => exact absurd rfl (fun h2 => no (Or.inr ⟨_, _, hl, by simp⟩) h2)
    | renewed hs hk hs' hx hq hv hsm hl' => exact ⟨_, hl'⟩
    | rebound hs hk hs' hx hq hv hsm hl' => exact ⟨_, hl'⟩
    | offered hs1 =>
      exfalso
      refine no ?_ rfl
      have := hi.good.shape
      cases this with
      | idle _ hl => exact Or.inl hl
      | quit _ hl => exact Or.inl hl
      | disc _ hl => exact Or.inr ⟨_, _, hl, by simp⟩
      | reboot _ hl => exact Or.inr ⟨_, _, hl, by simp⟩
      | req _ hl => exact Or.inr ⟨_, _, hl, by simp⟩
      | nak _ hl => exact Or.inr ⟨_, _, hl, by simp⟩
      | bound hs' => rw [hs1] at hs'; cases hs'
      | renew hs' => rw [hs1] at hs'; cases hs'
      | rebind hs' => rw [hs1] at hs'; cases hs'
    | acked hs hm hre ho hty hi0 ha hlt hvals hs' =>
      have := hg.shape
      cases this with
      | bound _ hl => exact ⟨c'.idLease, by rw [hl]; simp⟩
      | idle hs => rw [hs'] at hs; simp at hs
      | quit hs => rw [hs'] at hs; simp at hs
      | disc hs => rw [hs'] at hs; cases hs
      | reboot hs => rw [hs'] at hs; cases hs
      | req hs => rw [hs'] at hs; cases hs
      | nak hs => rw [hs'] at hs; simp at hs
      | renew hs => rw [hs'] at hs; cases hs
      | rebind hs => rw [hs'] at hs; cases hs
    | refused hs hm hre ho hty hi0 =>
      exfalso
      obtain ⟨os, fs, ss, hL, hn⟩ := ha
      obtain ⟨d, hd, hd2⟩ := type_of hty hi0 os fs ss hL
      exact (hn d hd).2 (hd2 (hn d hd).1)

/-- **C75 (partial: no NAK is received).** As long as the user believes to have a lease, its expiry is
scheduled, and when that timer fires the user is told. -/
theorem lease_end_told_partial {mac : List Byte} {codes : List Nat} {c : Cl} {l : Spec.Log}
    (r : Spec.Reach Spec.NoNak mac codes c l) (h : Spec.holding l = true) :
    ∃ id, ∀ e, ∃ c' o, c.step (.fire id) e = some (c', o ++ [.lost]) := by
  obtain ⟨id, hid⟩ := held_inv r h
  have hi := reach_inv r
  have hf : ∃ k, c.live.find? (·.1 = id) = some (id, k) ∧ (id, k) ∈ c.live := by
    cases hfi : c.live.find? (·.1 = id) with
    | none => have := List.find?_eq_none.1 hfi _ hid; simp at this
    | some x =>
      have := List.find?_some hfi
      simp only [decide_eq_true_eq] at this
      have hm := List.mem_of_find?_eq_some hfi
      rw [show x = (id, x.2) by rw [← this]] at hm ⊢
      exact ⟨x.2, rfl, hm⟩
  obtain ⟨k, hk, hkm⟩ := hf
  have hke : k = .expire := by
    have := hi.good.shape
    cases this with
    | idle _ hl => rw [hl] at hid; cases hid
    | quit _ hl => rw [hl] at hid; cases hid
    | disc _ hl => rw [hl] at hid; simp at hid
    | reboot _ hl => rw [hl] at hid; simp at hid
    | req _ hl => rw [hl] at hid; simp at hid
    | nak _ hl => rw [hl] at hid; simp at hid
    | bound _ hl h1 h2 h3 => rw [hl] at hid hkm; simp at hid hkm; grind
    | renew _ hl h1 h2 h3 h4 h5 => rcases hl with hl | hl <;> rw [hl] at hid hkm <;> simp at hid hkm <;> grind
    | rebind _ hl h2 h3 h4 => rcases hl with hl | hl <;> rw [hl] at hid hkm <;> simp at hid hkm <;> grind
  subst hke
  refine ⟨id, fun e => ?_⟩
  simp only [Cl.step, Cl.fire, hk, Cl.callback]
  exact ⟨_, _, rfl⟩

example : ((new mac0 [1]).run (handshake [10, 0, 0, 5] ++ [(.fire 3, env0), (.fire 4, env0), (.fire 5, env0)])).map
    (fun r => r.2.drop 5) = some [[.discover [1, 2, 3, 4] 0, .lost]] := by decide +kernel

/-- **C75 fails**: a NAK while rebinding ends the lease, and the user is not told: the client looks for a new
lease with the old one not taken back. -/
theorem nak_loses_lease_silently : ∃ c l, Spec.Reach Spec.Any mac0 [1] c l ∧ Spec.holding l = true ∧
    c.state = .initSelecting ∧ c.live.map Prod.snd = [.discover] ∧ .lost ∉ (l.map (·.2)).flatten := by
  obtain ⟨c, outs, hr, hv⟩ := reached (mac := mac0) (codes := [1]) Spec.Any
    (handshake [10, 0, 0, 5] ++ [(.fire 3, env0), (.fire 4, env0), (.recv (packet 6 [0, 0, 0, 0] []) 300, env0), (.fire 8, env0)])
    (fun r => (r.1.live.map Prod.snd, r.1.state, r.2)) ([.discover], .initSelecting, shook 0x0a000005 ++
      [[.request [1, 2, 3, 4] none none 0x0a000005 (some 0x0a000001)], [.request [1, 2, 3, 4] none none 0x0a000005 none], [],
       [.discover [1, 2, 3, 4] 0]]) (fun _ _ => trivial) (by decide) (by decide +kernel)
  simp only [Prod.mk.injEq] at hv
  obtain ⟨h1, h2, h3⟩ := hv
  refine ⟨c, _, hr, ?_, h2, h1, ?_⟩ <;> rw [h3] <;> decide +kernel

/-! ### C76: socket errors -/

/-- **C76 fails**: after an error of the packet socket the client does not listen any more, although it starts
new attempts: all six DISCOVERs are sent without a watch. -/
theorem socket_error_deaf : ((new mac0 [1]).run ((.start none, env0) :: (.hup, env0) :: (List.range 5).map
      (fun i => (.fire (i + 1), env0)))).map (fun r => (r.1.mode, r.1.watch, r.2)) =
    some (.l2, false, [.discover [1, 2, 3, 4] 0] :: [] :: List.replicate 5 [.discover [1, 2, 3, 4] 0]) := by decide +kernel

/-- **C76 (partial).** The user can recover it: after stop and start the client listens. -/
theorem restart_listens_partial {A : Op → Env → Prop} {mac : List Byte} {codes : List Nat} {c c' : Cl} {l : Spec.Log}
    {a : Option Nat} {e : Env} {o : List Out} (r : Spec.Reach A mac codes c l) (h : Spec.running l = false)
    (he : Spec.Sockets (.start a) e) (s : c.step (.start a) e = some (c', o)) : c'.watch = true ∧ c'.mode = .l2 := by
  obtain ⟨hs, hl, hm, hw, hr⟩ := (reach_inv r).idle h
  simp only [Cl.step, Option.some.injEq] at s
  have : c.start a e = (c', o) := s
  clear s
  have ho := he.2
  unfold Cl.start at this
  rw [if_neg (by omega)] at this
  cases a with
  | none =>
    simp [hr, Cl.switch, hm, ho, Cl.add] at this
    rw [← this.1]
    exact ⟨rfl, rfl⟩
  | some a =>
    by_cases h1 : a = 0xffffffff
    · simp [hr, Cl.switch, hm, ho, Cl.add, h1] at this
      rw [← this.1]
      exact ⟨rfl, rfl⟩
    · by_cases h2 : a = 0
      · simp [hr, Cl.switch, hm, ho, Cl.add, h2] at this
        rw [← this.1]
        exact ⟨rfl, rfl⟩
      · simp [hr, Cl.switch, hm, ho, Cl.add, h1, h2] at this
        rw [← this.1]
        exact ⟨rfl, rfl⟩

example : ((new mac0 [1]).run [(.start none, env0), (.hup, env0), (.stop, env0), (.start none, env0)]).map
    (fun r => (r.1.watch, r.1.mode)) = some (true, .l2) := by decide +kernel

end Verif.Client
