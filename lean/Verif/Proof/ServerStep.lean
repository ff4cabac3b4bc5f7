import Verif.Proof.Server
import Verif.Spec.Server
/-!
# Helper lemmas about the DHCP server: handling of a packet
-/
namespace Verif.Server
open Verif.C

theorem holds_iff {s : Srv} (h : Inv s) (l : Lease) : Spec.Holds s l ↔ Has s l := by
  constructor
  · rintro ⟨id, _, a⟩; exact ⟨id, a⟩
  · rintro ⟨id, a⟩; exact ⟨id, (h.live id).2 ⟨l, a⟩, a⟩

theorem Inv.uniq {s : Srv} (h : Inv s) {l m : Lease} (a : Has s l) (b : Has s m)
    (e : l.nip = m.nip ∨ l.mac = m.mac) : l = m := by
  obtain ⟨i, a⟩ := a
  obtain ⟨j, b⟩ := b
  have : i = j := by
    rcases e with e | e
    · exact h.nips a b e
    · exact h.macs _ _ _ _ a b e
  subst this
  rw [a] at b; cases b; rfl

theorem Added.comp {s t u : Srv} {i j : Nat} {L M : Lease} (a : Added s t i L) (b : Added t u j M)
    (hm : L.mac = M.mac) (hn : L.nip = M.nip) : ∀ x, Has u x ↔ x = M ∨ (Has s x ∧ x.mac ≠ M.mac ∧ x.nip ≠ M.nip) := by
  intro x
  rw [b.has]
  constructor
  · rintro (h | ⟨h1, h2, h3⟩)
    · exact Or.inl h
    · rcases (a.has x).1 h1 with rfl | h
      · exact absurd hm h2
      · exact Or.inr ⟨h.1, h2, h3⟩
  · rintro (h | ⟨h1, h2, h3⟩)
    · exact Or.inl h
    · exact Or.inr ⟨(a.has x).2 (Or.inr ⟨h1, hm ▸ h2, hn ▸ h3⟩), h2, h3⟩

theorem scan_some (s : Srv) : ∀ n ip r, scan s ip n = some r →
    ip ≤ r ∧ r < ip + n ∧ r % 256 ≠ 0 ∧ r % 256 ≠ 255 ∧ s.hash r = none := by
  intro n
  induction n with
  | zero => intro ip r h; cases h
  | succ n ih =>
    intro ip r h
    rw [scan] at h
    split at h
    · have := ih _ _ h; refine ⟨by omega, by omega, this.2.2⟩
    · rename_i hc
      injection h with h
      subst h
      refine ⟨by omega, by omega, fun e => hc (Or.inl e), fun e => hc (Or.inr (Or.inl e)), ?_⟩
      cases hh : s.hash ip with
      | none => rfl
      | some i => exact absurd (Or.inr (Or.inr (by simp [hh]))) hc

theorem scan_none (s : Srv) : ∀ n ip, scan s ip n = none →
    ∀ r, ip ≤ r → r < ip + n → r % 256 ≠ 0 → r % 256 ≠ 255 → s.hash r ≠ none := by
  intro n
  induction n with
  | zero => intros; omega
  | succ n ih =>
    intro ip h r h1 h2 h3 h4
    rw [scan] at h
    split at h
    · rename_i hc
      by_cases e : r = ip
      · subst e
        rcases hc with hc | hc | hc
        · exact absurd hc h3
        · exact absurd hc h4
        · intro e; rw [e] at hc; cases hc
      · exact ih _ h r (by omega) (by omega) h3 h4
    · cases h

theorem hash_none {s : Srv} (h : Inv s) (nip : Nat) : s.hash nip = none ↔ ∀ l, Has s l → l.nip ≠ nip := by
  constructor
  · rintro e l ⟨i, hl⟩ e'
    have := (h.hash nip i).2 ⟨l, hl, e'⟩
    rw [e] at this; cases this
  · intro hno
    cases hh : s.hash nip with
    | none => rfl
    | some i => obtain ⟨l, hl, e⟩ := (h.hash nip i).1 hh; exact absurd e (hno l ⟨i, hl⟩)

/-- What `findFree` finds. -/
theorem free_cases {s : Srv} (h : Inv s) (hW : s.endIp + 1 ≠ W32) (now : Int) :
    (∃ ip, findFree s now = some ip ∧ Spec.usable s ip ∧ ∀ l, Has s l → l.nip ≠ ip) ∨
    ((∀ ip, Spec.usable s ip → ∃ l, Has s l ∧ l.nip = ip) ∧
      ((∃ id l, s.list.getLast? = some id ∧ s.heap id = some l ∧ l.expire < now ∧ findFree s now = some l.nip) ∨
       (findFree s now = some 0 ∧ (s.list = [] ∨ ∃ id l, s.list.getLast? = some id ∧ s.heap id = some l ∧ ¬ l.expire < now)))) := by
  unfold findFree
  cases hs : scan s s.startIp (s.endIp + 1 - s.startIp) with
  | some ip =>
    left
    obtain ⟨a, b, c, d, e⟩ := scan_some s _ _ _ hs
    exact ⟨ip, rfl, ⟨a, by omega, c, d⟩, (hash_none h ip).1 e⟩
  | none =>
    right
    refine ⟨?_, ?_⟩
    · intro ip ⟨a, b, c, d⟩
      have := scan_none s _ _ hs ip a (by omega) c d
      cases hh : s.hash ip with
      | none => exact absurd hh this
      | some i => obtain ⟨l, hl, e⟩ := (h.hash ip i).1 hh; exact ⟨l, ⟨i, hl⟩, e⟩
    · simp only [if_neg hW]
      cases hl : s.list.getLast? with
      | none =>
        right
        exact ⟨rfl, Or.inl (by simpa using hl)⟩
      | some id =>
        obtain ⟨l, hh⟩ := (h.live id).1 (List.mem_of_getLast? hl)
        by_cases hx : l.expire < now
        · left; exact ⟨id, l, rfl, hh, hx, by simp [hh, isExpired, show ¬ now ≤ l.expire by omega]⟩
        · right; exact ⟨by simp [hh, isExpired, hx], Or.inr ⟨id, l, rfl, hh, hx⟩⟩

/-- What `check_requested_nip` finds. -/
theorem check_cases {s : Srv} (h : Inv s) (now : Int) (nip : Nat) :
    ∃ b, checkRequested s now nip = some b ∧
      (b = true ↔ nip ≠ 0 ∧ s.startIp ≤ nip ∧ nip ≤ s.endIp ∧ ∀ l, Has s l → l.nip = nip → l.expire < now) := by
  unfold checkRequested
  split
  · rename_i hc
    refine ⟨false, rfl, ?_⟩
    constructor
    · intro e; cases e
    · intro hh; omega
  · rename_i hc
    cases hn : s.hash nip with
    | none =>
      refine ⟨true, rfl, ?_⟩
      simp only [true_iff]
      exact ⟨by omega, by omega, by omega, fun l hl e => absurd e ((hash_none h nip).1 hn l hl)⟩
    | some i =>
      obtain ⟨l, hl, e⟩ := (h.hash nip i).1 hn
      refine ⟨isExpired l now, by simp [hl], ?_⟩
      simp only [isExpired, decide_eq_true_eq]
      constructor
      · intro hx
        refine ⟨by omega, by omega, by omega, ?_⟩
        intro m hm e'
        have := h.uniq hm ⟨i, hl⟩ (Or.inl (e'.trans e.symm))
        rw [this]; exact hx
      · intro hh; exact hh.2.2.2 l ⟨i, hl⟩ e

/-- Why an address is offered. -/
inductive Why (s : Srv) (now : Int) (p : Pkt) (nip : Nat) : Prop
  | own (l : Lease) : Has s l → l.mac = p.mac → l.nip = nip → Why s now p nip
  | asked : (∀ l, Has s l → l.mac ≠ p.mac) → p.reqIp = some nip → (∀ l, Has s l → l.nip = nip → l.expire < now) → Why s now p nip
  | free : (∀ l, Has s l → l.mac ≠ p.mac) → Spec.usable s nip → (∀ l, Has s l → l.nip ≠ nip) → Why s now p nip
  | oldest (id : Nat) (l : Lease) : (∀ l, Has s l → l.mac ≠ p.mac) → (∀ ip, Spec.usable s ip → ∃ l, Has s l ∧ l.nip = ip) →
      s.list.getLast? = some id → s.heap id = some l → l.nip = nip → l.expire < now → Why s now p nip

/-- The address the code takes a REQUEST to ask for. -/
theorem asked_eq (s : Srv) (p : Pkt) : (if p.reqIp.getD 0 = 0 then rawCiaddr s p else p.reqIp.getD 0) = Spec.asked s.little p := by
  unfold Spec.asked rawCiaddr bswap
  cases p.reqIp with
  | none => simp
  | some n => cases n <;> simp

/-- All that can happen when a packet is handled. -/
inductive Case (s : Srv) (now : Int) (p : Pkt) (mem : Bool) : Srv → List Out → Prop
  | foreign : Spec.foreign s p → Case s now p mem s []
  | offer (t : Srv) (id nip : Nat) : ¬ Spec.foreign s p → p.type = 1 → Valid s nip p.mac → Why s now p nip → Added s t id ⟨300, nip, p.mac⟩ →
      Case s now p mem t [.offer p.mac nip]
  | nooffer : ¬ Spec.foreign s p → p.type = 1 →
      (mem = true → Spec.client p.mac → (∀ l, Has s l → l.mac ≠ p.mac) → (s.list = [] ∨ ∃ id l, s.list.getLast? = some id ∧ s.heap id = some l ∧ ¬ l.expire < now) ∧
        (∀ ip, Spec.usable s ip → ip ≠ 0 → ∃ l, Has s l ∧ l.nip = ip) ∧ ∀ l, Has s l → l.mac ≠ p.mac) →
      (mem = true → Spec.client p.mac → ∀ l, Has s l → l.mac ≠ p.mac) →
      Case s now p mem s []
  | ack (t : Srv) (id : Nat) : ¬ Spec.foreign s p → p.type = 3 → Valid s (Spec.asked s.little p) p.mac →
      (∀ l, Has s l → l.mac = p.mac → l.nip = Spec.asked s.little p) →
      Inv t → Cfg s t → t.heap id = some ⟨now + s.leaseSeconds, Spec.asked s.little p, p.mac⟩ →
      (∀ x, Has t x ↔ x = ⟨now + s.leaseSeconds, Spec.asked s.little p, p.mac⟩ ∨ (Has s x ∧ x.mac ≠ p.mac ∧ x.nip ≠ Spec.asked s.little p)) →
      (Small s → Ordered s → 0 ≤ now + s.leaseSeconds → now + s.leaseSeconds < 2147483648 → Ordered t) →
      Case s now p mem t [.ack p.mac (Spec.asked s.little p) s.leaseSeconds, .event p.mac (Spec.asked s.little p)]
  | noask : ¬ Spec.foreign s p → p.type = 3 → Spec.asked s.little p = 0 → Case s now p mem s []
  | nakNone : ¬ Spec.foreign s p → p.type = 3 → Spec.asked s.little p ≠ 0 → (∀ l, Has s l → l.mac ≠ p.mac) →
      ¬ (Valid s (Spec.asked s.little p) p.mac ∧ (mem = true ∨ ∃ l, Has s l ∧ l.nip = Spec.asked s.little p)) →
      Case s now p mem s [.nak p.mac]
  | wrong (l : Lease) : ¬ Spec.foreign s p → p.type = 3 → Spec.asked s.little p ≠ 0 → Has s l → l.mac = p.mac → l.nip ≠ Spec.asked s.little p →
      Case s now p mem s (if p.serverId.isSome then [.nak p.mac] else [])
  | decline (t : Srv) (l : Lease) : ¬ Spec.foreign s p → p.type = 4 → p.serverId.isSome → Has s l → l.mac = p.mac → p.reqIp = some l.nip →
      Removed s t l → Case s now p mem t []
  | nodecline : ¬ Spec.foreign s p → p.type = 4 →
      (p.serverId.isSome → ∀ l, Has s l → l.mac = p.mac → p.reqIp ≠ some l.nip) → Case s now p mem s []
  | release (t : Srv) (id : Nat) (l : Lease) : ¬ Spec.foreign s p → p.type = 7 → p.serverId.isSome → Has s l → l.mac = p.mac →
      rawCiaddr s p = l.nip → Added s t id { l with expire := now % 4294967296 } → Case s now p mem t []
  | norelease : ¬ Spec.foreign s p → p.type = 7 →
      (p.serverId.isSome → ∀ l, Has s l → l.mac = p.mac → rawCiaddr s p ≠ l.nip) → Case s now p mem s []
  | inform : ¬ Spec.foreign s p → p.type = 8 → Case s now p mem s [.inform p.mac]
  | other : ¬ Spec.foreign s p → p.type ≠ 1 → p.type ≠ 3 → p.type ≠ 4 → p.type ≠ 7 → p.type ≠ 8 → Case s now p mem s []

theorem exp_zero (s : Srv) (now : Int) : exp s now 0 = now + s.leaseSeconds := by simp [exp]
theorem exp_offer (s : Srv) (now : Int) : exp s now offerTime = 300 := rfl

theorem offer_case {s : Srv} (h : Inv s) (hW : s.endIp + 1 ≠ W32) (now : Int) (p : Pkt) (mem : Bool)
    (hf : ¬ Spec.foreign s p) (ht : p.type = 1) :
    ∃ t out, (do let lease ← findByMac s p.mac s.list; sendOffer s now p.mac lease (p.reqIp.getD 0) mem) = some (t, out) ∧
      Case s now p mem t out := by
  -- adding the chosen address
  have add : ∀ nip, nip ≠ 0 → s.startIp ≤ nip → nip ≤ s.endIp → Why s now p nip →
      ∃ t out, (do let r ← addLease s now offerTime p.mac nip mem
                   match r.2 with | none => some (r.1, []) | some _ => some (r.1, [Out.offer p.mac nip])) = some (t, out) ∧
        Case s now p mem t out := by
    intro nip hz lo hi hw
    rcases add_cases h now offerTime nip p.mac mem with e | ⟨hv, t, id, e, ha⟩
    · rw [e]
      refine ⟨s, [], rfl, ?_⟩
      have hbad : mem = true → Spec.client p.mac → False := by
        intro hm hc
        obtain ⟨t, id, e', _⟩ := add_spec h now offerTime ⟨hz, lo, hi, hc.2, hc.1⟩ mem (Or.inl hm)
        rw [e] at e'; cases e'
      exact .nooffer hf ht (fun a b _ => (hbad a b).elim) (fun a b => (hbad a b).elim)
    · rw [e]
      exact ⟨t, _, rfl, .offer t id nip hf ht hv hw ha⟩
  rcases find_cases h p.mac with ⟨id, l, hfm, hl, hm⟩ | ⟨hfm, hno⟩
  · rw [hfm]
    have hv := h.valid id l hl
    have := add l.nip hv.z hv.lo hv.hi (.own l ⟨id, hl⟩ hm rfl)
    simp only [sendOffer, chooseNip, hl, hv.z, Option.bind_eq_bind, Option.bind_some, if_false]
    exact this
  · rw [hfm]
    obtain ⟨b, hb, hbi⟩ := check_cases h now (p.reqIp.getD 0)
    simp only [Option.bind_eq_bind, Option.bind_some, sendOffer, chooseNip, hb]
    by_cases hbt : b = true
    · have hh := hbi.1 hbt
      simp only [hbt, if_true, Option.bind_some, if_neg hh.1]
      have hr : p.reqIp = some (p.reqIp.getD 0) := by
        cases hp : p.reqIp with
        | none => rw [hp] at hh; simp at hh
        | some n => rfl
      exact add _ hh.1 hh.2.1 hh.2.2.1 (.asked hno hr hh.2.2.2)
    · simp only [if_neg hbt]
      rcases free_cases h hW now with ⟨ip, e, hu, hn⟩ | ⟨hall, ⟨id, l, e1, e2, e3, e4⟩ | ⟨e, hlast⟩⟩
      · rw [e]
        simp only [Option.bind_some]
        have : ip ≠ 0 := by rintro rfl; exact hu.2.2.1 rfl
        rw [if_neg this]
        exact add ip this hu.1 hu.2.1 (.free hno hu hn)
      · rw [e4]
        simp only [Option.bind_some]
        have hv := h.valid id l e2
        rw [if_neg hv.z]
        exact add l.nip hv.z hv.lo hv.hi (.oldest id l hno hall e1 e2 rfl e3)
      · rw [e]
        refine ⟨s, [], rfl, ?_⟩
        exact .nooffer hf ht (fun _ _ _ => ⟨hlast, fun ip hu _ => hall ip hu, hno⟩) (fun _ _ => hno)

theorem request_case {s : Srv} (h : Inv s) (now : Int) (p : Pkt) (mem : Bool)
    (hf : ¬ Spec.foreign s p) (ht : p.type = 3) :
    ∃ t out, (do let lease ← findByMac s p.mac s.list; onRequest s now p lease mem) = some (t, out) ∧
      Case s now p mem t out := by
  rcases find_cases h p.mac with ⟨id, l, hfm, hl, hm⟩ | ⟨hfm, hno⟩
  · rw [hfm]
    simp only [Option.bind_eq_bind, Option.bind_some]
    unfold onRequest
    simp only [asked_eq]
    by_cases hz : Spec.asked s.little p = 0
    · rw [if_pos hz]; exact ⟨_, _, rfl, .noask hf ht hz⟩
    · rw [if_neg hz]
      unfold answerRequest
      simp only [hl, Option.bind_eq_bind, Option.bind_some]
      by_cases he : Spec.asked s.little p = l.nip
      · rw [if_pos he]
        have hv : Valid s l.nip p.mac := hm ▸ h.valid id l hl
        obtain ⟨t, i, e, ha⟩ := add_spec h now 0 hv mem (Or.inr ⟨l, ⟨id, hl⟩, Or.inl hm⟩)
        unfold sendAck
        rw [e]
        refine ⟨t, _, rfl, ?_⟩
        rw [← he] at ha hv
        rw [← he]
        rw [exp_zero] at ha
        refine .ack t i hf ht hv ?_ ha.inv ha.cfg ha.here ha.has ha.ord
        intro m hm' e'
        rw [h.uniq hm' ⟨id, hl⟩ (Or.inr (e'.trans hm.symm))]; exact he.symm
      · rw [if_neg he]
        have := Case.wrong (now := now) (mem := mem) l hf ht hz ⟨id, hl⟩ hm (fun e => he e.symm)
        by_cases hs : p.serverId.isSome = true
        · rw [if_pos hs] at this ⊢; exact ⟨_, _, rfl, this⟩
        · rw [if_neg hs] at this ⊢; exact ⟨_, _, rfl, this⟩
  · rw [hfm]
    simp only [Option.bind_eq_bind, Option.bind_some]
    unfold onRequest
    simp only [asked_eq]
    by_cases hz : Spec.asked s.little p = 0
    · rw [if_pos hz]; exact ⟨_, _, rfl, .noask hf ht hz⟩
    · rw [if_neg hz]
      rcases add_cases h now offerTime (Spec.asked s.little p) p.mac mem with e | ⟨hv, t, id, e, ha⟩
      · rw [e]
        refine ⟨s, _, rfl, .nakNone hf ht hz hno ?_⟩
        rintro ⟨hv, hm⟩
        obtain ⟨t, id, e', _⟩ := add_spec h now offerTime hv mem (hm.imp id (fun ⟨l, a, b⟩ => ⟨l, a, Or.inr b⟩))
        rw [e] at e'; cases e'
      · rw [e]
        simp only [Option.bind_eq_bind, Option.bind_some, answerRequest, ha.here, if_true]
        have hv' : Valid t (Spec.asked s.little p) p.mac := ha.inv.valid id _ ha.here
        obtain ⟨u, i, e', hb⟩ := add_spec ha.inv now 0 hv' mem (Or.inr ⟨_, ⟨id, ha.here⟩, Or.inl rfl⟩)
        unfold sendAck
        rw [e']
        rw [exp_zero, ha.cfg.d] at hb
        simp only [Option.bind_eq_bind, Option.bind_some, ha.cfg.d]
        refine ⟨u, _, rfl, .ack u i hf ht hv (fun l hl e => absurd e (hno l hl)) hb.inv (ha.cfg.trans hb.cfg) hb.here
          (ha.comp hb rfl rfl) ?_⟩
        intro hs ho h0 h1
        rw [exp_offer] at ha
        apply hb.ord
        · intro l hl
          rcases (ha.has l).1 hl with rfl | hh
          · exact ⟨by show (0 : Int) ≤ 300; decide, by show (300 : Int) < 2147483648; decide⟩
          · exact hs l hh.1
        · exact ha.ord hs ho (by show (0 : Int) ≤ 300; decide) (by show (300 : Int) < 2147483648; decide)
        · exact h0
        · exact h1

theorem recv_case {s : Srv} (h : Inv s) (hW : s.endIp + 1 ≠ W32) (now : Int) (p : Pkt) (mem : Bool) :
    ∃ t out, recv s now p mem = some (t, out) ∧ Case s now p mem t out := by
  unfold recv
  by_cases hf : Spec.foreign s p
  · have : p.serverId.isSome ∧ p.serverId ≠ some s.serverNip := by
      obtain ⟨n, a, b⟩ := hf
      rw [a]; exact ⟨rfl, fun e => b (by injection e)⟩
    rw [if_pos (by simpa using this)]
    exact ⟨s, [], rfl, .foreign hf⟩
  · have : ¬ (p.serverId.isSome ∧ p.serverId ≠ some s.serverNip) := by
      rintro ⟨a, b⟩
      cases hs : p.serverId with
      | none => rw [hs] at a; cases a
      | some n => exact hf ⟨n, hs, fun e => b (by rw [hs, e])⟩
    rw [if_neg (by simpa using this)]
    by_cases t1 : p.type = 1
    · simp only [if_pos t1]; exact offer_case h hW now p mem hf t1
    by_cases t3 : p.type = 3
    · simp only [if_neg t1, if_pos t3]; exact request_case h now p mem hf t3
    simp only [if_neg t1, if_neg t3]
    by_cases t4 : p.type = 4
    · simp only [if_pos t4]
      unfold onDecline
      rcases find_cases h p.mac with ⟨id, l, hfm, hl, hm⟩ | ⟨hfm, hno⟩
      · rw [hfm]
        simp only [Option.bind_eq_bind, Option.bind_some]
        split
        · rename_i hc
          refine ⟨_, _, rfl, .nodecline hf t4 ?_⟩
          intro hs l hl _ e
          rw [e] at hc
          cases hss : p.serverId with
          | none => rw [hss] at hs; cases hs
          | some n => rw [hss] at hc; simp at hc
        · rename_i hc
          simp only [hl, Option.bind_some]
          split
          · rename_i he
            obtain ⟨t, e, hr⟩ := remove_spec h hl
            rw [e]
            refine ⟨t, _, rfl, .decline t l hf t4 ?_ ⟨id, hl⟩ hm he hr⟩
            cases hss : p.serverId with
            | none => rw [hss] at hc; simp at hc
            | some n => rfl
          · rename_i he
            refine ⟨_, _, rfl, .nodecline hf t4 ?_⟩
            intro _ m hm' e' e
            rw [h.uniq hm' ⟨id, hl⟩ (Or.inr (e'.trans hm.symm))] at e
            exact he e
      · rw [hfm]
        simp only [Option.bind_eq_bind, Option.bind_some]
        have : Case s now p mem s [] := .nodecline hf t4 (fun _ l hl e => absurd e (hno l hl))
        split
        · exact ⟨_, _, rfl, this⟩
        · exact ⟨_, _, rfl, this⟩
    simp only [if_neg t4]
    by_cases t7 : p.type = 7
    · simp only [if_pos t7]
      unfold onRelease
      rcases find_cases h p.mac with ⟨id, l, hfm, hl, hm⟩ | ⟨hfm, hno⟩
      · rw [hfm]
        simp only [Option.bind_eq_bind, Option.bind_some]
        split
        · rename_i hc
          refine ⟨_, _, rfl, .norelease hf t7 ?_⟩
          intro hs
          cases hss : p.serverId with
          | none => rw [hss] at hs; cases hs
          | some n => rw [hss] at hc; simp at hc
        · rename_i hc
          simp only [hl, Option.bind_some]
          split
          · rename_i he
            obtain ⟨t, e, hr⟩ := expire_spec h hl now
            rw [e]
            refine ⟨t, _, rfl, .release t id l hf t7 ?_ ⟨id, hl⟩ hm he hr⟩
            cases hss : p.serverId with
            | none => rw [hss] at hc; simp at hc
            | some n => rfl
          · rename_i he
            refine ⟨_, _, rfl, .norelease hf t7 ?_⟩
            intro _ m hm' e' e
            rw [h.uniq hm' ⟨id, hl⟩ (Or.inr (e'.trans hm.symm))] at e
            exact he e
      · rw [hfm]
        simp only [Option.bind_eq_bind, Option.bind_some]
        have : Case s now p mem s [] := .norelease hf t7 (fun _ l hl e => absurd e (hno l hl))
        split
        · exact ⟨_, _, rfl, this⟩
        · exact ⟨_, _, rfl, this⟩
    simp only [if_neg t7]
    have hfm : ∃ x, findByMac s p.mac s.list = some x := by
      rcases find_cases h p.mac with ⟨id, l, hfm, _, _⟩ | ⟨hfm, _⟩
      · exact ⟨_, hfm⟩
      · exact ⟨_, hfm⟩
    obtain ⟨x, hfm⟩ := hfm
    rw [hfm]
    by_cases t8 : p.type = 8
    · simp only [if_pos t8]; exact ⟨_, _, rfl, .inform hf t8⟩
    · simp only [if_neg t8]; exact ⟨_, _, rfl, .other hf t1 t3 t4 t7 t8⟩

theorem Case.inv {s t : Srv} {now : Int} {p : Pkt} {mem : Bool} {out : List Out} (h : Inv s) (c : Case s now p mem t out) :
    Inv t ∧ Cfg s t := by
  cases c with
  | offer t id nip _ _ _ _ a => exact ⟨a.inv, a.cfg⟩
  | ack t id _ _ _ _ a b => exact ⟨a, b⟩
  | decline t l _ _ _ _ _ _ r => exact ⟨r.inv, r.cfg⟩
  | release t id l _ _ _ _ _ _ a => exact ⟨a.inv, a.cfg⟩
  | _ => exact ⟨h, Cfg.refl s⟩

theorem inv_start (a b c d : Nat) (e : Bool) : Inv (start a b c d e) := by
  refine ⟨List.nodup_nil, ?_, ?_, ?_, ?_, ?_⟩
  · intro id; simp [start]
  · intro n id; simp [start]
  · intro i j l m h; simp [start] at h
  · intro i l h; simp [start] at h
  · intro id _; rfl

end Verif.Server
