import Verif.Proof.ClientStep
/-!
# The events of a run and the invariant
-/
namespace Verif.Client
open Verif.C Verif.Options

theorem fire_some {c : Cl} {id : Nat} {e : Env} {r : Cl × List Out} (h : c.fire id e = some r) :
    ∃ k, (id, k) ∈ c.live ∧ r = ({ c with live := c.live.filter (·.1 ≠ id) } : Cl).callback k e := by
  unfold Cl.fire at h
  split at h
  · cases h
  · rename_i i k hf
    have hm := List.mem_of_find?_eq_some hf
    have hp := List.find?_some hf
    simp only [decide_eq_true_eq] at hp
    subst hp
    cases h
    exact ⟨k, hm, rfl⟩

theorem drop_eq (c : Cl) (i : Nat) : c.drop i = { c with live := (c.drop i).live } := by
  unfold Cl.drop; split <;> rfl

/-- `continue_renew`, started with the timers of rebinding and expiry. -/
theorem renewOn_case (c : Cl) (e : Env) (hs : c.state = .renewing)
    (hl : c.live = [(c.idLease, .expire), (c.idT2, .rebind)]) (h1 : 0 < c.idT1) (h2 : 0 < c.idT2) (h3 : c.idT2 < c.idLease)
    (h4 : c.idT1 ≠ c.idT2) (h5 : c.idT1 ≠ c.idLease) (hi : Ids c) (hw : c.watch = true → c.mode ≠ .none) :
    Good (c.renewOn e).1 ∧ (c.renewOn e).1.state = .renewing ∧ (c.renewOn e).1.xid = c.xid ∧
      (c.renewOn e).1.requestedIp = c.requestedIp ∧ (c.renewOn e).1.serverIp = c.serverIp ∧ Same c (c.renewOn e).1 ∧
      ((c.renewOn e).1.idLease, .expire) ∈ (c.renewOn e).1.live ∧
      (rank (c.renewOn e).1 = 2 * 8589934592 ∨ c.t1 > 60 ∧ rank (c.renewOn e).1 = 2 * 8589934592 + 1 + c.t1 / 2) ∧ (c.renewOn e).2 = [.request c.xid none none c.requestedIp (some c.serverIp)] := by
  have hsw := switch_mode c .l3 e.open1 hw
  have hse := switch_eq c .l3 e.open1
  have hm : (c.switch .l3 e.open1).1.mode ≠ .l2 := by rcases hsw.1 with h | h <;> rw [h] <;> simp
  unfold Cl.renewOn
  dsimp only
  generalize hd : (c.switch .l3 e.open1).1 = d at *
  generalize d.mode = m at *
  generalize d.watch = w at *
  subst hse
  have hdrop : (({ c with mode := m, watch := w } : Cl).drop c.idT1) = { c with mode := m, watch := w } := by
    unfold Cl.drop
    rw [if_pos h1]
    simp only [hl]
    have : [(c.idLease, Kind.expire), (c.idT2, Kind.rebind)].filter (fun x => decide (x.1 ≠ c.idT1)) =
        [(c.idLease, Kind.expire), (c.idT2, Kind.rebind)] := by
      simp [List.filter_cons, Ne.symm h4, Ne.symm h5]
    rw [this]
  rw [hdrop]
  have hreq : ({ c with mode := m, watch := w } : Cl).sendRequest = .request c.xid none none c.requestedIp (some c.serverIp) := by
    simp [Cl.sendRequest, hs]
  rw [hreq]
  have ia := hi.a; have ib := hi.b; have id' := hi.d; have ie := hi.e
  split
  · refine ⟨⟨.renew hs (Or.inr ?_) ?_ h2 h3 ?_ ?_ hm, ⟨?_, ?_, ?_, ?_⟩, hsw.2.1⟩, hs, rfl, rfl, rfl, ⟨rfl, rfl⟩, by simp [Cl.add, hl],
      Or.inr ⟨?_, by simp [Cl.add, hl, rank, Nat.shiftRight_eq_div_pow]⟩, rfl⟩
    · show (c.next, Kind.renewMore) :: c.live = _; rw [hl]; rfl
    · show 0 < c.next; omega
    · show c.next ≠ c.idT2; omega
    · show c.next ≠ c.idLease; omega
    · show c.idTimeout < c.next + 1; omega
    · show c.next < c.next + 1; omega
    · show c.idT2 < c.next + 1; omega
    · show c.idLease < c.next + 1; omega
    · rename_i h60
      have h60 : c.t1 >>> 1 > 60 := h60
      rw [Nat.shiftRight_eq_div_pow] at h60
      omega
  · exact ⟨⟨.renew hs (Or.inl hl) h1 h2 h3 h4 h5 hm, ⟨ia, ib, id', ie⟩, hsw.2.1⟩, hs, rfl, rfl, rfl, ⟨rfl, rfl⟩, by simp [hl], Or.inl (by simp [hl, rank]), rfl⟩

/-- `continue_rebound`, started with the timer of expiry. -/
theorem rebindOn_case (c : Cl) (e : Env) (hs : c.state = .rebinding)
    (hl : c.live = [(c.idLease, .expire)]) (h2 : 0 < c.idT2) (h3 : 0 < c.idLease)
    (h4 : c.idT2 ≠ c.idLease) (hi : Ids c) (hw : c.watch = true → c.mode ≠ .none) :
    Good (c.rebindOn e).1 ∧ (c.rebindOn e).1.state = .rebinding ∧ (c.rebindOn e).1.xid = c.xid ∧
      (c.rebindOn e).1.requestedIp = c.requestedIp ∧ (c.rebindOn e).1.serverIp = c.serverIp ∧ Same c (c.rebindOn e).1 ∧
      ((c.rebindOn e).1.idLease, .expire) ∈ (c.rebindOn e).1.live ∧
      (rank (c.rebindOn e).1 = 8589934592 ∨ c.t2 > 60 ∧ rank (c.rebindOn e).1 = 8589934592 + 1 + c.t2 / 2) ∧ (c.rebindOn e).2 = [.request c.xid none none c.requestedIp none] := by
  have hsw := switch_mode c .l2 e.open1 hw
  have hse := switch_eq c .l2 e.open1
  have hm : (c.switch .l2 e.open1).1.mode ≠ .l3 := by rcases hsw.1 with h | h <;> rw [h] <;> simp
  unfold Cl.rebindOn
  dsimp only
  generalize hd : (c.switch .l2 e.open1).1 = d at *
  generalize d.mode = m at *
  generalize d.watch = w at *
  subst hse
  have hdrop : (({ c with mode := m, watch := w } : Cl).drop c.idT2) = { c with mode := m, watch := w } := by
    unfold Cl.drop
    rw [if_pos h2]
    simp only [hl]
    have : [(c.idLease, Kind.expire)].filter (fun x => decide (x.1 ≠ c.idT2)) =
        [(c.idLease, Kind.expire)] := by
      simp [Ne.symm h4]
    rw [this]
  rw [hdrop]
  have hreq : ({ c with mode := m, watch := w } : Cl).sendRequest = .request c.xid none none c.requestedIp none := by
    simp [Cl.sendRequest, hs]
  rw [hreq]
  have ia := hi.a; have ib := hi.b; have id' := hi.d; have ie := hi.e
  split
  · refine ⟨⟨.rebind hs (Or.inr ?_) ?_ h3 ?_ hm, ⟨?_, ?_, ?_, ?_⟩, hsw.2.1⟩, hs, rfl, rfl, rfl, ⟨rfl, rfl⟩, by simp [Cl.add, hl],
      Or.inr ⟨?_, by simp [Cl.add, hl, rank, Nat.shiftRight_eq_div_pow]⟩, rfl⟩
    · show (c.next, Kind.rebindMore) :: c.live = _; rw [hl]; rfl
    · show 0 < c.next; omega
    · show c.next ≠ c.idLease; omega
    · show c.idTimeout < c.next + 1; omega
    · show c.idT1 < c.next + 1; omega
    · show c.next < c.next + 1; omega
    · show c.idLease < c.next + 1; omega
    · rename_i h60
      have h60 : c.t2 >>> 1 > 60 := h60
      rw [Nat.shiftRight_eq_div_pow] at h60
      omega
  · exact ⟨⟨.rebind hs (Or.inl hl) h2 h3 h4 hm, ⟨ia, ib, id', ie⟩, hsw.2.1⟩, hs, rfl, rfl, rfl, ⟨rfl, rfl⟩, by simp [hl], Or.inl (by simp [hl, rank]), rfl⟩

/-- `start_bound` in a client without timers. -/
theorem startBound_case (c : Cl) (hl : c.live = []) (h0 : c.idTimeout = 0 ∧ c.idT1 = 0 ∧ c.idT2 = 0 ∧ c.idLease = 0)
    (hm : c.mode = .none) (hw : c.watch = false) (hn : 0 < c.next) :
    Good c.startBound ∧ c.startBound.state = .bound ∧ c.startBound.xid = c.xid ∧ c.startBound.requestedIp = c.requestedIp ∧
      c.startBound.assigned = c.assigned ∧ c.startBound.leaseSeconds = c.leaseSeconds ∧ c.startBound.vals = c.vals ∧
      c.startBound.serverIp = c.serverIp ∧ Same c c.startBound ∧ c.startBound.t1 = (Timers.bound c.leaseSeconds).t1 ∧
      c.startBound.t2 = (Timers.bound c.leaseSeconds).t2 ∧ c.startBound.expire = (Timers.bound c.leaseSeconds).expire := by
  have hr : ({ c with state := .bound } : Cl).removeTimeouts = { c with state := .bound } := by
    obtain ⟨a, b, d, e⟩ := h0
    simp only [Cl.removeTimeouts, Cl.drop, a, b, d, e]
    cases c
    simp_all
  unfold Cl.startBound
  rw [hr]
  refine ⟨⟨.bound rfl ?_ hn ?_ ?_ hm hw, ⟨?_, ?_, ?_, ?_⟩, by intro h; have : c.watch = true := h; rw [hw] at this; cases this⟩,
    rfl, rfl, rfl, rfl, rfl, rfl, rfl, ⟨rfl, rfl⟩, rfl, rfl, rfl⟩
  · show (c.next + 1 + 1, Kind.expire) :: (c.next + 1, .rebind) :: (c.next, .renew) :: c.live = _
    rw [hl]; rfl
  · show c.next < c.next + 1; omega
  · show c.next + 1 < c.next + 1 + 1; omega
  · show c.idTimeout < c.next + 1 + 1 + 1; omega
  · show c.next < c.next + 1 + 1 + 1; omega
  · show c.next + 1 < c.next + 1 + 1 + 1; omega
  · show c.next + 1 + 1 < c.next + 1 + 1 + 1; omega

/-- Every timer is known by its id. -/
def Cover (c : Cl) : Prop :=
  ∀ x ∈ c.live, 0 < x.1 ∧ (x.1 = c.idTimeout ∨ x.1 = c.idT1 ∨ x.1 = c.idT2 ∨ x.1 = c.idLease)

theorem removeTimeouts_cover (c : Cl) (h : Cover c) :
    c.removeTimeouts = { c with live := [], idTimeout := 0, idT1 := 0, idT2 := 0, idLease := 0 } := by
  have hd : ∀ (c : Cl) (i : Nat) x, x ∈ (c.drop i).live → x ∈ c.live ∧ (0 < i → x.1 ≠ i) := by
    intro c i x hx
    unfold Cl.drop at hx
    split at hx
    · rw [List.mem_filter] at hx; exact ⟨hx.1, fun _ => by simpa using hx.2⟩
    · exact ⟨hx, fun h => by omega⟩
  have hl : c.removeTimeouts.live = [] := by
    rw [List.eq_nil_iff_forall_not_mem]
    intro x hx
    have hx : x ∈ ((((c.drop c.idTimeout).drop c.idT1).drop c.idT2).drop c.idLease).live := hx
    obtain ⟨hx, n1⟩ := hd _ _ _ hx
    obtain ⟨hx, n2⟩ := hd _ _ _ hx
    obtain ⟨hx, n3⟩ := hd _ _ _ hx
    obtain ⟨hx, n4⟩ := hd _ _ _ hx
    have := h x hx
    omega
  have e : c.removeTimeouts = { c with live := c.removeTimeouts.live, idTimeout := 0, idT1 := 0, idT2 := 0, idLease := 0 } := by
    unfold Cl.removeTimeouts
    rw [drop_eq (((c.drop c.idTimeout).drop c.idT1).drop c.idT2), drop_eq ((c.drop c.idTimeout).drop c.idT1),
      drop_eq (c.drop c.idTimeout), drop_eq c]
  rw [e, hl]

theorem restart_cover (c : Cl) (n : Nat) (e : Env) (h : Cover c) (hn : 0 < c.next) (hw : c.watch = true → c.mode ≠ .none) :
    ∃ c1, Started e c.last c1 (c.restart n e).1 (c.restart n e).2 ∧ c1.retry = n % 256 ∧ c1.ackRetry = c.ackRetry ∧
      c1.state = .initSelecting ∧ c1.live = [] ∧ c1.mode ≠ .l3 ∧ Ids c1 ∧ (c1.watch = true → c1.mode ≠ .none) ∧ Same c c1 := by
  unfold Cl.restart
  rw [removeTimeouts_cover c h]
  dsimp only
  generalize hd : ({ c with live := [], idTimeout := 0, idT1 := 0, idT2 := 0, idLease := 0, retry := n % 256, requestedIp := 0, state := .initSelecting } : Cl) = d
  have hdw : d.watch = true → d.mode ≠ .none := by subst hd; exact hw
  have hsw := switch_mode d .l2 e.open1 hdw
  have hse := switch_eq d .l2 e.open1
  have hm : (d.switch .l2 e.open1).1.mode ≠ .l3 := by rcases hsw.1 with h | h <;> rw [h] <;> simp
  have h1 : (d.switch .l2 e.open1).1.live = [] := by rw [hse]; subst hd; rfl
  have h2 : Ids (d.switch .l2 e.open1).1 := by rw [hse]; subst hd; exact ⟨hn, hn, hn, hn⟩
  have h3 : (d.switch .l2 e.open1).1.state = .initSelecting := by rw [hse]; subst hd; rfl
  have h4 : (d.switch .l2 e.open1).1.last = c.last := by rw [hse]; subst hd; rfl
  rw [h4]
  refine ⟨(d.switch .l2 e.open1).1, start_case _ _ _ h1 h2 hm hsw.2.1 (fun _ => h3), ?_, ?_, h3, h1, hm, h2, hsw.2.1, ?_⟩
  · rw [hse]; subst hd; rfl
  · rw [hse]; subst hd; rfl
  · rw [hse]; subst hd; exact ⟨rfl, rfl⟩

/-- The lease expires. -/
theorem expire_case {c c' : Cl} {id : Nat} {e : Env} {o : List Out} {d : Cl}
    (hs : c.state = .bound ∨ c.state = .renewing ∨ c.state = .rebinding) (hk : (id, .expire) ∈ c.live)
    (hd : Cover d) (hn : 0 < d.next) (hw : d.watch = true → d.mode ≠ .none) (hsm : Same c d)
    (hr : (c', o) = d.callback .expire e) : Trans c (.fire id) e c' o ∧ Good c' := by
  obtain ⟨c1, hst, h1, -, h3, h4, h5, h6, h7, h8⟩ := restart_cover d.removeTimeouts 0 e
    (by rw [removeTimeouts_cover d hd]; intro x hx; simp at hx)
    (by rw [removeTimeouts_cover d hd]; exact hn) (by rw [removeTimeouts_cover d hd]; exact hw)
  simp only [Cl.callback] at hr
  generalize d.removeTimeouts.restart 0 e = p at *
  cases hr
  refine ⟨.expired hs hk (by rw [h1]) ?_ h4 hst, hst.good h4 h6 h5 h7 (fun _ => h3)⟩
  rw [removeTimeouts_cover d hd] at h8
  exact ⟨h8.1.trans hsm.1, h8.2.trans hsm.2⟩

/-- A timer event. -/
theorem fire_case {c c' : Cl} {id : Nat} {e : Env} {o : List Out} (hg : Good c) (h : c.fire id e = some (c', o)) :
    Trans c (.fire id) e c' o ∧ Good c' := by
  obtain ⟨hsh, hi, hw⟩ := hg
  obtain ⟨k, hk, hr⟩ := fire_some h
  have hn : 0 < c.next := by have := hi.a; omega
  have ia := hi.a; have ib := hi.b; have id' := hi.d; have ie := hi.e
  cases hsh with
  | idle hs hl hm hw' hr0 => rw [hl] at hk; simp at hk
  | quit hs hl hm => rw [hl] at hk; simp at hk
  | disc hs hl h0 hm =>
    rw [hl] at hk
    simp only [List.mem_singleton, Prod.mk.injEq] at hk
    obtain ⟨rfl, rfl⟩ := hk
    have hf : c.live.filter (fun x => decide (x.1 ≠ c.idTimeout)) = [] := by rw [hl]; simp
    rw [hf] at hr
    simp only [Cl.callback] at hr
    have hst := start_case ({ c with live := [], retry := (c.retry + 1) % 256 } : Cl) none e rfl ⟨ia, ib, id', ie⟩ hm hw (fun _ => hs)
    rw [← hr] at hst
    exact ⟨.retried (.discover hs hl) hst, hst.good rfl ⟨ia, ib, id', ie⟩ hm hw (fun _ => hs)⟩
  | reboot hs hl h0 hm =>
    rw [hl] at hk
    simp only [List.mem_singleton, Prod.mk.injEq] at hk
    obtain ⟨rfl, rfl⟩ := hk
    have hf : c.live.filter (fun x => decide (x.1 ≠ c.idTimeout)) = [] := by rw [hl]; simp
    rw [hf] at hr
    simp only [Cl.callback] at hr
    have hst := start_case ({ c with live := [], retry := 0, requestedIp := 0, state := .initSelecting } : Cl) none e rfl ⟨ia, ib, id', ie⟩ hm hw (fun _ => rfl)
    rw [← hr] at hst
    exact ⟨.retried (.reboot hs hl) hst, hst.good rfl ⟨ia, ib, id', ie⟩ hm hw (fun _ => rfl)⟩
  | req hs hl h0 hm hr2 =>
    rw [hl] at hk
    simp only [List.mem_singleton, Prod.mk.injEq] at hk
    obtain ⟨rfl, rfl⟩ := hk
    have hf : c.live.filter (fun x => decide (x.1 ≠ c.idTimeout)) = [] := by rw [hl]; simp
    rw [hf] at hr
    simp only [Cl.callback] at hr
    have hmod : (c.retry + 1) % 256 = c.retry + 1 := by omega
    rw [hmod] at hr
    by_cases h3 : c.retry = 2
    · have : (c', o) = (({ c with live := [], retry := 3 } : Cl), [Out.noLease]) := by
        rw [hr]
        unfold Cl.startRequest
        rw [if_pos (by show c.retry + 1 = 3; omega), h3]
      cases this
      exact ⟨.unanswered hs hl h3, ⟨.quit (Or.inr hs) rfl hm, ⟨ia, ib, id', ie⟩, hw⟩⟩
    · have hc := startRequest_case ({ c with live := [], retry := c.retry + 1 } : Cl) e (by show c.retry + 1 < 3; omega) rfl
        ⟨ia, ib, id', ie⟩ hm hw hs
      rw [← hr] at hc
      obtain ⟨hgood, h1, h2, h3', h4, h5, h6, h7, h8, h9⟩ := hc
      simp only at h9
      subst h9
      exact ⟨.asked hs hl (by omega) h1 h2 h3' h4 h5 h6 h7 h8, hgood⟩
  | nak hs hl h0 hm =>
    rw [hl] at hk
    simp only [List.mem_singleton, Prod.mk.injEq] at hk
    obtain ⟨rfl, rfl⟩ := hk
    have hf : c.live.filter (fun x => decide (x.1 ≠ c.idTimeout)) = [] := by rw [hl]; simp
    rw [hf] at hr
    simp only [Cl.callback] at hr
    have hsh : ∀ (l : Option Nat) (a : Nat) (n : Nat),
        ∃ c1, Started e l c1 (({ c with live := [], last := l, ackRetry := a } : Cl).restart n e).1
          (({ c with live := [], last := l, ackRetry := a } : Cl).restart n e).2 ∧ c1.retry = n % 256 ∧ c1.ackRetry = a ∧
          c1.state = .initSelecting ∧ c1.live = [] ∧ c1.mode ≠ .l3 ∧ Ids c1 ∧ (c1.watch = true → c1.mode ≠ .none) ∧
          Same c c1 := by
      intro l a n
      exact restart_cover ({ c with live := [], last := l, ackRetry := a } : Cl) n e (by intro x hx; cases hx) hn hw
    split at hr
    · rename_i hreb
      obtain ⟨c1, hst, h1, h2, h3, h4, h5, h6, h7, h8⟩ := hsh none c.ackRetry 0
      rw [show ({ c with live := [], last := none, ackRetry := c.ackRetry } : Cl) = { c with live := [], last := none } from rfl,
        ← hr] at hst
      exact ⟨.retried (.restart hs hl (by rw [h1, if_pos hreb]) (by rw [h2, if_pos hreb]) h3 h4 h5 h6 h7 h8 (fun _ => rfl)) hst,
        hst.good h4 h6 h5 h7 (fun _ => h3)⟩
    · rename_i hreb
      obtain ⟨c1, hst, h1, h2, h3, h4, h5, h6, h7, h8⟩ := hsh c.last ((c.ackRetry + 1) % 256) ((c.ackRetry + 1) % 256)
      rw [show ({ c with live := [], last := c.last, ackRetry := (c.ackRetry + 1) % 256 } : Cl) =
        { c with live := [], ackRetry := (c.ackRetry + 1) % 256 } from rfl] at hst
      rw [← hr] at hst
      exact ⟨.retried (.restart hs hl (by rw [h1, if_neg hreb]; omega) (by rw [h2, if_neg hreb]) h3 h4 h5 h6 h7 h8 (fun h => absurd h hreb)) hst,
        hst.good h4 h6 h5 h7 (fun _ => h3)⟩
  | bound hs hl h1 h2 h3 hm hw' =>
    have f1 : c.live.filter (fun x => decide (x.1 ≠ c.idT1)) = [(c.idLease, .expire), (c.idT2, .rebind)] := by
      rw [hl]; simp [List.filter_cons, show c.idLease ≠ c.idT1 by omega, show c.idT2 ≠ c.idT1 by omega]
    have f2 : c.live.filter (fun x => decide (x.1 ≠ c.idT2)) = [(c.idLease, .expire), (c.idT1, .renew)] := by
      rw [hl]; simp [List.filter_cons, show c.idLease ≠ c.idT2 by omega, show c.idT1 ≠ c.idT2 by omega]
    have f3 : c.live.filter (fun x => decide (x.1 ≠ c.idLease)) = [(c.idT2, .rebind), (c.idT1, .renew)] := by
      rw [hl]; simp [List.filter_cons, show c.idT1 ≠ c.idLease by omega, show c.idT2 ≠ c.idLease by omega]
    have hk' := hk
    rw [hl] at hk
    simp only [List.mem_cons, Prod.mk.injEq, List.not_mem_nil, or_false] at hk
    rcases hk with ⟨rfl, rfl⟩ | ⟨rfl, rfl⟩ | ⟨rfl, rfl⟩
    · rw [f3] at hr
      refine expire_case (Or.inl hs) hk' ?_ ?_ ?_ ?_ hr
      · intro x hx
        simp only [List.mem_cons, List.not_mem_nil, or_false] at hx
        rcases hx with rfl | rfl <;> dsimp only <;> omega
      · exact hn
      · exact hw
      · exact ⟨rfl, rfl⟩
    · rw [f2] at hr
      have hdrop : (({ c with live := [(c.idLease, .expire), (c.idT1, .renew)] } : Cl).drop c.idT1) =
          { c with live := [(c.idLease, .expire)] } := by
        unfold Cl.drop
        rw [if_pos h1]
        simp [List.filter_cons, show c.idLease ≠ c.idT1 by omega]
      simp only [Cl.callback, hdrop] at hr
      have := rebindOn_case ({ c with live := [(c.idLease, .expire)], state := .rebinding, t2 := (c.expire + W32 - c.t2) % W32 } : Cl) e
        rfl rfl (by show 0 < c.idT2; omega) (by show 0 < c.idLease; omega) (by show c.idT2 ≠ c.idLease; omega) ⟨ia, ib, id', ie⟩ hw
      rw [← hr] at this
      obtain ⟨hg, a1, a2, a3, a4, a5, a7, a8, a6⟩ := this
      simp only at a6
      subst a6
      exact ⟨.rebound (Or.inl hs) (Or.inl hk') a1 a2 a3 a4 a5 a7 (by
        have hr0 : rank c = 3 * 8589934592 := by simp [rank, hl]
        have hW : W32 = 4294967296 := rfl
        have hm1 : (c.t2 + W32 - c.t1) % W32 < W32 := Nat.mod_lt _ (by decide)
        have hm2 : (c.expire + W32 - c.t2) % W32 < W32 := Nat.mod_lt _ (by decide)
        dsimp only at a8 ⊢
        rw [hr0]
        omega), hg⟩
    · rw [f1] at hr
      simp only [Cl.callback] at hr
      have := renewOn_case ({ c with live := [(c.idLease, .expire), (c.idT2, .rebind)], state := .renewing, t1 := (c.t2 + W32 - c.t1) % W32 } : Cl) e
        rfl rfl h1 (by show 0 < c.idT2; omega) h3 (by show c.idT1 ≠ c.idT2; omega) (by show c.idT1 ≠ c.idLease; omega) ⟨ia, ib, id', ie⟩ hw
      rw [← hr] at this
      obtain ⟨hg, a1, a2, a3, a4, a5, a7, a8, a6⟩ := this
      simp only at a6
      subst a6
      exact ⟨.renewed (Or.inl hs) (Or.inl hk') a1 a2 a3 a4 a5 a7 (by
        have hr0 : rank c = 3 * 8589934592 := by simp [rank, hl]
        have hW : W32 = 4294967296 := rfl
        have hm1 : (c.t2 + W32 - c.t1) % W32 < W32 := Nat.mod_lt _ (by decide)
        have hm2 : (c.expire + W32 - c.t2) % W32 < W32 := Nat.mod_lt _ (by decide)
        dsimp only at a8 ⊢
        rw [hr0]
        omega), hg⟩
  | renew hs hl h1 h2 h3 h4 h5 hm =>
    have hk' := hk
    have hcov : ∀ x ∈ c.live, 0 < x.1 ∧ (x.1 = c.idTimeout ∨ x.1 = c.idT1 ∨ x.1 = c.idT2 ∨ x.1 = c.idLease) := by
      intro x hx
      rcases hl with hl | hl <;> rw [hl] at hx <;> simp only [List.mem_cons, List.not_mem_nil, or_false] at hx
      · rcases hx with rfl | rfl <;> dsimp only <;> omega
      · rcases hx with rfl | rfl | rfl <;> dsimp only <;> omega
    have hexp : k = .expire → Trans c (.fire id) e c' o ∧ Good c' := by
      intro hke
      subst hke
      refine expire_case (Or.inr (Or.inl hs)) hk' ?_ ?_ ?_ ?_ hr
      · intro x hx; exact hcov x (List.mem_filter.1 hx).1
      · exact hn
      · exact hw
      · exact ⟨rfl, rfl⟩
    have hreb : (id, k) = (c.idT2, .rebind) → Trans c (.fire id) e c' o ∧ Good c' := by
      intro hke
      obtain ⟨rfl, rfl⟩ := Prod.mk.inj hke
      have hdrop : (({ c with live := c.live.filter (fun x => decide (x.1 ≠ c.idT2)) } : Cl).drop c.idT1) =
          { c with live := [(c.idLease, .expire)] } := by
        unfold Cl.drop
        rw [if_pos h1]
        rcases hl with hl | hl <;> rw [hl] <;>
          simp [List.filter_cons, Ne.symm h5, h4, show c.idLease ≠ c.idT2 by omega]
      simp only [Cl.callback, hdrop] at hr
      have := rebindOn_case ({ c with live := [(c.idLease, .expire)], state := .rebinding, t2 := (c.expire + W32 - c.t2) % W32 } : Cl) e
        rfl rfl (by show 0 < c.idT2; omega) (by show 0 < c.idLease; omega) (by show c.idT2 ≠ c.idLease; omega) ⟨ia, ib, id', ie⟩ hw
      rw [← hr] at this
      obtain ⟨hg, a1, a2, a3, a4, a5, a7, a8, a6⟩ := this
      simp only at a6
      subst a6
      exact ⟨.rebound (Or.inr (Or.inl hs)) (Or.inl hk') a1 a2 a3 a4 a5 a7 (by
        have hr0 : 2 * 8589934592 ≤ rank c := by rcases hl with hl | hl <;> simp [rank, hl]; omega
        have hW : W32 = 4294967296 := rfl
        have hm1 : (c.t2 + W32 - c.t1) % W32 < W32 := Nat.mod_lt _ (by decide)
        have hm2 : (c.expire + W32 - c.t2) % W32 < W32 := Nat.mod_lt _ (by decide)
        dsimp only at a8 ⊢
        omega), hg⟩
    rcases hl with hl | hl
    · rw [hl] at hk
      simp only [List.mem_cons, Prod.mk.injEq, List.not_mem_nil, or_false] at hk
      rcases hk with ⟨rfl, rfl⟩ | ⟨rfl, rfl⟩
      · exact hexp rfl
      · exact hreb rfl
    · rw [hl] at hk
      simp only [List.mem_cons, Prod.mk.injEq, List.not_mem_nil, or_false] at hk
      rcases hk with ⟨rfl, rfl⟩ | ⟨rfl, rfl⟩ | ⟨rfl, rfl⟩
      · have f1 : c.live.filter (fun x => decide (x.1 ≠ c.idT1)) = [(c.idLease, .expire), (c.idT2, .rebind)] := by
          rw [hl]; simp [List.filter_cons, Ne.symm h4, Ne.symm h5]
        rw [f1] at hr
        simp only [Cl.callback] at hr
        have := renewOn_case ({ c with live := [(c.idLease, .expire), (c.idT2, .rebind)] } : Cl) e
          hs rfl h1 h2 h3 h4 h5 ⟨ia, ib, id', ie⟩ hw
        rw [← hr] at this
        obtain ⟨hg, a1, a2, a3, a4, a5, a7, a8, a6⟩ := this
        simp only at a6
        subst a6
        exact ⟨.renewed (Or.inr hs) (Or.inr hk') a1 a2 a3 a4 a5 a7 (by
          have hr0 : rank c = 2 * 8589934592 + 1 + c.t1 := by simp [rank, hl]
          dsimp only at a8 ⊢
          omega), hg⟩
      · exact hexp rfl
      · exact hreb rfl
  | rebind hs hl h2 h3 h4 hm =>
    have hk' := hk
    have hexp : k = .expire → Trans c (.fire id) e c' o ∧ Good c' := by
      intro hke
      subst hke
      refine expire_case (Or.inr (Or.inr hs)) hk' ?_ ?_ ?_ ?_ hr
      · intro x hx
        have hx := (List.mem_filter.1 hx).1
        dsimp only
        rcases hl with hl | hl <;> rw [hl] at hx <;> simp only [List.mem_cons, List.not_mem_nil, or_false] at hx
        · rcases hx with rfl; dsimp only; omega
        · rcases hx with rfl | rfl <;> dsimp only <;> omega
      · exact hn
      · exact hw
      · exact ⟨rfl, rfl⟩
    rcases hl with hl | hl
    · rw [hl] at hk
      simp only [List.mem_cons, Prod.mk.injEq, List.not_mem_nil, or_false] at hk
      rcases hk with ⟨rfl, rfl⟩
      exact hexp rfl
    · rw [hl] at hk
      simp only [List.mem_cons, Prod.mk.injEq, List.not_mem_nil, or_false] at hk
      rcases hk with ⟨rfl, rfl⟩ | ⟨rfl, rfl⟩
      · have f1 : c.live.filter (fun x => decide (x.1 ≠ c.idT2)) = [(c.idLease, .expire)] := by
          rw [hl]; simp [List.filter_cons, Ne.symm h4]
        rw [f1] at hr
        simp only [Cl.callback] at hr
        have := rebindOn_case ({ c with live := [(c.idLease, .expire)] } : Cl) e hs rfl h2 h3 h4 ⟨ia, ib, id', ie⟩ hw
        rw [← hr] at this
        obtain ⟨hg, a1, a2, a3, a4, a5, a7, a8, a6⟩ := this
        simp only at a6
        subst a6
        exact ⟨.rebound (Or.inr (Or.inr hs)) (Or.inr hk') a1 a2 a3 a4 a5 a7 (by
          have hr0 : rank c = 8589934592 + 1 + c.t2 := by simp [rank, hl]
          dsimp only at a8 ⊢
          omega), hg⟩
      · exact hexp rfl

theorem Shape.cover {c : Cl} (h : Shape c) : Cover c := by
  intro x hx
  cases h with
  | idle hs hl hm hw hr => rw [hl] at hx; simp at hx
  | quit hs hl hm => rw [hl] at hx; simp at hx
  | disc hs hl h0 hm => rw [hl] at hx; simp only [List.mem_singleton] at hx; subst hx; exact ⟨h0, Or.inl rfl⟩
  | reboot hs hl h0 hm => rw [hl] at hx; simp only [List.mem_singleton] at hx; subst hx; exact ⟨h0, Or.inl rfl⟩
  | req hs hl h0 hm hr => rw [hl] at hx; simp only [List.mem_singleton] at hx; subst hx; exact ⟨h0, Or.inl rfl⟩
  | nak hs hl h0 hm => rw [hl] at hx; simp only [List.mem_singleton] at hx; subst hx; exact ⟨h0, Or.inl rfl⟩
  | bound hs hl h1 h2 h3 hm hw =>
    rw [hl] at hx
    simp only [List.mem_cons, List.not_mem_nil, or_false] at hx
    rcases hx with rfl | rfl | rfl <;> dsimp only <;> omega
  | renew hs hl h1 h2 h3 h4 h5 hm =>
    rcases hl with hl | hl <;> rw [hl] at hx <;> simp only [List.mem_cons, List.not_mem_nil, or_false] at hx
    · rcases hx with rfl | rfl <;> dsimp only <;> omega
    · rcases hx with rfl | rfl | rfl <;> dsimp only <;> omega
  | rebind hs hl h2 h3 h4 hm =>
    rcases hl with hl | hl <;> rw [hl] at hx <;> simp only [List.mem_cons, List.not_mem_nil, or_false] at hx
    · rcases hx with rfl; dsimp only; omega
    · rcases hx with rfl | rfl <;> dsimp only <;> omega

theorem switch_none (c : Cl) (h : c.watch = true → c.mode ≠ .none) :
    (c.switch .none true).1 = { c with mode := .none, watch := false } := by
  unfold Cl.switch
  split
  · rename_i hm
    have : c.watch = false := by
      cases hw : c.watch
      · rfl
      · exact absurd hm (h hw)
    cases c
    simp_all
  · simp

/-- An acknowledgement. -/
theorem ack_case {c c' : Cl} {pkt : List Byte} {plen : Nat} {e : Env} {o : List Out} (hg : Good c)
    (h : c.onAck pkt plen e = some (c', o)) : ∃ a, Wire.getBe e.host 4 pkt 16 = some a ∧ o = [.lease (some a)] ∧
      Timers.getLease e.host pkt plen 2000 = some c'.leaseSeconds ∧
      OptValue.getRequest e.host e.junk pkt plen c.codes c.vals = some c'.vals ∧ c'.state = .bound ∧
      c'.assigned = some a ∧ c'.xid = c.xid ∧ c'.requestedIp = c.requestedIp ∧ Same c c' ∧ Good c' ∧ c'.t1 = (Timers.bound c'.leaseSeconds).t1 ∧
      c'.t2 = (Timers.bound c'.leaseSeconds).t2 ∧ c'.expire = (Timers.bound c'.leaseSeconds).expire := by
  obtain ⟨hsh, hi, hw⟩ := hg
  have hn : 0 < c.next := by have := hi.a; omega
  unfold Cl.onAck at h
  rw [removeTimeouts_cover _ (show Cover ({ c with retry := 0 } : Cl) from hsh.cover)] at h
  simp only [Option.bind_eq_bind, Option.bind_eq_some_iff] at h
  obtain ⟨s, hs, v, hv, a, ha, h⟩ := h
  rw [switch_none _ (by exact hw)] at h
  dsimp only at h
  refine ⟨a, ha, ?_⟩
  have fin : ∀ srv : Nat, ∀ d : Cl, d = ({ c with live := [], idTimeout := 0, idT1 := 0, idT2 := 0, idLease := 0, retry := 0, leaseSeconds := s, vals := v, mode := .none, watch := false, assigned := some a, serverIp := srv } : Cl) →
      (c', o) = (d.startBound, [Out.lease d.assigned]) →
      o = [.lease (some a)] ∧
      Timers.getLease e.host pkt plen 2000 = some c'.leaseSeconds ∧
      OptValue.getRequest e.host e.junk pkt plen c.codes c.vals = some c'.vals ∧ c'.state = .bound ∧
      c'.assigned = some a ∧ c'.xid = c.xid ∧ c'.requestedIp = c.requestedIp ∧ Same c c' ∧ Good c' ∧ c'.t1 = (Timers.bound c'.leaseSeconds).t1 ∧
      c'.t2 = (Timers.bound c'.leaseSeconds).t2 ∧ c'.expire = (Timers.bound c'.leaseSeconds).expire := by
    intro srv d hd he
    have hb := startBound_case d (by rw [hd]) (by rw [hd]; exact ⟨rfl, rfl, rfl, rfl⟩) (by rw [hd]) (by rw [hd]) (by rw [hd]; exact hn)
    obtain ⟨b1, b2, b3, b4, b5, b6, b7, b8, b9, b10, b11, b12⟩ := hb
    cases he
    refine ⟨by rw [hd], ?_, ?_, b2, ?_, ?_, ?_, ?_, b1, by rw [b10, b6], by rw [b11, b6], by rw [b12, b6]⟩
    · rw [b6, hd]; exact hs
    · rw [b7, hd]; exact hv
    · rw [b5, hd]
    · rw [b3, hd]
    · rw [b4, hd]
    · rw [Same, b9.1, b9.2, hd]; exact ⟨rfl, rfl⟩
  split at h
  · simp only [Option.bind_eq_some_iff] at h
    obtain ⟨srv, hsrv, x, hx, h⟩ := h
    cases hx
    exact fin srv _ rfl (Option.some.inj h).symm
  · simp only [Option.bind_some] at h
    exact fin c.serverIp _ rfl (Option.some.inj h).symm

/-- A packet. -/
theorem recv_case {c c' : Cl} {pkt : List Byte} {re : Int} {e : Env} {o : List Out} (hg : Good c) (hwt : c.watch = true)
    (h : c.recv pkt re e = some (c', o)) : Trans c (.recv pkt re) e c' o ∧ Good c' := by
  have hskip : Trans c (.recv pkt re) e c [] ∧ Good c :=
    ⟨.skip c.watch (Or.inr ⟨_, _, rfl⟩) (fun h => h), hg⟩
  have hskip : (c, ([] : List Out)) = (c', o) → Trans c (.recv pkt re) e c' o ∧ Good c' := by
    intro he; cases he; exact hskip
  unfold Cl.recv at h
  rw [if_neg (hg.watch hwt)] at h
  dsimp only at h
  split at h
  · exact hskip (Option.some.inj h)
  rename_i hre
  split at h
  · exact hskip (Option.some.inj h)
  rename_i ho
  have ho : c.owner pkt = true := by simpa using ho
  split at h
  · exact hskip (Option.some.inj h)
  · rename_i i hp
    have hm : c.mode = .l2 := by
      by_cases hm : c.mode = .l2
      · exact hm
      · rw [if_neg hm] at hp
        exact absurd hp (no_option _ _ _ _ _)
    rw [if_pos hm] at hp h
    simp only [Option.bind_eq_bind, Option.bind_eq_some_iff] at h
    obtain ⟨ty, hty, h⟩ := h
    have hn : 0 < c.next := by have := hg.ids.a; omega
    have main : c.state = .rebooting ∨ c.state = .requesting ∨ c.state = .rebinding →
        (if ty = 5 then c.onAck pkt (re % 65536).toNat e
          else if ty = 6 then
            some ({ (({ c with retry := 0 } : Cl).removeTimeouts).add .restart with
              idTimeout := (({ c with retry := 0 } : Cl).removeTimeouts).next }, ([] : List Out))
          else some (c, [])) = some (c', o) → Trans c (.recv pkt re) e c' o ∧ Good c' := by
      clear h
      intro hs h
      split at h
      · rename_i h5
        subst h5
        obtain ⟨a, ha, rfl, h1, h2, h3, h4, h5, h6, h7, h8, -⟩ := ack_case hg h
        exact ⟨.acked hs hm (by omega) ho hp hty ha h1 h2 h3 h4 h5 h6 h7, h8⟩
      · split at h
        · rename_i h6
          subst h6
          rw [removeTimeouts_cover _ (show Cover ({ c with retry := 0 } : Cl) from hg.shape.cover)] at h
          cases h
          exact ⟨.refused hs hm (by omega) ho hp hty rfl rfl rfl rfl rfl rfl ⟨rfl, rfl⟩,
            ⟨.nak hs rfl hn (by show c.mode ≠ .l3; rw [hm]; simp),
              ⟨by show c.next < c.next + 1; omega, by show 0 < c.next + 1; omega, by show 0 < c.next + 1; omega,
                by show 0 < c.next + 1; omega⟩, hg.watch⟩⟩
        · exact hskip (Option.some.inj h)
    have nr : c.state ≠ .renewing := by
      intro hs
      have := hg.shape
      cases this <;> simp_all
    split at h
    · rename_i hs
      split at h
      · exact hskip (Option.some.inj h)
      · rename_i h2
        have h2 : ty = 2 := by simpa using h2
        subst h2
        rw [removeTimeouts_cover _ hg.shape.cover] at h
        simp only [Option.bind_eq_some_iff] at h
        obtain ⟨srv, hsrv, a, ha, h⟩ := h
        have hc := startRequest_case ({ c with live := [], idTimeout := 0, idT1 := 0, idT2 := 0, idLease := 0, retry := 0, serverIp := srv, requestedIp := a, state := .requesting } : Cl) e (by show 0 < 3; decide) rfl ⟨hn, hn, hn, hn⟩
          (by show c.mode ≠ .l3; rw [hm]; simp) hg.watch rfl
        rw [Option.some.inj h] at hc
        obtain ⟨hgood, h1, h2, h3', h4, h5, h6, h7, h8, h9⟩ := hc
        simp only at h9
        subst h9
        exact ⟨.offered hs hm (by omega) ho hp hty hsrv ha h1 h2 h3' h4 h5 h6 h7, hgood⟩
    · rename_i hs; exact main (Or.inl hs) h
    · rename_i hs; exact main (Or.inr (Or.inl hs)) h
    · rename_i hs; exact absurd hs nr
    · rename_i hs; exact main (Or.inr (Or.inr hs)) h
    · exact hskip (Option.some.inj h)
  · cases h

/-- **Every event of a run.** -/
theorem step_case {c c' : Cl} {op : Op} {e : Env} {o : List Out} (hg : Good c)
    (hst : ∀ a, op = .start a → IsIdle c) (h : c.step op e = some (c', o)) : Trans c op e c' o ∧ Good c' := by
  cases op with
  | start a =>
    have hd := hst a rfl
    have hl := hd.live
    have hm : c.mode ≠ .l3 := by rw [hd.mode]; simp
    have := start_case c a e hl hg.ids hm hg.watch (fun h => absurd hd.retry h)
    simp only [Cl.step, Option.some.injEq] at h
    rw [h] at this
    exact ⟨.begun this, this.good hl hg.ids hm hg.watch (fun h => absurd hd.retry h)⟩
  | stop =>
    simp only [Cl.step, Option.some.injEq] at h
    have hn : 0 < c.next := by have := hg.ids.a; omega
    have h1 : c.stop.1 = c' := by rw [h]
    have h2 : c.stop.2 = o := by rw [h]
    subst h1 h2
    refine ⟨.stopped, ?_⟩
    unfold Cl.stop
    dsimp only
    rw [switch_none c hg.watch, removeTimeouts_cover _ (show Cover ({ c with mode := .none, watch := false } : Cl) from hg.shape.cover)]
    exact ⟨.idle (Or.inr rfl) rfl rfl rfl rfl, ⟨hn, hn, hn, hn⟩, by simp⟩
  | recv pkt re =>
    simp only [Cl.step] at h
    split at h
    · rename_i hw; exact recv_case hg hw h
    · cases h
  | hup =>
    simp only [Cl.step] at h
    split at h
    · cases h
      refine ⟨.skip false (Or.inl rfl) (by simp), ?_⟩
      obtain ⟨hsh, hi, hw⟩ := hg
      refine ⟨?_, ⟨hi.a, hi.b, hi.d, hi.e⟩, by simp⟩
      cases hsh with
      | idle hs hl hm hw hr => exact .idle hs hl hm rfl hr
      | quit hs hl hm => exact .quit hs hl hm
      | disc hs hl h0 hm => exact .disc hs hl h0 hm
      | reboot hs hl h0 hm => exact .reboot hs hl h0 hm
      | req hs hl h0 hm hr => exact .req hs hl h0 hm hr
      | nak hs hl h0 hm => exact .nak hs hl h0 hm
      | bound hs hl h1 h2 h3 hm hw => exact .bound hs hl h1 h2 h3 hm rfl
      | renew hs hl h1 h2 h3 h4 h5 hm => exact .renew hs hl h1 h2 h3 h4 h5 hm
      | rebind hs hl h2 h3 h4 hm => exact .rebind hs hl h2 h3 h4 hm
    · cases h
  | fire id => exact fire_case hg h

end Verif.Client
