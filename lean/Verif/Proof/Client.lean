import Verif.Spec.Client
import Verif.Proof.Options
/-!
# The transitions of the DHCP client
-/
namespace Verif.Client
open Verif.C Verif.Options

/-- The stored ids were all given out. -/
structure Ids (c : Cl) : Prop where
  a : c.idTimeout < c.next
  b : c.idT1 < c.next
  d : c.idT2 < c.next
  e : c.idLease < c.next

/-- What holds in every state: which timers exist and which mode the socket is in. -/
inductive Shape (c : Cl) : Prop
  | idle (hs : c.state = .initSelecting ∨ c.state = .released) (hl : c.live = []) (hm : c.mode = .none)
      (hw : c.watch = false) (hr : c.retry = 0)
  | quit (hs : c.state = .initSelecting ∨ c.state = .requesting) (hl : c.live = []) (hm : c.mode ≠ .l3)
  | disc (hs : c.state = .initSelecting) (hl : c.live = [(c.idTimeout, .discover)]) (h0 : 0 < c.idTimeout) (hm : c.mode ≠ .l3)
  | reboot (hs : c.state = .rebooting) (hl : c.live = [(c.idTimeout, .reboot)]) (h0 : 0 < c.idTimeout) (hm : c.mode ≠ .l3)
  | req (hs : c.state = .requesting) (hl : c.live = [(c.idTimeout, .request)]) (h0 : 0 < c.idTimeout) (hm : c.mode ≠ .l3)
      (hr : c.retry ≤ 2)
  | nak (hs : c.state = .rebooting ∨ c.state = .requesting ∨ c.state = .rebinding)
      (hl : c.live = [(c.idTimeout, .restart)]) (h0 : 0 < c.idTimeout) (hm : c.mode ≠ .l3)
  | bound (hs : c.state = .bound) (hl : c.live = [(c.idLease, .expire), (c.idT2, .rebind), (c.idT1, .renew)])
      (h1 : 0 < c.idT1) (h2 : c.idT1 < c.idT2) (h3 : c.idT2 < c.idLease) (hm : c.mode = .none) (hw : c.watch = false)
  | renew (hs : c.state = .renewing) (hl : c.live = [(c.idLease, .expire), (c.idT2, .rebind)] ∨
        c.live = [(c.idT1, .renewMore), (c.idLease, .expire), (c.idT2, .rebind)])
      (h1 : 0 < c.idT1) (h2 : 0 < c.idT2) (h3 : c.idT2 < c.idLease) (h4 : c.idT1 ≠ c.idT2) (h5 : c.idT1 ≠ c.idLease)
      (hm : c.mode ≠ .l2)
  | rebind (hs : c.state = .rebinding) (hl : c.live = [(c.idLease, .expire)] ∨
        c.live = [(c.idT2, .rebindMore), (c.idLease, .expire)])
      (h2 : 0 < c.idT2) (h3 : 0 < c.idLease) (h4 : c.idT2 ≠ c.idLease) (hm : c.mode ≠ .l3)

/-- The invariant. -/
structure Good (c : Cl) : Prop where
  shape : Shape c
  ids : Ids c
  watch : c.watch = true → c.mode ≠ .none

/-- The members a step keeps in general. -/
def Same (c c' : Cl) : Prop := c'.mac = c.mac ∧ c'.codes = c.codes

theorem removeTimeouts_live (c : Cl) (h : Shape c) : c.removeTimeouts.live = [] := by
  have hd : ∀ (c : Cl) (i : Nat), (c.drop i).live = if i > 0 then c.live.filter (·.1 ≠ i) else c.live := by
    intro c i; unfold Cl.drop; split <;> rfl
  have hf : ∀ (c : Cl) (i : Nat), (c.drop i).idTimeout = c.idTimeout ∧ (c.drop i).idT1 = c.idT1 ∧ (c.drop i).idT2 = c.idT2 ∧
      (c.drop i).idLease = c.idLease := by
    intro c i; unfold Cl.drop; split <;> exact ⟨rfl, rfl, rfl, rfl⟩
  have e : c.removeTimeouts.live = ((((c.drop c.idTimeout).drop c.idT1).drop c.idT2).drop c.idLease).live := rfl
  rw [e]
  simp only [hd]
  cases h with
  | idle hs hl hm hw hr => simp [hl]
  | quit hs hl hm => simp [hl]
  | disc hs hl h0 hm => simp [hl, h0]
  | reboot hs hl h0 hm => simp [hl, h0]
  | req hs hl h0 hm hr => simp [hl, h0]
  | nak hs hl h0 hm => simp [hl, h0]
  | bound hs hl h1 h2 h3 hm hw =>
    have : 0 < c.idT2 := by omega
    have : 0 < c.idLease := by omega
    rw [hl]
    by_cases h : c.idTimeout > 0 <;> simp [*, List.filter_cons] <;> grind
  | renew hs hl h1 h2 h3 h4 h5 hm =>
    have : 0 < c.idLease := by omega
    rcases hl with hl | hl <;> rw [hl] <;> by_cases h : c.idTimeout > 0 <;> simp [*, List.filter_cons] <;> grind
  | rebind hs hl h2 h3 h4 hm =>
    rcases hl with hl | hl <;> rw [hl] <;> by_cases h : c.idTimeout > 0 <;> by_cases h' : c.idT1 > 0 <;>
      simp [*, List.filter_cons] <;> grind

/-- `remove_timeouts` in any state of a run. -/
theorem removeTimeouts_eq (c : Cl) (h : Shape c) :
    c.removeTimeouts = { c with live := [], idTimeout := 0, idT1 := 0, idT2 := 0, idLease := 0 } := by
  have hl := removeTimeouts_live c h
  have hd : ∀ (c : Cl) (i : Nat), c.drop i = { c with live := (c.drop i).live } := by
    intro c i; unfold Cl.drop; split <;> rfl
  have e : c.removeTimeouts = { c with live := c.removeTimeouts.live, idTimeout := 0, idT1 := 0, idT2 := 0, idLease := 0 } := by
    unfold Cl.removeTimeouts
    rw [hd (((c.drop c.idTimeout).drop c.idT1).drop c.idT2), hd ((c.drop c.idTimeout).drop c.idT1), hd (c.drop c.idTimeout),
      hd c]
  rw [e, hl]

theorem switch_eq (c : Cl) (m : Mode) (ok : Bool) :
    (c.switch m ok).1 = { c with mode := (c.switch m ok).1.mode, watch := (c.switch m ok).1.watch } := by
  unfold Cl.switch
  split
  · rfl
  · split <;> rfl

theorem switch_mode (c : Cl) (m : Mode) (ok : Bool) (h : c.watch = true → c.mode ≠ .none) :
    ((c.switch m ok).1.mode = m ∨ (c.switch m ok).1.mode = .none) ∧
    ((c.switch m ok).1.watch = true → (c.switch m ok).1.mode ≠ .none) ∧
    ((c.switch m ok).2 = false → ok = false ∧ (c.switch m ok).1.mode = .none ∧ (c.switch m ok).1.watch = false) ∧
    (ok = true → (c.switch m ok).1.mode = m) := by
  unfold Cl.switch
  split
  · rename_i hm; subst hm; exact ⟨Or.inl rfl, h, by simp, by simp⟩
  · split
    · rename_i ho
      refine ⟨Or.inr rfl, by simp, ?_, ?_⟩
      · intro hm
        have : m ≠ .none := by simpa using hm
        exact ⟨ho.resolve_left this, rfl, rfl⟩
      · intro hok; rw [hok] at ho; simp at ho; exact ho.symm
    · rename_i ho
      refine ⟨Or.inl rfl, ?_, by simp, by simp⟩
      intro _ hm
      exact ho (Or.inl hm)

/-- How `g_dhcp_client_start` ends, called without timers. -/
inductive Started (e : Env) (a : Option Nat) (c : Cl) : Cl → List Out → Prop
  | quit (hr : c.retry = 6) : Started e a c { c with retry := 0 } [.noLease]
  | fail {c' : Cl} (ho : e.open2 = false) (hs : c'.state = .initSelecting) (hl : c'.live = []) (hm : c'.mode = .none)
      (hw : c'.watch = false) (hi : Ids c') (hr : c'.retry = 0) (hk : c'.ackRetry = c.ackRetry) (hsm : Same c c') : Started e a c c' []
  | reboot {c' : Cl} (hs : c'.state = .rebooting) (hl : c'.live = [(c'.idTimeout, .reboot)]) (h0 : 0 < c'.idTimeout)
      (hm : c'.mode ≠ .l3) (hw : c'.watch = true → c'.mode ≠ .none) (hi : Ids c') (hk : c'.ackRetry = c.ackRetry)
      (hsm : Same c c') (ha : a = some c'.requestedIp) :
      Started e a c c' [.request c'.xid (some c'.requestedIp) none 0 none]
  | disc {c' : Cl} (hs : c'.state = .initSelecting) (hl : c'.live = [(c'.idTimeout, .discover)]) (h0 : 0 < c'.idTimeout)
      (hm : c'.mode ≠ .l3) (hw : c'.watch = true → c'.mode ≠ .none) (hi : Ids c') (hr : c'.retry = c.retry) (hr6 : c.retry ≠ 6)
      (hk : c'.ackRetry = c.ackRetry) (hsm : Same c c') :
      Started e a c c' [.discover c'.xid 0]

theorem start_case (c : Cl) (a : Option Nat) (e : Env) (hl : c.live = []) (hi : Ids c) (hm : c.mode ≠ .l3)
    (hw : c.watch = true → c.mode ≠ .none) (hs : c.retry ≠ 0 → c.state = .initSelecting) :
    Started e a c (c.start a e).1 (c.start a e).2 := by
  by_cases h6 : c.retry = 6
  · have : c.start a e = ({ c with retry := 0 }, [.noLease]) := by unfold Cl.start; rw [if_pos h6]
    rw [this]; exact .quit h6
  -- the rest of the function, for a client prepared
  have key : ∀ d : Cl, d.live = [] → Ids d → d.mode ≠ .l3 → (d.watch = true → d.mode ≠ .none) → d.state = .initSelecting →
      d.retry = c.retry → d.ackRetry = c.ackRetry → Same c d →
      ∀ r : Cl × List Out, r = (let a' := match a with
          | none => 0
          | some a => if a = 0xffffffff then 0 else a
        let c := match a with
          | none => d
          | some a => if a = 0xffffffff then d else { d with last := some a }
        if a' ≠ 0 then
          let c := { c with requestedIp := a', state := .rebooting }
          ({ c.add .reboot with idTimeout := c.next }, [c.sendRequest])
        else
          ({ c.add .discover with idTimeout := c.next }, [.discover c.xid a'])) → Started e a c r.1 r.2 := by
    intro d hdl hdi hdm hdw hds hdr hdk hdsm r hr
    have fin : ∀ (x : Nat) (l : Option Nat) (r : Cl × List Out), (x ≠ 0 → a = some x) →
        r = (if x ≠ 0 then
          ({ ({ { d with last := l } with requestedIp := x, state := .rebooting } : Cl).add .reboot with idTimeout := d.next },
            [({ { d with last := l } with requestedIp := x, state := .rebooting } : Cl).sendRequest])
        else
          ({ ({ d with last := l } : Cl).add .discover with idTimeout := d.next }, [.discover d.xid x])) → Started e a c r.1 r.2 := by
      intro x l r hax hr
      have hn : 0 < d.next := by have := hdi.a; omega
      split at hr
      · rename_i hx
        subst hr
        exact .reboot rfl (by simp [Cl.add, hdl]) hn hdm hdw
          ⟨by show d.next < d.next + 1; omega, by have := hdi.b; show d.idT1 < d.next + 1; omega,
           by have := hdi.d; show d.idT2 < d.next + 1; omega, by have := hdi.e; show d.idLease < d.next + 1; omega⟩ hdk hdsm (hax hx)
      · rename_i hx
        have hx : x = 0 := Classical.not_not.1 hx
        subst hr
        subst hx
        exact .disc hds (by simp [Cl.add, hdl]) hn hdm hdw
          ⟨by show d.next < d.next + 1; omega, by have := hdi.b; show d.idT1 < d.next + 1; omega,
           by have := hdi.d; show d.idT2 < d.next + 1; omega, by have := hdi.e; show d.idLease < d.next + 1; omega⟩
          hdr h6 hdk hdsm
    cases a with
    | none => exact fin 0 d.last r (fun h => absurd rfl h) hr
    | some a =>
      by_cases ha : a = 0xffffffff
      · simp only [ha, if_true] at hr
        exact fin 0 d.last r (fun h => absurd rfl h) hr
      · simp only [ha, if_false] at hr
        exact fin a (some a) r (fun _ => rfl) hr
  by_cases h0 : c.retry = 0
  · have hsw := switch_mode ({ c with assigned := none, state := .initSelecting } : Cl) .l2 e.open2 hw
    have hse := switch_eq ({ c with assigned := none, state := .initSelecting } : Cl) .l2 e.open2
    cases hok : (({ c with assigned := none, state := .initSelecting } : Cl).switch .l2 e.open2).2 with
    | false =>
      have : c.start a e = ((({ c with assigned := none, state := .initSelecting } : Cl).switch .l2 e.open2).1, []) := by
        unfold Cl.start
        rw [if_neg h6]
        simp only [if_pos h0, hok, if_true]
        simp
      rw [this]
      obtain ⟨ho, hmode, hwatch⟩ := hsw.2.2.1 hok
      refine .fail ho ?_ ?_ hmode hwatch ?_ ?_ ?_ ?_
      · dsimp only; rw [hse]
      · dsimp only; rw [hse]; exact hl
      · dsimp only; rw [hse]; exact ⟨hi.a, hi.b, hi.d, hi.e⟩
      · dsimp only; rw [hse]; exact h0
      · dsimp only; rw [hse]
      · dsimp only; rw [hse]; exact ⟨rfl, rfl⟩
    | true =>
      refine key { (({ c with assigned := none, state := .initSelecting } : Cl).switch .l2 e.open2).1 with xid := e.xid }
        ?_ ?_ ?_ ?_ ?_ ?_ ?_ ?_ _ ?_
      · dsimp only; rw [hse]; exact hl
      · dsimp only; rw [hse]; exact ⟨hi.a, hi.b, hi.d, hi.e⟩
      · rcases hsw.1 with h | h <;> · show (({ c with assigned := none, state := .initSelecting } : Cl).switch .l2 e.open2).1.mode ≠ _
                                      rw [h]; simp
      · exact hsw.2.1
      · dsimp only; rw [hse]
      · dsimp only; rw [hse]
      · dsimp only; rw [hse]
      · dsimp only; rw [hse]; exact ⟨rfl, rfl⟩
      · unfold Cl.start
        rw [if_neg h6]
        simp only [if_pos h0, hok, if_true]
        rfl
  · refine key c hl hi hm hw (hs h0) rfl rfl ⟨rfl, rfl⟩ _ ?_
    unfold Cl.start
    rw [if_neg h6]
    simp only [if_neg h0]
    rfl

end Verif.Client
