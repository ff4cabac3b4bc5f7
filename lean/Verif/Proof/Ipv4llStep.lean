import Verif.Proof.Ipv4ll
/-!
# The link-local client: shapes of states and transitions between them
-/
namespace Verif.Ipv4ll
open Verif.C

/-- The states a client can be in. -/
inductive Shape (c : Ll) : Prop
  | idle (hs : c.state = .initSelecting ∨ c.state = .released ∨ c.state = .probe) (ht : c.timer = none) (hr : c.retry = 0) (hi : c.ip = 0) (ha : c.arp = false) (hw : c.watch = false)
  | wait (hs : c.state = .initSelecting ∨ c.state = .probe) (due : Nat) (ht : c.timer = some (.sendProbe, due)) (hr : c.retry = 1) (ha : c.arp = false) (hw : c.watch = false)
  | probing (hs : c.state = .probe) (due : Nat) (ht : c.timer = some (.probe, due)) (h1 : 1 ≤ c.retry) (h3 : c.retry ≤ 3) (hi : 0 < c.ip)
  | announcing (hs : c.state = .announce) (due : Nat) (ht : c.timer = some (.announce, due)) (h1 : 1 ≤ c.retry) (h2 : c.retry ≤ 2) (hi : 0 < c.ip)
  | monitor (hs : c.state = .monitor) (ht : c.timer = none) (hr : c.retry = 2) (hi : 0 < c.ip)
  | defend (hs : c.state = .defend) (due : Nat) (ht : c.timer = some (.defend, due)) (hr : c.retry = 2) (hi : 0 < c.ip)

/-- The invariant. -/
structure Good (c : Ll) : Prop where
  shape : Shape c
  ip : c.ip < 2 ^ 32
  watch : c.arp = false → c.watch = false

/-- The client after a conflict that ends its attempt. -/
def retired (c : Ll) (now : Nat) (e : Env) : Ll :=
  let d := { c with conflicts := (c.conflicts + 1) % 256, state := .probe, retry := 0, ip := 0, assigned := none, timer := none, arp := false, watch := false }
  if d.conflicts < 10 then { d with retry := 1, timer := some (.sendProbe, now + delay e) } else d

/-- What it then says. -/
def retiredOut (c : Ll) : List Out := if (c.conflicts + 1) % 256 < 10 then [] else [.noLease]

/-- Steps of a client. -/
inductive Trans (c : Ll) (now : Nat) (e : Env) : Op → Ll → List Out → Prop
  | started : Trans c now e .start { c with state := .initSelecting, ip := e.ip, retry := 1, timer := some (.sendProbe, now + delay e), arp := false, watch := false } []
  | stopped : Trans c now e .stop { c with state := .released, ip := 0, retry := 0, timer := none, arp := false, watch := false } []
  | first (due : Nat) (ht : c.timer = some (.sendProbe, due)) (hd : due ≤ now) (ha : c.arp = false) (hr : c.retry = 1) (x : Nat) (hx : x = if c.ip = 0 then e.ip else c.ip) :
      Trans c now e .fire { c with ip := x, state := .probe, timer := some (.probe, now + (delay e + 1000)), arp := e.opens, watch := e.opens } [.arp (arpPacket c.host c.mac 0 x)]
  | again (due : Nat) (hs : c.state = .probe) (ht : c.timer = some (.probe, due)) (hd : due ≤ now) (h1 : 1 ≤ c.retry) (h2 : c.retry < 3) (hi : 0 < c.ip) :
      Trans c now e .fire { c with retry := c.retry + 1, timer := some (.probe, now + if c.retry + 1 < 3 then delay e + 1000 else 2000) } [.arp (arpPacket c.host c.mac 0 c.ip)]
  | announce (due : Nat) (hs : c.state = .probe) (ht : c.timer = some (.probe, due)) (hd : due ≤ now) (hr : c.retry = 3) (hi : 0 < c.ip) :
      Trans c now e .fire { c with state := .announce, retry := 1, timer := some (.announce, seconds now 2) } [.arp (arpPacket c.host c.mac c.ip c.ip)]
  | twice (due : Nat) (hs : c.state = .announce) (ht : c.timer = some (.announce, due)) (hd : due ≤ now) (hr : c.retry = 1) (hi : 0 < c.ip) :
      Trans c now e .fire { c with retry := 2, timer := some (.announce, seconds now 2) } [.arp (arpPacket c.host c.mac c.ip c.ip)]
  | got (due : Nat) (hs : c.state = .announce) (ht : c.timer = some (.announce, due)) (hd : due ≤ now) (hr : c.retry = 2) (hi : 0 < c.ip) :
      Trans c now e .fire { c with state := .monitor, assigned := some c.ip, conflicts := 0, timer := none } [.available (some c.ip)]
  | calm (due : Nat) (hs : c.state = .defend) (ht : c.timer = some (.defend, due)) (hd : due ≤ now) :
      Trans c now e .fire { c with state := .monitor, conflicts := 0, timer := none } []
  | unheard (f : List Byte) (hw : c.watch = false) : Trans c now e (.recv f) c []
  | ignored (f : List Byte) (hw : c.watch = true) (h1 : ¬ Spec.Claims c.ip f) (h2 : ¬ Spec.Asks c.ip f) : Trans c now e (.recv f) c []
  | asked (f : List Byte) (hw : c.watch = true) (hs : c.state = .monitor ∨ c.state = .defend) (h1 : ¬ Spec.Claims c.ip f) (h2 : Spec.Asks c.ip f) :
      Trans c now e (.recv f) { c with conflicts := (c.conflicts + 1) % 256 } []
  | defended (f : List Byte) (hw : c.watch = true) (hs : c.state = .monitor) (h1 : Spec.Claims c.ip f) :
      Trans c now e (.recv f) { c with conflicts := (c.conflicts + 1) % 256, state := .defend, timer := some (.defend, seconds now 10) } [.arp (arpPacket c.host c.mac c.ip c.ip)]
  | lost (f : List Byte) (hw : c.watch = true) (hs : c.state = .defend) (h1 : Spec.Claims c.ip f) : Trans c now e (.recv f) (retired c now e) (.lost :: retiredOut c)
  | conflict (f : List Byte) (hw : c.watch = true) (hs : c.state = .probe ∨ c.state = .announce) (h1 : Spec.Claims c.ip f ∨ Spec.Asks c.ip f) (hi : 0 < c.ip) :
      Trans c now e (.recv f) (retired c now e) (retiredOut c)
  | hup : Trans c now e .hup { c with watch := false } []

theorem deaf_eq {c : Ll} (h : c.arp = false → c.watch = false) : c.deaf = { c with arp := false, watch := false } := by
  unfold Ll.deaf
  split
  · rfl
  · rename_i ha
    have ha : c.arp = false := by simpa using ha
    obtain ⟨host, mac, state, retry, ip, conflicts, timer, arp, watch, assigned⟩ := c
    simp_all

theorem giveUp_eq {c : Ll} (h : c.arp = false → c.watch = false) (now : Nat) (e : Env) :
    ({ c with conflicts := (c.conflicts + 1) % 256 } : Ll).giveUp now e = (retired c now e, retiredOut c) := by
  unfold Ll.giveUp Ll.reset retired retiredOut
  rw [deaf_eq (c := { c with conflicts := (c.conflicts + 1) % 256 }) h]
  simp only [Ll.unwatch]
  by_cases hc : (c.conflicts + 1) % 256 < 10
  · simp [hc]
  · simp [hc]

theorem step_trans {c c' : Ll} {now : Nat} {e : Env} {op : Op} {o : List Out} (g : Good c) (h : c.step now e op = some (c', o)) :
    Trans c now e op c' o := by
  cases op with
  | start =>
    simp only [Ll.step, Option.some.injEq, Ll.start] at h
    rw [deaf_eq (c := { c with state := .initSelecting, timer := none }) g.watch] at h
    cases h
    exact .started
  | stop =>
    simp only [Ll.step, Option.some.injEq, Ll.stop] at h
    rw [deaf_eq g.watch] at h
    cases h
    exact .stopped
  | hup => cases h; exact .hup
  | recv f =>
    simp only [Ll.step, Option.some.injEq] at h
    by_cases hw : c.watch = true
    · have ha : c.arp = true := by
        cases ha : c.arp with
        | true => rfl
        | false => rw [g.watch ha] at hw; cases hw
      rw [hw, ha] at h
      simp only [Bool.and_self, if_true] at h
      rw [recv_eq _ _ _ _ g.ip] at h
      by_cases h1 : Spec.Claims c.ip f <;> by_cases h2 : Spec.Asks c.ip f <;> simp only [h1, h2, not_true_eq_false, not_false_eq_true, and_self, and_false, and_true, if_true, if_false] at h
      all_goals first
        | (cases h; exact .ignored f hw h1 h2)
        | skip
      all_goals
        rw [giveUp_eq g.watch] at h
        cases g.shape with
        | idle _ _ _ _ _ hw' => rw [hw'] at hw; cases hw
        | wait _ _ _ _ _ hw' => rw [hw'] at hw; cases hw
        | probing hs due ht a1 a3 hi => rw [hs] at h; cases h; exact .conflict f hw (Or.inl hs) (by simp [h1, h2]) hi
        | announcing hs due ht a1 a3 hi => rw [hs] at h; cases h; exact .conflict f hw (Or.inr hs) (by simp [h1, h2]) hi
        | monitor hs ht hr hi =>
          simp only [hs, if_true] at h
          first
            | (cases h; exact .defended f hw hs h1)
            | (have k := Trans.asked (c := c) (now := now) (e := e) f hw (Or.inl hs) h1 h2
               simp only [hs] at k
               cases h; exact k)
        | defend hs due ht hr hi =>
          simp only [hs, if_true, if_false, reduceCtorEq] at h
          first
            | (cases h; exact .lost f hw hs h1)
            | (have k := Trans.asked (c := c) (now := now) (e := e) f hw (Or.inr hs) h1 h2
               simp only [hs] at k
               cases h; exact k)
    · have hw : c.watch = false := by simpa using hw
      rw [hw] at h
      simp only [Bool.false_and] at h
      cases h
      exact .unheard f hw
  | fire =>
    simp only [Ll.step] at h
    cases g.shape with
    | idle _ ht => rw [ht] at h; cases h
    | monitor _ ht => rw [ht] at h; cases h
    | wait hs due ht hr ha hw =>
      rw [ht] at h
      dsimp only at h
      split at h
      · rename_i hd
        have key : c.fired now e .sendProbe = ({ c with ip := if c.ip = 0 then e.ip else c.ip, state := .probe, timer := some (.probe, now + (delay e + 1000)), arp := e.opens, watch := e.opens },
            [.arp (arpPacket c.host c.mac 0 (if c.ip = 0 then e.ip else c.ip))]) := by
          obtain ⟨host, mac, state, retry, ip, conflicts, timer, arp, watch, assigned⟩ := c
          dsimp only at hr ha hw
          subst hr ha hw
          unfold Ll.fired Ll.sendProbe Ll.listen
          by_cases h0 : ip = 0 <;> cases ho : e.opens <;> simp [h0]
        rw [key] at h
        cases h
        exact .first due ht hd ha hr _ rfl
      · cases h
    | probing hs due ht h1 h3 hi =>
      rw [ht] at h
      dsimp only at h
      split at h
      · rename_i hd
        by_cases h2 : c.retry = 3
        · have key : c.fired now e .probe = ({ c with state := .announce, retry := 1, timer := some (.announce, seconds now 2) }, [.arp (arpPacket c.host c.mac c.ip c.ip)]) := by
            unfold Ll.fired Ll.probeTimeout
            rw [if_pos h2]
            simp [Ll.sendAnnounce]
          rw [key] at h
          cases h
          exact .announce due hs ht hd h2 hi
        · have hm : (c.retry + 1) % 256 = c.retry + 1 := by omega
          have key : c.fired now e .probe = ({ c with retry := c.retry + 1, timer := some (.probe, now + if c.retry + 1 < 3 then delay e + 1000 else 2000) },
              [.arp (arpPacket c.host c.mac 0 c.ip)]) := by
            unfold Ll.fired Ll.probeTimeout
            rw [if_neg h2]
            unfold Ll.sendProbe
            have e1 : ¬ c.ip = 0 := by omega
            have e2 : ¬ c.retry = 0 := by omega
            simp [hm, e1, e2]
          rw [key] at h
          cases h
          exact .again due hs ht hd h1 (by omega) hi
      · cases h
    | announcing hs due ht h1 h2 hi =>
      rw [ht] at h
      dsimp only at h
      split at h
      · rename_i hd
        by_cases h3 : c.retry = 2
        · have key : c.fired now e .announce = ({ c with state := .monitor, assigned := some c.ip, conflicts := 0, timer := none }, [.available (some c.ip)]) := by
            unfold Ll.fired Ll.announceTimeout
            rw [if_neg (by simp [h3])]
          rw [key] at h
          cases h
          exact .got due hs ht hd h3 hi
        · have hr : c.retry = 1 := by omega
          have key : c.fired now e .announce = ({ c with retry := 2, timer := some (.announce, seconds now 2) }, [.arp (arpPacket c.host c.mac c.ip c.ip)]) := by
            unfold Ll.fired Ll.announceTimeout
            rw [if_pos (by simpa using h3)]
            simp [Ll.sendAnnounce, hr, hs]
          rw [key] at h
          cases h
          exact .twice due hs ht hd hr hi
      · cases h
    | defend hs due ht hr hi =>
      rw [ht] at h
      dsimp only at h
      split at h
      · rename_i hd
        cases h
        exact .calm due hs ht hd
      · cases h

theorem retired_shape (c : Ll) (now : Nat) (e : Env) : Shape (retired c now e) := by
  unfold retired
  dsimp only
  split
  · exact .wait (Or.inr rfl) _ rfl rfl rfl rfl
  · exact .idle (Or.inr (Or.inr rfl)) rfl rfl rfl rfl rfl

theorem retired_ip (c : Ll) (now : Nat) (e : Env) : (retired c now e).ip = 0 ∧ (retired c now e).watch = false ∧ (retired c now e).arp = false ∧ (retired c now e).state = .probe ∧
    (retired c now e).host = c.host ∧ (retired c now e).mac = c.mac ∧ (retired c now e).assigned = none ∧ (retired c now e).conflicts = (c.conflicts + 1) % 256 := by
  unfold retired
  dsimp only
  split <;> exact ⟨rfl, rfl, rfl, rfl, rfl, rfl, rfl, rfl⟩

theorem trans_good {c c' : Ll} {now : Nat} {e : Env} {op : Op} {o : List Out} (g : Good c) (he : Spec.Drawn e) (h : Trans c now e op c' o) : Good c' := by
  cases h with
  | started => exact ⟨.wait (Or.inl rfl) _ rfl rfl rfl rfl, he.2, fun _ => rfl⟩
  | stopped => exact ⟨.idle (Or.inr (Or.inl rfl)) rfl rfl rfl rfl rfl, (by decide : 0 < 2 ^ 32), fun _ => rfl⟩
  | first due ht hd ha hr x hx =>
    have hx0 : 0 < x ∧ x < 2 ^ 32 := by
      rw [hx]
      have := g.ip
      have := he.1
      have := he.2
      split <;> omega
    exact ⟨.probing rfl _ rfl (by dsimp only; omega) (by dsimp only; omega) hx0.1, hx0.2, id⟩
  | again due hs ht hd h1 h2 hi => exact ⟨.probing hs _ rfl (by dsimp only; omega) (by dsimp only; omega) hi, g.ip, g.watch⟩
  | announce due hs ht hd hr hi => exact ⟨.announcing rfl _ rfl (Nat.le_refl 1) (by decide : 1 ≤ 2) hi, g.ip, g.watch⟩
  | twice due hs ht hd hr hi => exact ⟨.announcing hs _ rfl (by decide : 1 ≤ 2) (Nat.le_refl 2) hi, g.ip, g.watch⟩
  | got due hs ht hd hr hi => exact ⟨.monitor rfl rfl hr hi, g.ip, g.watch⟩
  | calm due hs ht hd =>
    refine ⟨.monitor rfl rfl ?_ ?_, g.ip, g.watch⟩ <;> cases g.shape <;> simp_all
  | unheard => exact g
  | ignored => exact g
  | asked f hw hs =>
    refine ⟨?_, g.ip, g.watch⟩
    cases g.shape with
    | monitor hs ht hr hi => exact .monitor hs ht hr hi
    | defend hs due ht hr hi => exact .defend hs due ht hr hi
    | idle h => rcases hs with hs | hs <;> rw [hs] at h <;> simp at h
    | wait h => rcases hs with hs | hs <;> rw [hs] at h <;> simp at h
    | probing h => rcases hs with hs | hs <;> rw [hs] at h <;> simp at h
    | announcing h => rcases hs with hs | hs <;> rw [hs] at h <;> simp at h
  | defended f hw hs h1 =>
    refine ⟨.defend rfl _ rfl ?_ ?_, g.ip, g.watch⟩ <;> cases g.shape <;> simp_all
  | lost f hw hs h1 =>
    obtain ⟨r1, r2, r3, -⟩ := retired_ip c now e
    exact ⟨retired_shape c now e, by rw [r1]; decide, fun _ => r2⟩
  | conflict f hw hs h1 =>
    obtain ⟨r1, r2, r3, -⟩ := retired_ip c now e
    exact ⟨retired_shape c now e, by rw [r1]; decide, fun _ => r2⟩
  | hup =>
    refine ⟨?_, g.ip, fun _ => rfl⟩
    cases g.shape with
    | idle hs ht hr hi ha hw => exact .idle hs ht hr hi ha rfl
    | wait hs due ht hr ha hw => exact .wait hs due ht hr ha rfl
    | probing hs due ht h1 h3 hi => exact .probing hs due ht h1 h3 hi
    | announcing hs due ht h1 h3 hi => exact .announcing hs due ht h1 h3 hi
    | monitor hs ht hr hi => exact .monitor hs ht hr hi
    | defend hs due ht hr hi => exact .defend hs due ht hr hi

theorem good_new (h : Wire.Host) (mac : List Byte) : Good (new h mac) :=
  ⟨.idle (Or.inl rfl) rfl rfl rfl rfl rfl, (by decide : 0 < 2 ^ 32), fun _ => rfl⟩

theorem trans_same {c c' : Ll} {now : Nat} {e : Env} {op : Op} {o : List Out} (h : Trans c now e op c' o) : c'.host = c.host ∧ c'.mac = c.mac := by
  cases h with
  | lost f hw hs h1 => obtain ⟨-, -, -, -, r5, r6, -⟩ := retired_ip c now e; exact ⟨r5, r6⟩
  | conflict f hw hs h1 => obtain ⟨-, -, -, -, r5, r6, -⟩ := retired_ip c now e; exact ⟨r5, r6⟩
  | _ => exact ⟨rfl, rfl⟩

end Verif.Ipv4ll
