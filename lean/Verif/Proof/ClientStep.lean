import Verif.Proof.Client
/-!
# Every event of a DHCP client, described
-/
namespace Verif.Client
open Verif.C Verif.Options

/-- Not running. -/
structure IsIdle (c : Cl) : Prop where
  state : c.state = .initSelecting ∨ c.state = .released
  live : c.live = []
  mode : c.mode = .none
  watch : c.watch = false
  retry : c.retry = 0

/-- A bound on the number of timers that can still fire, one after the other, if nothing else happens. -/
def rank (c : Cl) : Nat :=
  match (c.live.map Prod.snd : List Kind) with
  | [.discover] => if c.retry % 256 ≤ 5 then 6 - c.retry % 256 else 262 - c.retry % 256
  | [.request] => 3 - c.retry
  | [.reboot] => 7
  | [.restart] => 264
  | [.expire] => 8589934592
  | [.rebindMore, .expire] => 8589934592 + 1 + c.t2
  | [.expire, .rebind] => 2 * 8589934592
  | [.renewMore, .expire, .rebind] => 2 * 8589934592 + 1 + c.t1
  | [.expire, .rebind, .renew] => 3 * 8589934592
  | _ => 0

/-- How a timer leads to `g_dhcp_client_start`: `c1` is the client it is called on. -/
inductive Retried (c : Cl) (id : Nat) : Option Nat → Cl → Prop
  | discover (hs : c.state = .initSelecting) (hl : c.live = [(id, .discover)]) :
      Retried c id none { c with live := [], retry := (c.retry + 1) % 256 }
  | reboot (hs : c.state = .rebooting) (hl : c.live = [(id, .reboot)]) :
      Retried c id none { c with live := [], retry := 0, requestedIp := 0, state := .initSelecting }
  | restart {a : Option Nat} {c1 : Cl} (hs : c.state = .rebooting ∨ c.state = .requesting ∨ c.state = .rebinding)
      (hl : c.live = [(id, .restart)]) (hr : c1.retry = if c.state = .rebooting then 0 else (c.ackRetry + 1) % 256)
      (hk : c1.ackRetry = if c.state = .rebooting then c.ackRetry else (c.ackRetry + 1) % 256)
      (hst : c1.state = .initSelecting) (hlv : c1.live = []) (hm : c1.mode ≠ .l3) (hi : Ids c1)
      (hw : c1.watch = true → c1.mode ≠ .none) (hsm : Same c c1) (hna : c.state = .rebooting → a = none) :
      Retried c id a c1

/-- Every event of a run of a client. -/
inductive Trans (c : Cl) : Op → Env → Cl → List Out → Prop
  | skip {op : Op} {e : Env} (w : Bool) (hop : op = .hup ∨ ∃ p r, op = .recv p r) (hw : w = true → c.watch = true) :
      Trans c op e { c with watch := w } []
  | begun {a : Option Nat} {e : Env} {c' : Cl} {o : List Out} (h : Started e a c c' o) : Trans c (.start a) e c' o
  | stopped {e : Env} : Trans c .stop e c.stop.1 c.stop.2
  | retried {id : Nat} {e : Env} {a : Option Nat} {c1 c' : Cl} {o : List Out} (h1 : Retried c id a c1) (h : Started e a c1 c' o) :
      Trans c (.fire id) e c' o
  | expired {id : Nat} {e : Env} {a : Option Nat} {c1 c' : Cl} {o : List Out}
      (hs : c.state = .bound ∨ c.state = .renewing ∨ c.state = .rebinding) (hk : (id, .expire) ∈ c.live)
      (hr : c1.retry = 0) (hsm : Same c c1) (hlv : c1.live = []) (h : Started e a c1 c' o) : Trans c (.fire id) e c' (o ++ [.lost])
  | asked {id : Nat} {e : Env} {c' : Cl} (hs : c.state = .requesting) (hl : c.live = [(id, .request)]) (hr : c.retry < 2)
      (hs' : c'.state = .requesting) (hl' : c'.live = [(c'.idTimeout, .request)]) (hr' : c'.retry = c.retry + 1)
      (hx : c'.xid = c.xid) (hq : c'.requestedIp = c.requestedIp) (hv : c'.serverIp = c.serverIp) (hsm : Same c c')
      (hk : c'.ackRetry = c.ackRetry) :
      Trans c (.fire id) e c' [.request c.xid (some c.requestedIp) (some c.serverIp) 0 none]
  | unanswered {id : Nat} {e : Env} (hs : c.state = .requesting) (hl : c.live = [(id, .request)]) (hr : c.retry = 2) :
      Trans c (.fire id) e { c with live := [], retry := 3 } [.noLease]
  | renewed {id : Nat} {e : Env} {c' : Cl} (hs : c.state = .bound ∨ c.state = .renewing)
      (hk : (id, .renew) ∈ c.live ∨ (id, .renewMore) ∈ c.live) (hs' : c'.state = .renewing) (hx : c'.xid = c.xid)
      (hq : c'.requestedIp = c.requestedIp) (hv : c'.serverIp = c.serverIp) (hsm : Same c c')
      (hl' : (c'.idLease, .expire) ∈ c'.live) (hrk : rank c' < rank c) :
      Trans c (.fire id) e c' [.request c.xid none none c.requestedIp (some c.serverIp)]
  | rebound {id : Nat} {e : Env} {c' : Cl} (hs : c.state = .bound ∨ c.state = .renewing ∨ c.state = .rebinding)
      (hk : (id, .rebind) ∈ c.live ∨ (id, .rebindMore) ∈ c.live) (hs' : c'.state = .rebinding) (hx : c'.xid = c.xid)
      (hq : c'.requestedIp = c.requestedIp) (hv : c'.serverIp = c.serverIp) (hsm : Same c c')
      (hl' : (c'.idLease, .expire) ∈ c'.live) (hrk : rank c' < rank c) :
      Trans c (.fire id) e c' [.request c.xid none none c.requestedIp none]
  | offered {pkt : List Byte} {re : Int} {e : Env} {c' : Cl} {i a srv : Nat} (hs : c.state = .initSelecting)
      (hm : c.mode = .l2) (hre : 0 ≤ re) (ho : c.owner pkt = true)
      (hty : getOption pkt (re % 65536).toNat 0x35 2000 = .ptr i) (hi : pkt[i]? = some 2)
      (hsrv : ptrBe32 e.host pkt (getOption pkt (re % 65536).toNat 0x36 2000) = some srv)
      (ha : Wire.getBe e.host 4 pkt 16 = some a)
      (hs' : c'.state = .requesting) (hl' : c'.live = [(c'.idTimeout, .request)]) (hr' : c'.retry = 0)
      (hx : c'.xid = c.xid) (hq : c'.requestedIp = a) (hv : c'.serverIp = srv) (hsm : Same c c') :
      Trans c (.recv pkt re) e c' [.request c.xid (some a) (some srv) 0 none]
  | acked {pkt : List Byte} {re : Int} {e : Env} {c' : Cl} {i a : Nat}
      (hs : c.state = .rebooting ∨ c.state = .requesting ∨ c.state = .rebinding)
      (hm : c.mode = .l2) (hre : 0 ≤ re) (ho : c.owner pkt = true)
      (hty : getOption pkt (re % 65536).toNat 0x35 2000 = .ptr i) (hi : pkt[i]? = some 5)
      (ha : Wire.getBe e.host 4 pkt 16 = some a)
      (hlt : Timers.getLease e.host pkt (re % 65536).toNat 2000 = some c'.leaseSeconds)
      (hvals : OptValue.getRequest e.host e.junk pkt (re % 65536).toNat c.codes c.vals = some c'.vals)
      (hs' : c'.state = .bound) (has : c'.assigned = some a) (hx : c'.xid = c.xid) (hq : c'.requestedIp = c.requestedIp)
      (hsm : Same c c') :
      Trans c (.recv pkt re) e c' [.lease (some a)]
  | refused {pkt : List Byte} {re : Int} {e : Env} {c' : Cl} {i : Nat}
      (hs : c.state = .rebooting ∨ c.state = .requesting ∨ c.state = .rebinding)
      (hm : c.mode = .l2) (hre : 0 ≤ re) (ho : c.owner pkt = true)
      (hty : getOption pkt (re % 65536).toNat 0x35 2000 = .ptr i) (hi : pkt[i]? = some 6)
      (hs' : c'.state = c.state) (hl' : c'.live = [(c'.idTimeout, .restart)]) (hx : c'.xid = c.xid)
      (hk : c'.ackRetry = c.ackRetry) (hq : c'.requestedIp = c.requestedIp) (hv : c'.serverIp = c.serverIp)
      (hsm : Same c c') :
      Trans c (.recv pkt re) e c' []

theorem Started.good {e : Env} {a : Option Nat} {c c' : Cl} {o : List Out} (h : Started e a c c' o) (hl : c.live = []) (hi : Ids c)
    (hm : c.mode ≠ .l3) (hw : c.watch = true → c.mode ≠ .none) (hs : c.retry ≠ 0 → c.state = .initSelecting) : Good c' := by
  cases h with
  | quit hr => exact ⟨.quit (Or.inl (hs (by omega))) hl hm, ⟨hi.a, hi.b, hi.d, hi.e⟩, hw⟩
  | fail ho hs hl hm hw hi _ _ => exact ⟨.quit (Or.inl hs) hl (by rw [hm]; simp), hi, by rw [hw]; simp⟩
  | reboot hs hl h0 hm hw hi _ _ _ => exact ⟨.reboot hs hl h0 hm, hi, hw⟩
  | disc hs hl h0 hm hw hi _ _ _ _ => exact ⟨.disc hs hl h0 hm, hi, hw⟩

/-- With the packet length 0 of mode L3 no option is ever found. -/
theorem no_option (pkt : List Byte) (code fuel i : Nat) (s : St) : loop pkt 0 code fuel s ≠ .ptr i := by
  induction fuel generalizing s with
  | zero => simp [loop]
  | succ fuel ih =>
    unfold loop
    have : ∀ j, step pkt 0 code s ≠ .inl (.ptr j) := by
      intro j
      unfold step
      repeat' split
      all_goals first | simp | skip
      all_goals omega
    split
    · rename_i r hr
      intro h
      subst h
      exact this i hr
    · exact ih _

/-- `start_request` in a client without timers. -/
theorem startRequest_case (c : Cl) (e : Env) (h3 : c.retry < 3) (hl : c.live = []) (hi : Ids c) (hm : c.mode ≠ .l3)
    (hw : c.watch = true → c.mode ≠ .none) (hs : c.state = .requesting) :
    Good (c.startRequest e).1 ∧ (c.startRequest e).1.state = .requesting ∧
      (c.startRequest e).1.live = [((c.startRequest e).1.idTimeout, .request)] ∧ (c.startRequest e).1.retry = c.retry ∧
      (c.startRequest e).1.xid = c.xid ∧ (c.startRequest e).1.requestedIp = c.requestedIp ∧
      (c.startRequest e).1.serverIp = c.serverIp ∧ Same c (c.startRequest e).1 ∧ (c.startRequest e).1.ackRetry = c.ackRetry ∧
      (c.startRequest e).2 = [.request c.xid (some c.requestedIp) (some c.serverIp) 0 none] := by
  unfold Cl.startRequest
  rw [if_neg (by omega)]
  have hse := switch_eq ({ c with state := .requesting } : Cl) .l2 e.open1
  have hsw := switch_mode ({ c with state := .requesting } : Cl) .l2 e.open1 hw
  have hn : 0 < c.next := by have := hi.a; omega
  have key : ∀ (m : Mode) (w : Bool), m ≠ .l3 → (w = true → m ≠ .none) → ∀ d : Cl,
      d = { c with mode := m, watch := w } →
      Good { d.add .request with idTimeout := d.next } ∧ d.state = .requesting ∧
      (d.next, Kind.request) :: d.live = [(d.next, .request)] ∧ d.retry = c.retry ∧ d.xid = c.xid ∧ d.requestedIp = c.requestedIp ∧
      d.serverIp = c.serverIp ∧ Same c d ∧ d.ackRetry = c.ackRetry ∧
      [d.sendRequest] = [.request c.xid (some c.requestedIp) (some c.serverIp) 0 none] := by
    intro m w hm hw d hd
    subst hd
    refine ⟨⟨.req hs (by simp [Cl.add, hl]) hn hm (by show c.retry ≤ 2; omega), ⟨?_, ?_, ?_, ?_⟩, hw⟩, hs, by simp [hl], rfl, rfl, rfl, rfl, ⟨rfl, rfl⟩, rfl, ?_⟩
    · show c.next < c.next + 1; omega
    · have := hi.b; show c.idT1 < c.next + 1; omega
    · have := hi.d; show c.idT2 < c.next + 1; omega
    · have := hi.e; show c.idLease < c.next + 1; omega
    · simp [Cl.sendRequest, hs]
  dsimp only
  split
  · refine key _ _ ?_ hsw.2.1 _ ?_
    · rcases hsw.1 with h | h <;> rw [h] <;> simp
    · rw [hse, ← hs]
  · exact key c.mode c.watch hm hw c rfl

end Verif.Client
