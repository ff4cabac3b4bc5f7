import Verif.Proof.HelperArgs
import Verif.Props.P2p
import Verif.Props.Server
/-!
# The DHCP helper: properties

The program `miracle-dhcp`, for every command line and every sequence of leases, signals and failures: what it reports is what it did, how it leaves the interface, and which addresses it serves.
-/
namespace Verif.Helper
open Verif.C OptValue.Spec

/-! ### Example data -/

/-- Everything works. -/
def fine : Env := ⟨fun _ => true⟩
/-- Only the nth act fails. -/
def but (n : Nat) : Env := ⟨fun k => k != n⟩
def asClient : Conf := ⟨bytes "p2p0", 5, none⟩
def ip1 : List Byte := bytes "192.168.49.23"
def ip2 : List Byte := bytes "192.168.49.24"
def mask : List Byte := bytes "255.255.255.0"
def gw : List Byte := bytes "192.168.49.1"
def dns1 : List Byte := bytes "8.8.8.8"
def dns2 : List Byte := bytes "9.9.9.9"
def asServer : Conf := ⟨bytes "p2p0", 5, some ⟨bytes "192.168.7.1", bytes "192.168.7.1", bytes "192.168.7.1", mask, bytes "192.168.7.100", bytes "192.168.7.199"⟩⟩

/-! ### What is reported is so -/

/-- **C107.** In every run of the helper, as client or server, with whatever failures: a local address is reported to the Wi-Fi daemon only at a moment when it is the only address of the interface. -/
theorem reported_is_set (E : Env) (c : Conf) (es : List Ev) {u v : List (Act × Bool)} {a : List Byte} {r : Bool} (h : (main E c es).2 = u ++ (.send (bytes "L:" ++ a), r) :: v) :
    ∃ m, onIface u = some [a ++ ch '/' :: m] := main_sound E c es u a r v h

example : (main fine asClient [.lease (some ip1) [mask] [] [gw], .signal]).2 =
    [(.make, true), (.start, true), (.flush, true), (.add (ip1 ++ bytes "/255.255.255.0"), true), (.send (bytes "L:" ++ ip1), true), (.send (bytes "S:" ++ mask), true), (.send (bytes "G:" ++ gw), true),
      (.stop, true), (.flush, true)] := by decide +kernel

/-- **C107 (a lease).** A lease with an address that was not set before, when everything works and the daemon listens: the interface is flushed, the address is added, and the address, the mask, the first DNS
server and the first gateway are sent, in this order.  These are the packets of `lease_reads` and `lease_connects`, that is what the daemon takes for the addresses of the link. -/
theorem lease_exact (E : Env) (h : H) (hE : ∀ n, E.ok n = true) (hc : h.comm = true) (a : List Byte) (subnet dns gateway : List (List Byte))
    (hnew : h.addr ≠ some (a ++ ch '/' :: subnet.headD (bytes "24"))) :
    lease E (some a) subnet dns gateway h = { h with
      addr := some (a ++ ch '/' :: subnet.headD (bytes "24"))
      log := h.log ++ [(.flush, true), (.add (a ++ ch '/' :: subnet.headD (bytes "24")), true)] ++ (P2p.clientLease h.addr (some a) subnet dns gateway true true).2.1.map fun l => (.send l, true) } := by
  have hs : ∀ (ls : List (List Byte)) (h : H), h.comm = true → ls.foldl (fun h l => send E l h) h = { h with log := h.log ++ ls.map fun l => (.send l, true) } := by
    intro ls
    induction ls with
    | nil => intro h _; simp
    | cons l ls ih =>
      intro h hc
      have h1 : send E l h = { h with log := h.log ++ [(.send l, true)] } := by
        unfold send act
        simp [hc, hE]
      rw [List.foldl_cons, h1, ih { h with log := h.log ++ [(.send l, true)] } hc]
      simp
  unfold lease
  simp only [if_neg hnew]
  have h1 : ∀ h, setAddr E (a ++ ch '/' :: subnet.headD (bytes "24")) h = (true, { h with log := h.log ++ [(.flush, true), (.add (a ++ ch '/' :: subnet.headD (bytes "24")), true)] }) := by
    intro h
    unfold setAddr act
    simp [hE]
  rw [h1, if_neg (by simp)]
  refine (hs _ _ ?_).trans ?_
  · exact hc
  unfold P2p.clientLease leaseLines
  simp only [if_neg hnew]
  rw [if_neg (by simp)]
  rfl

example : (lease fine (some ip2) [mask] [dns1] [gw] { addr := some (ip1 ++ bytes "/255.255.255.0"), comm := true }).log.length = 6 := by decide +kernel

/-- **C107 (up to date).** The client, at any moment before something made it quit: the interface has exactly the address and mask of the last lease, and if the daemon still listens the last address and mask
sent to it are these. -/
theorem client_up_to_date (E : Env) (comm : Bool) (es : List Ev) (hp : ∀ e ∈ es, e.plain) {h0 : H} (h0e : h0 = { comm := comm, log := [(.make, true), (.start, true)] })
    {h : H} (hr : run E false h0 es = h) (hq : h.quit = false) :
    (∀ a m, lastLease es none = some (a, m) → onIface h.log = some [a ++ ch '/' :: m]) ∧
    (h.comm = true → lastSent (bytes "L:") h.log = (lastLease es none).map (·.1) ∧ lastSent (bytes "S:") h.log = (lastLease es none).map (·.2)) := by
  subst h0e
  have h0 : Cur { comm := comm, log := [(.make, true), (.start, true)] } none := ⟨rfl, (fun p e => nomatch e), fun _ => ⟨rfl, rfl⟩⟩
  have := cur_run es hp (x := none) (fun p e => nomatch e) h0 (hr ▸ hq)
  rw [hr] at this
  exact ⟨fun a m e => this.on _ e, this.told⟩

example : let h := run fine false { comm := true, log := [(.make, true), (.start, true)] } [.lease (some ip1) [mask] [] [gw], .lease (some ip2) [mask] [] [gw]]
    h.quit = false ∧ onIface h.log = some [ip2 ++ bytes "/255.255.255.0"] ∧ lastSent (bytes "L:") h.log = some ip2 := by decide +kernel

/-- **C107 (failures).** If the interface cannot be flushed or the address cannot be added, nothing is reported and the helper quits; a lease without an address makes it quit too. -/
theorem lease_fails (E : Env) (h : H) (addr : Option (List Byte)) (subnet dns gateway : List (List Byte))
    (hf : addr = none ∨ ∃ a, addr = some a ∧ h.addr ≠ some (a ++ ch '/' :: subnet.headD (bytes "24")) ∧ (E.ok h.log.length = false ∨ E.ok (h.log.length + 1) = false)) :
    (lease E addr subnet dns gateway h).quit = true ∧ ∀ x ∈ (lease E addr subnet dns gateway h).log, x ∈ h.log ∨ touches x.1 := by
  obtain rfl | ⟨a, rfl, hnew, hf⟩ := hf
  · exact ⟨rfl, fun x hx => .inl hx⟩
  · unfold lease
    simp only [if_neg hnew]
    generalize hk : ({ h with addr := some (a ++ ch '/' :: subnet.headD (bytes "24")) } : H) = k
    have hl : k.log = h.log := by rw [← hk]
    rw [← hl] at hf ⊢
    have h1 : (setAddr E (a ++ ch '/' :: subnet.headD (bytes "24")) k).1 = false ∧
        ∀ x ∈ (setAddr E (a ++ ch '/' :: subnet.headD (bytes "24")) k).2.log, x ∈ k.log ∨ touches x.1 := by
      unfold setAddr act
      cases hA : E.ok k.log.length with
      | false =>
        refine ⟨rfl, fun x hx => ?_⟩
        simp at hx
        obtain h | rfl := hx
        · exact .inl h
        · exact .inr True.intro
      | true =>
        rw [hA] at hf
        have hB : E.ok (k.log.length + 1) = false := by simpa using hf
        refine ⟨by simp [hB], fun x hx => ?_⟩
        simp at hx
        obtain h | rfl | rfl := hx
        · exact .inl h
        · exact .inr True.intro
        · exact .inr True.intro
    rw [if_pos (by rw [h1.1]; decide)]
    exact ⟨rfl, h1.2⟩

example : (lease (but 1) (some ip1) [mask] [] [gw] { comm := true }).log = [(.flush, true), (.add (ip1 ++ bytes "/255.255.255.0"), false)] := by decide +kernel

/-- **C107 (a daemon that does not listen).** After a packet could not be sent no further one is, so the daemon never sees a later part of the reports without the earlier ones. -/
theorem quiet_after_failure (E : Env) (c : Conf) (es : List Ev) {u v : List (Act × Bool)} {l : List Byte} (h : (main E c es).2 = u ++ (.send l, false) :: v) : ∀ x ∈ v, ∀ m, x.1 ≠ .send m :=
  quiet_main E c es h

example : (main (but 4) asClient [.lease (some ip1) [mask] [] [gw], .lease (some ip2) [mask] [] [gw]]).2 =
    [(.make, true), (.start, true), (.flush, true), (.add (ip1 ++ bytes "/255.255.255.0"), true), (.send (bytes "L:" ++ ip1), false),
      (.flush, true), (.add (ip2 ++ bytes "/255.255.255.0"), true), (.stop, true), (.flush, true)] := by decide +kernel

/-! ### Renewed leases -/

/-- **C108 (partial).** A lease is reported, with its DNS server and gateway, exactly if its address or mask is not the one set before.  Missing: a lease in which only the DNS server or the gateway changed is
not reported, see `gateway_change_unreported`. -/
theorem lease_reported_partial (E : Env) (h : H) (hE : ∀ n, E.ok n = true) (hc : h.comm = true) (a : List Byte) (subnet dns gateway : List (List Byte)) :
    ((bytes "L:" ++ a) ∈ ((lease E (some a) subnet dns gateway h).log.drop h.log.length).filterMap (fun x => sentAs [] x) ↔ h.addr ≠ some (a ++ ch '/' :: subnet.headD (bytes "24"))) ∧
    (h.addr = some (a ++ ch '/' :: subnet.headD (bytes "24")) → lease E (some a) subnet dns gateway h = h) ∧
    (h.addr ≠ some (a ++ ch '/' :: subnet.headD (bytes "24")) →
      (∀ d, dns.head? = some d → (.send (bytes "D:" ++ d), true) ∈ (lease E (some a) subnet dns gateway h).log) ∧
      (∀ d, gateway.head? = some d → lastSent (bytes "G:") (lease E (some a) subnet dns gateway h).log = some d)) := by
  have hsame : h.addr = some (a ++ ch '/' :: subnet.headD (bytes "24")) → lease E (some a) subnet dns gateway h = h := by
    intro e
    unfold lease
    simp only [if_pos e]
  have hsent : ∀ l, sentAs [] (.send l, true) = some l := fun l => by simp [sentAs]
  refine ⟨?_, hsame, ?_⟩
  · constructor
    · intro hm e
      rw [hsame e, List.drop_length] at hm
      cases hm
    · intro e
      rw [lease_exact E h hE hc a subnet dns gateway e]
      simp only [List.append_assoc, List.drop_left]
      unfold P2p.clientLease
      simp only [if_neg e]
      rw [if_neg (by simp)]
      rw [List.mem_filterMap]
      exact ⟨(.send (bytes "L:" ++ a), true), by simp; exact .inl rfl, hsent _⟩
  · intro e
    rw [lease_exact E h hE hc a subnet dns gateway e]
    unfold P2p.clientLease
    simp only [if_neg e]
    rw [if_neg (by simp)]
    constructor
    · intro d hd
      rw [hd]
      simp
      exact .inr (.inr (.inr (.inl rfl)))
    · intro d hd
      rw [hd]
      simp only [List.map_append, Option.toList_some, List.map_cons, List.map_nil, ← List.append_assoc]
      rw [lastSent_snoc]
      simp only [sentAs]
      rw [if_pos (by rfl)]
      rfl

/-- **C108 (violated).** The lease is renewed with the same address but with another gateway and another DNS server: the daemon keeps the old ones. -/
theorem gateway_change_unreported :
    let h := run fine false { comm := true, log := [(.make, true), (.start, true)] } [.lease (some ip1) [mask] [dns1] [gw], .lease (some ip1) [mask] [dns2] [bytes "192.168.49.2"]]
    h.quit = false ∧ h.comm = true ∧ lastSent (bytes "G:") h.log = some gw ∧ lastSent (bytes "D:") h.log = some dns1 := by decide +kernel

/-! ### The end -/

/-- **C109.** However the helper ends, after whatever events and failures: either it never touched the addresses of the interface, or flushing them is the last thing it did; a client or server that was made
was stopped before. -/
theorem leaves_clean (E : Env) (c : Conf) (es : List Ev) :
    ((∀ x ∈ (main E c es).2, ¬ touches x.1) ∨ ∃ u r, (main E c es).2 = u ++ [(.flush, r)] ∧ (r = true → onIface (main E c es).2 = some [])) ∧
    ((Act.make, true) ∈ (main E c es).2 → (Act.stop, true) ∈ (main E c es).2 ∨ (Act.stop, false) ∈ (main E c es).2) := by
  have h0 : Clean ({ comm := 0 ≤ c.comm } : H) := fun _ x hx => (nomatch hx)
  have hn := new_clean (E := E) (c := c) h0
  obtain ⟨hcase, -⟩ := new_case E c (h := { comm := 0 ≤ c.comm }) rfl
  have fin : ∀ (made : Bool) (h : H), Clean h → (c.server = none → made = false → h.addr = none) → ((Act.make, true) ∈ h.log → made = true) →
      ((∀ x ∈ (free E c made h).log, ¬ touches x.1) ∨ ∃ u r, (free E c made h).log = u ++ [(.flush, r)] ∧ (r = true → onIface (free E c made h).log = some [])) ∧
      ((Act.make, true) ∈ (free E c made h).log → (Act.stop, true) ∈ (free E c made h).log ∨ (Act.stop, false) ∈ (free E c made h).log) := by
    intro made h hc hm hk
    refine ⟨?_, ?_⟩
    · obtain h1 | ⟨r, h1⟩ := free_end (E := E) hc hm
      · exact .inl h1
      · refine .inr ⟨_, r, h1, fun e => ?_⟩
        rw [h1, on_snoc, e]
        rfl
    · obtain ⟨v, h1, h2⟩ := free_log E c made h
      rw [h1]
      cases made with
      | false =>
        intro hh
        obtain hh | hh := List.mem_append.mp hh
        · cases hk hh
        · cases h2 _ hh
      | true =>
        intro _
        simp only [if_true]
        rw [act_log]
        cases (act E .stop h).1 <;> simp
  unfold main
  simp only
  split
  · rename_i hr
    obtain ⟨-, h1, h2⟩ | ⟨h1, -⟩ := hcase
    · exact fin _ _ hn.1 (fun h1 h2 => hn.2 h1 h2) (fun e => absurd e h2)
    · omega
  · rename_i hr
    obtain ⟨h1, -⟩ | ⟨-, h1, -⟩ := hcase
    · exact absurd h1 hr
    · exact fin _ _ (loop_clean hn.1) (fun _ e => by rw [h1] at e; cases e) (fun _ => h1)

example : (main (but 3) asClient [.lease (some ip1) [mask] [] [gw], .signal]).2 =
    [(.make, true), (.start, true), (.flush, true), (.add (ip1 ++ bytes "/255.255.255.0"), false), (.stop, true), (.flush, true)] := by decide +kernel

/-- **C109 (exit status).** The exit status is 0 exactly if the client or server was made and started (and, for a server, the address could be set).  So it says nothing about leases: -/
theorem exit_status (E : Env) (c : Conf) (es : List Ev) : (main E c es).1 = 0 ↔ (Act.make, true) ∈ (main E c es).2 ∧ (Act.start, true) ∈ (main E c es).2 := by
  obtain ⟨hcase, hs⟩ := new_case E c (h := { comm := 0 ≤ c.comm }) rfl
  unfold main
  simp only
  split
  · rename_i hr
    simp only
    rw [free_mem (x := (Act.make, true)) (by simp) (by simp)]
    obtain ⟨-, h1, h2⟩ | ⟨h1, -⟩ := hcase
    · constructor
      · intro e; omega
      · exact fun e => absurd e.1 h2
    · omega
  · rename_i hr
    simp only
    rw [free_mem (x := (Act.make, true)) (by simp) (by simp), free_mem (x := (Act.start, true)) (by simp) (by simp)]
    obtain ⟨h1, -⟩ | ⟨-, -, h1⟩ := hcase
    · exact absurd h1 hr
    · obtain ⟨h2, h3⟩ | ⟨h2, h3⟩ := loop_case E c es (new E c { comm := 0 ≤ c.comm }).2.2
      · rw [h3]
        constructor
        · intro e
          have : (loop E c es (new E c { comm := 0 ≤ c.comm }).2.2).1 = 0 := Int.natAbs_eq_zero.mp e
          omega
        · rintro ⟨-, e⟩
          obtain e | e := List.mem_append.mp e
          · exact absurd e (hs _)
          · simp at e
      · rw [h2]
        exact ⟨fun _ => ⟨h3.subset (List.mem_append.mpr (.inl h1)), h3.subset (List.mem_append.mpr (.inr List.mem_cons_self))⟩, fun _ => rfl⟩

/-- … a client that never got a lease ends with status 0. -/
theorem no_lease_status : (main fine asClient [.noLease]).1 = 0 := by decide +kernel

/-! ### The command line -/

/-- **C110 (options).** What the program makes of a command line: it ends with the status of the first `--help`, `--version` or unknown option; else, with an interface and an executable `ip`, it runs as a
client if there is no `--server` and no option for a server, and as a server if there is `--server` and the prefix (default 192.168.77) with each of the numbers is an IPv4 address and the mask looks like one;
the last option of each kind counts.  Everything else is refused. -/
theorem accepted (args : List Arg) (hn : ∀ v, .commFd v ∈ args → atoi v ≠ none) (he : ∀ a ∈ args, a.ends = none) (rest access : Bool) (c : Conf) :
    parse args rest access = some (.ok c) ↔
      rest = false ∧ access = true ∧ final Arg.netdev? args = some c.netdev ∧ c.comm = ((final Arg.comm? args).bind atoi).getD (-1) ∧
      (match c.server with
        | none => .server ∉ args ∧ ∀ a ∈ args, ¬ a.forServer
        | some a => .server ∈ args ∧ Asked args a) := by
  have hsrv : (final Arg.server? args).isSome = true ↔ .server ∈ args := by
    constructor
    · intro h
      obtain ⟨x, h⟩ := Option.isSome_iff_exists.mp h
      obtain ⟨a, h1, h2⟩ := final_mem h
      cases a <;> simp [Arg.server?] at h2
      exact h1
    · intro h
      cases hf : final Arg.server? args with
      | some _ => rfl
      | none => exact absurd (final_none.mp hf _ h) (by simp [Arg.server?])
  have hfor : ((final Arg.pre? args).isSome ∨ (final Arg.loc? args).isSome ∨ (final Arg.gateway? args).isSome ∨ (final Arg.dns? args).isSome ∨ (final Arg.subnet? args).isSome ∨
      (final Arg.first? args).isSome ∨ (final Arg.last? args).isSome) ↔ ¬ ∀ a ∈ args, ¬ a.forServer := by
    have key : ∀ (f : Arg → Option (List Byte)), (∀ a x, f a = some x → a.forServer) → (final f args).isSome = true → ¬ ∀ a ∈ args, ¬ a.forServer := by
      intro f hf h hall
      obtain ⟨x, h⟩ := Option.isSome_iff_exists.mp h
      obtain ⟨a, h1, h2⟩ := final_mem h
      exact hall a h1 (hf a x h2)
    constructor
    · rintro (h | h | h | h | h | h | h)
      all_goals refine key _ ?_ h; intro a x e; cases a <;> first | exact True.intro | cases e
    · intro h
      cases hd : decide ((final Arg.pre? args).isSome ∨ (final Arg.loc? args).isSome ∨ (final Arg.gateway? args).isSome ∨ (final Arg.dns? args).isSome ∨ (final Arg.subnet? args).isSome ∨
        (final Arg.first? args).isSome ∨ (final Arg.last? args).isSome) with
      | true => exact of_decide_eq_true hd
      | false =>
        have hd := of_decide_eq_false hd
        simp only [not_or, Bool.not_eq_true, Option.isSome_eq_false_iff, Option.isNone_iff_eq_none, final_none] at hd
        refine absurd ?_ h
        intro a ha hs
        obtain ⟨h1, h2, h3, h4, h5, h6, h7⟩ := hd
        have h1 := h1 a ha
        have h2 := h2 a ha
        have h3 := h3 a ha
        have h4 := h4 a ha
        have h5 := h5 a ha
        have h6 := h6 a ha
        have h7 := h7 a ha
        cases a <;> first | exact hs | (simp [Arg.pre?, Arg.loc?, Arg.gateway?, Arg.dns?, Arg.subnet?, Arg.first?, Arg.last?] at h1 h2 h3 h4 h5 h6 h7)
  unfold parse
  rw [readArgs_over args {} he hn]
  simp only [Option.map_some, Option.some.injEq]
  cases rest with
  | true => simp
  | false =>
    simp only [Bool.false_eq_true, if_false, true_and]
    unfold check
    have hnd : (over {} args).netdev = final Arg.netdev? args := by simp [over]
    rw [hnd]
    cases hdev : final Arg.netdev? args with
    | none => simp
    | some dev =>
      simp only
      cases access with
      | false => simp
      | true =>
        simp only [not_true_eq_false, if_false, true_and]
        have h1 : (over {} args).server = (final Arg.server? args).isSome := by simp [over]
        rw [h1]
        cases hs : (final Arg.server? args).isSome with
        | false =>
          have hs : .server ∉ args := fun e => by rw [hsrv.mpr e] at hs; cases hs
          simp only [Bool.false_eq_true, not_false_eq_true, if_true]
          have h2 : ((over {} args).pre.isSome ∨ (over {} args).loc.isSome ∨ (over {} args).gateway.isSome ∨ (over {} args).dns.isSome ∨ (over {} args).subnet.isSome ∨
              (over {} args).first.isSome ∨ (over {} args).last.isSome) ↔ ¬ ∀ a ∈ args, ¬ a.forServer := by
            rw [← hfor]; simp [over]
          by_cases h3 : ∀ a ∈ args, ¬ a.forServer
          · rw [if_neg (fun e => h2.mp e h3)]
            obtain ⟨n, k, v⟩ := c
            cases v with
            | none =>
              simp only [hs, not_false_eq_true, true_and, over, Parsed.ok.injEq, Conf.mk.injEq, Option.some.injEq, and_true]
              exact ⟨fun e => ⟨e.1, e.2.symm, h3⟩, fun e => ⟨e.1, e.2.1.symm⟩⟩
            | some a => simp [hs]
          · rw [if_pos (h2.mpr h3)]
            obtain ⟨n, k, v⟩ := c
            cases v with
            | none => simp [h3]
            | some a => simp [hs]
        | true =>
          have hs := hsrv.mp hs
          simp only [not_true_eq_false, if_false]
          obtain ⟨n, k, v⟩ := c
          cases v with
          | none => cases addrs (over {} args) <;> simp [hs]
          | some a =>
            simp only [hs, true_and, ← addrs_iff (as := args) rfl]
            cases addrs (over {} args) with
            | none => simp
            | some b => simp [over, eq_comm]

example : parse [.server, .netdev (bytes "eth0"), .pre (bytes "10.0.0"), .loc (bytes "9"), .loc (bytes "7")] false true =
    some (.ok ⟨bytes "eth0", -1, some ⟨bytes "10.0.0.7", bytes "10.0.0.1", bytes "10.0.0.1", mask, bytes "10.0.0.100", bytes "10.0.0.199"⟩⟩) := by decide +kernel
example : parse [.netdev (bytes "eth0"), .loc (bytes "9")] false true = some (.exit 1) ∧ parse [.server, .netdev (bytes "eth0"), .first (bytes "256")] false true = some (.exit 1) ∧
    parse [.server, .netdev (bytes "eth0"), .pre (bytes "10.0")] false true = some (.exit 1) := by decide +kernel

/-- **C110 (options that end).** `--help` and `--version` end the program with status 0, an unknown option with status 1, whatever follows. -/
theorem ended (as bs : List Arg) (a : Arg) (n : Nat) (hn : ∀ v, .commFd v ∈ as → atoi v ≠ none) (he : ∀ a ∈ as, a.ends = none) (ha : a.ends = some n) (rest access : Bool) :
    parse (as ++ a :: bs) rest access = some (.exit n) := by
  unfold parse
  rw [readArgs_ends as {} he hn ha]
  rfl

example : parse [.netdev (bytes "eth0"), .help, .bad] true false = some (.exit 0) := by decide +kernel

/-- **C110 (as the daemon runs it).** The command line that the Wi-Fi daemon builds for a group it owns is accepted for every subnet number: the helper's address is 192.168.n.1, which is also the gateway and the DNS
server, the mask is 255.255.255.0, and it serves 192.168.n.100 to 192.168.n.199. -/
theorem daemon_server (n : Nat) (hn : n < 256) (level dev fd : List Byte) (ip : Option (List Byte)) (k : Int) (hk : atoi fd = some k) :
    parse (serverArgs n level dev fd ip) false true = some (.ok ⟨dev, k, some ⟨dotted (host n 1), dotted (host n 1), dotted (host n 1), bytes "255.255.255.0", dotted (host n 100), dotted (host n 199)⟩⟩) := by
  have hd : ∀ (t : String) (m : Nat), m < 256 → bytes t = dec m → (bytes "192.168." ++ dec n) ++ ch '.' :: bytes t = dotted (host n m) := by
    intro t m hm e
    have h1 : (n.toUInt8).toNat = n := by simp; omega
    have h2 : (m.toUInt8).toNat = m := by simp; omega
    unfold dotted host
    simp only [h1, h2]
    rw [e, show bytes "192.168." = dec (192 : Byte).toNat ++ bytes "." ++ dec (168 : Byte).toNat ++ bytes "." by decide +kernel]
    simp only [List.append_assoc]
    rfl
  refine (accepted _ ?_ ?_ _ _ _).mpr ⟨rfl, rfl, ?_, ?_, ?_, ?_, ?_, ?_, ?_, ?_, ?_⟩
  · intro v hv
    have : v = fd := by cases ip <;> simpa [serverArgs] using hv
    rw [this, hk]; simp
  · cases ip with
    | none => simp [serverArgs, Arg.ends]
    | some w => simp [serverArgs, Arg.ends]
  · cases ip <;> rfl
  · have : (final Arg.comm? (serverArgs n level dev fd ip)) = some fd := by cases ip <;> rfl
    rw [this]
    simp [hk]
  · simp [serverArgs]
  · refine ⟨?_, _, rfl⟩
    rw [← hd "1" 1 (by decide) (by decide +kernel)]
    cases ip <;> rfl
  · refine ⟨?_, _, rfl⟩
    rw [← hd "1" 1 (by decide) (by decide +kernel)]
    cases ip <;> rfl
  · refine ⟨?_, _, rfl⟩
    rw [← hd "1" 1 (by decide) (by decide +kernel)]
    cases ip <;> rfl
  · refine ⟨?_, (255, 255, 255, 0), (by decide +kernel : bytes "255.255.255.0" = dotted (255, 255, 255, 0))⟩
    cases ip <;> rfl
  · refine ⟨?_, _, rfl⟩
    rw [← hd "100" 100 (by decide) (by decide +kernel)]
    cases ip <;> rfl
  · refine ⟨?_, _, rfl⟩
    rw [← hd "199" 199 (by decide) (by decide +kernel)]
    cases ip <;> rfl

/-- … and so is the one for a group of another device: the helper is a client. -/
theorem daemon_client (level dev fd : List Byte) (ip : Option (List Byte)) (k : Int) (hk : atoi fd = some k) : parse (clientArgs level dev fd ip) false true = some (.ok ⟨dev, k, none⟩) := by
  refine (accepted _ ?_ ?_ _ _ _).mpr ⟨rfl, rfl, ?_, ?_, ?_, ?_⟩
  · intro v hv
    have : v = fd := by cases ip <;> simpa [clientArgs] using hv
    rw [this, hk]; simp
  · cases ip with
    | none => simp [clientArgs, Arg.ends]
    | some w => simp [clientArgs, Arg.ends]
  · cases ip <;> rfl
  · have : (final Arg.comm? (clientArgs level dev fd ip)) = some fd := by cases ip <;> rfl
    rw [this]
    simp [hk]
  · simp [clientArgs]
  · cases ip with
    | none => simp [clientArgs, Arg.forServer]
    | some w => simp [clientArgs, Arg.forServer]

example : parse (serverArgs 7 (bytes "info") (bytes "p2p0") (bytes "5") (some (bytes "/sbin/ip"))) false true = some (.ok asServer) ∧
    parse (clientArgs (bytes "info") (bytes "p2p0") (bytes "5") none) false true = some (.ok asClient) := by decide +kernel

/-- **C110 (addresses given out).** A server run with these addresses offers and acknowledges only addresses 192.168.n.100 to 192.168.n.199, hence never its own. -/
theorem daemon_server_serves (n : Nat) (hn : n < 256) {t : Nat} {e : Bool} {pre : List Server.Step} {s : Server.Srv} {o : List Server.Out}
    (hr : Server.run (Server.start (ipOf (host n 100)) (ipOf (host n 199)) (ipOf (host n 1)) t e) pre = some (s, o)) (now : Int) (p : Server.Pkt) (mem : Bool) (s' : Server.Srv) (out : List Server.Out)
    (h : Server.recv s now p mem = some (s', out)) (mac nip : Nat) (ho : .offer mac nip ∈ out ∨ ∃ k, .ack mac nip k ∈ out) :
    (∃ i, 100 ≤ i ∧ i ≤ 199 ∧ nip = ipOf (host n i)) ∧ nip ≠ ipOf (host n 1) := by
  have hv : ∀ i, i < 256 → ipOf (host n i) = 3232235520 + n * 256 + i := by
    intro i hi
    unfold ipOf host
    have h1 : (n.toUInt8).toNat = n := by simp; omega
    have h2 : (i.toUInt8).toNat = i := by simp; omega
    simp only [h1, h2]
    have h3 : (192 : Byte).toNat = 192 := rfl
    have h4 : (168 : Byte).toNat = 168 := rfl
    omega
  have hW : W32 = 4294967296 := rfl
  have hb : ipOf (host n 199) + 1 ≠ W32 := by rw [hv 199 (by decide), hW]; omega
  have hab : ipOf (host n 100) ≤ nip ∧ nip ≤ ipOf (host n 199) := by
    obtain ho | ⟨k, ho⟩ := ho
    · obtain ⟨-, -, -, h1, h2, -⟩ := Server.offer_sound hb hr now p mem s' out h mac nip ho
      exact ⟨h1, h2⟩
    · obtain ⟨-, -, -, -, h1, h2, -⟩ := Server.ack_sound hb hr now p mem s' out h mac nip k ho
      exact ⟨h1, h2⟩
  rw [hv 100 (by decide), hv 199 (by decide)] at hab
  refine ⟨⟨nip - (3232235520 + n * 256), by omega, by omega, ?_⟩, ?_⟩
  · rw [hv _ (by omega)]; omega
  · rw [hv 1 (by decide)]; omega

/-- Concretely: the first client of subnet 7 is offered and given 192.168.7.100. -/
example : (Server.run (Server.start (ipOf (host 7 100)) (ipOf (host 7 199)) (ipOf (host 7 1)) 3600 true)
    [⟨1000, ⟨1, 7, 0, none, none⟩, true⟩, ⟨1001, ⟨3, 7, 0, some (ipOf (host 7 1)), some (ipOf (host 7 100))⟩, true⟩]).map (·.2) =
    some [.offer 7 (ipOf (host 7 100)), .ack 7 (ipOf (host 7 100)) 3600, .event 7 (ipOf (host 7 100))] := by decide +kernel

/-- **C110 (violated for other options).** The range is not compared with the helper's own address: with `--from 1` the first client is offered the address of the server; -/
theorem own_address_offered :
    parse [.server, .netdev (bytes "eth0"), .first (bytes "1")] false true =
      some (.ok ⟨bytes "eth0", -1, some ⟨dotted (host 77 1), dotted (host 77 1), dotted (host 77 1), mask, dotted (host 77 1), dotted (host 77 199)⟩⟩) ∧
    (Server.run (Server.start (ipOf (host 77 1)) (ipOf (host 77 199)) (ipOf (host 77 1)) 3600 true) [⟨1000, ⟨1, 7, 0, none, none⟩, true⟩]).map (·.2) =
      some [.offer 7 (ipOf (host 77 1))] := by decide +kernel

/-- … and nothing says that the range is not empty: with `--from 199 --to 100` no client gets an address. -/
theorem empty_range :
    parse [.server, .netdev (bytes "eth0"), .first (bytes "199"), .last (bytes "100")] false true =
      some (.ok ⟨bytes "eth0", -1, some ⟨dotted (host 77 1), dotted (host 77 1), dotted (host 77 1), mask, dotted (host 77 199), dotted (host 77 100)⟩⟩) ∧
    (Server.run (Server.start (ipOf (host 77 199)) (ipOf (host 77 100)) (ipOf (host 77 1)) 3600 true) [⟨1000, ⟨1, 7, 0, none, none⟩, true⟩]).map (·.2) = some [] := by decide +kernel

end Verif.Helper
