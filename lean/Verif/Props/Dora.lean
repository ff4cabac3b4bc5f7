import Verif.Proof.DoraClient
/-!
# Properties of the DHCP client and the DHCP server together

C114: the server reads what the client means.  C115: the client reads what the server means.  C116: a handshake of the two
programs ends with the same lease on both sides.  C117: keeping and giving back the lease.
-/
namespace Verif.Dora
open Verif.C Verif.Options

/-! ## C114: from the client to the server -/

/-- **C114.** Every message of a client, built and sent on a host of either byte order with any content of uninitialised memory, reaches
the server if it is sent to everybody or to the server's address, and not otherwise; the server, of either byte order, gets out of
it exactly what the client meant, and drops it if it names another server than the one the server takes itself for. -/
theorem client_heard {k : Cli} {v : Env} (hk : Spec.CliOk k) (hv : Spec.EnvOk v) {o : Client.Out} (hF : Spec.Fits o) {p : Server.Pkt}
    (hh : Spec.heard k.mac o = some p) (w : Srvr) (hw : Spec.SrvrOk w) :
    ∃ m, send k v o = some (some m) ∧ (¬ Spec.Reaches w.addr o → arrives w.addr m = none) ∧
      (Spec.Reaches w.addr o → ∃ d q, arrives w.addr m = some d ∧ recvL3 w.host d = some (548, q) ∧
        ((p.serverId = none ∨ p.serverId = some (Spec.identifier w)) → parse w.host w.nip q 548 = some (some p)) ∧
        (p.serverId ≠ none → p.serverId ≠ some (Spec.identifier w) → parse w.host w.nip q 548 = some none)) := by
  obtain ⟨m, h1, h2, h3⟩ := heard_built hk hv hF hh w hw.addr
  refine ⟨m, h1, h2, fun hr => ?_⟩
  obtain ⟨d, h4, q, H, is, h5, -, -, h6⟩ := h3 hr
  refine ⟨d, q, h4, h5, fun hs => ?_, fun h7 h8 => ?_⟩
  · rw [h6, nip_eq, if_neg (by rcases hs with hs | hs <;> simp [hs])]
  · rw [h6, nip_eq, if_pos ⟨Option.isSome_iff_ne_none.mpr h7, h8⟩]

/-- **C114.** What is not a message is not sent. -/
theorem callbacks_unsent (k : Cli) (v : Env) (o : Client.Out) (h : Spec.heard k.mac o = none) : send k v o = some none := by
  cases o with
  | discover x a => cases h
  | request x a s ci d => cases h
  | release ci s => cases h
  | lease a => rfl
  | noLease => rfl
  | lost => rfl

/-- The parties of the examples: 192.168.77.1 serves on a little-endian host with a netmask. -/
def cli0 : Cli := ⟨.le, [2, 0, 0, 0, 0, 1], [1, 3, 6], [(12, bytes "miracle")]⟩
def srv0 : Srvr := ⟨.le, [192, 168, 77, 1], [(1, 4294967040), (3, 3232255233)]⟩
def env0 : Env := ⟨[9, 9, 9, 9, 9, 9], [0, 7], [5, 5, 5, 5]⟩
def trip0 (now : Int) : Trip := ⟨env0, [8, 8, 8, 8, 8, 8], List.replicate 628 7, now, true⟩

theorem cli0_ok : Spec.CliOk cli0 := ⟨rfl, by decide, by simp only [cli0, List.mem_singleton, forall_eq]; decide +kernel⟩
theorem srv0_ok : Spec.SrvrOk srv0 := ⟨rfl, by decide, by decide, by decide⟩
theorem env0_ok : Spec.EnvOk env0 := ⟨rfl, rfl, rfl⟩
theorem trip0_ok (now : Int) : Spec.TripOk (trip0 now) := ⟨env0_ok, rfl, List.length_replicate⟩

example : Spec.Fits (.request [1, 2, 3, 4] (some 3232255234) (some 21866688) 0 none) ∧
    Spec.Reaches srv0.addr (.request [1, 2, 3, 4] (some 3232255234) (some 21866688) 0 none) ∧
    Spec.heard cli0.mac (.request [1, 2, 3, 4] (some 3232255234) (some 21866688) 0 none) =
      some { type := 3, mac := 0x020000000001, serverId := some 21866688, reqIp := some 3232255234 } ∧
    Spec.identifier srv0 = 21866688 := by
  refine ⟨⟨rfl, ?_, ?_, by decide, ?_⟩, ?_, by decide +kernel, by decide +kernel⟩
  · intro n h; cases h; decide
  · intro n h; cases h; decide
  · intro n h; cases h
  · intro n h; cases h

/-! ## C115: from the server to the client -/

/-- **C115.** For every state of a server and every message of a client that reaches it and names no other server: the server handles
the message as meant, and every answer it gives comes back to the client's packet socket, in order, legal and complete: with the
transaction and hardware address of the client, the address and the options the server has for it, whatever the byte orders. -/
theorem answers_come_back {k : Cli} {w : Srvr} {x : Trip} (hk : Spec.CliOk k) (hw : Spec.SrvrOk w) (hx : Spec.TripOk x) {o : Client.Out} (hF : Spec.Fits o)
    {p : Server.Pkt} (hh : Spec.heard k.mac o = some p) {xid : List Byte} (hxid : Spec.xid o = some xid) {a b d : Nat} {s : Server.Srv}
    (hs : Spec.Live w a b d s) (hr : Spec.Reaches w.addr o) (hid : p.serverId = none ∨ p.serverId = some (Spec.identifier w)) :
    ∃ t outs ps, Server.recv s x.now p x.mem = some (t, outs) ∧ round k w x s o = some (t, ps) ∧
      Spec.AllCarry k.mac xid ps (Spec.replies w d outs) ∧ Spec.Live w a b d t := by
  obtain ⟨hd, t, outs, h1, h2, h3⟩ := live_step hs x.now p x.mem
  obtain ⟨-, -, h4⟩ := round_eq hk hw hx hF hh s t outs (by rw [hd]; exact hs.2.1) h1 h2
  obtain ⟨ps, h5, y, h6, h7⟩ := h4 hr hid
  exact ⟨t, outs, ps, h1, h5, by rw [← h6 xid hxid, ← hd]; exact h7, h3⟩

/-- **C115.** A message that does not reach the server, or names another one, changes nothing and is not answered. -/
theorem others_unanswered {k : Cli} {w : Srvr} {x : Trip} (hk : Spec.CliOk k) (hw : Spec.SrvrOk w) (hx : Spec.TripOk x) {o : Client.Out} (hF : Spec.Fits o)
    {p : Server.Pkt} (hh : Spec.heard k.mac o = some p) {a b d : Nat} {s : Server.Srv}
    (hs : Spec.Live w a b d s) (hr : ¬ Spec.Reaches w.addr o ∨ (p.serverId ≠ none ∧ p.serverId ≠ some (Spec.identifier w))) :
    round k w x s o = some (s, []) := by
  obtain ⟨hd, t, outs, h1, h2, h3⟩ := live_step hs x.now p x.mem
  obtain ⟨h4, h5, -⟩ := round_eq hk hw hx hF hh s t outs (by rw [hd]; exact hs.2.1) h1 h2
  by_cases hq : Spec.Reaches w.addr o
  · rcases hr with hr | ⟨hr1, hr2⟩
    · exact absurd hq hr
    · exact h5 hq (Option.isSome_iff_ne_none.mpr hr1) hr2
  · exact h4 hq

theorem allCarry_mem {mac xid : List Byte} {ps : List (List Byte × Int)} {rs : List Spec.Reply} (h : Spec.AllCarry mac xid ps rs) {p : List Byte × Int} (hp : p ∈ ps) :
    ∃ r ∈ rs, Spec.Carries mac xid p r := by
  induction h with
  | nil => cases hp
  | cons h t ih =>
    rcases List.mem_cons.mp hp with rfl | hp
    · exact ⟨_, by simp, h⟩
    · obtain ⟨r, h1, h2⟩ := ih hp
      exact ⟨r, by simp [h1], h2⟩

theorem replies_identifier {w : Srvr} {d : Nat} {outs : List Server.Out} {r : Spec.Reply} (h : r ∈ Spec.replies w d outs) :
    Options.Spec.value 54 r.items = some (Options.Spec.digits 4 (Spec.identifier w)) := by
  induction outs with
  | nil => cases h
  | cons o t ih =>
    cases o with
    | event => exact ih h
    | offer | ack | nak | inform =>
      rcases List.mem_cons.mp h with rfl | h
      · simp [Spec.grantItems, Spec.word, Options.Spec.value]
      · exact ih h

/-- **C115 (partial).** Every packet the client gets back in an exchange with a server on a big-endian host carries the server's address as server identifier, as
RFC 2132 (9.7) demands.  Missing: little-endian hosts (`identifier_reversed`). -/
theorem identifier_right_partial {k : Cli} {w : Srvr} {x : Trip} (hk : Spec.CliOk k) (hw : Spec.SrvrOk w) (hx : Spec.TripOk x) (hbe : w.host = .be) {o : Client.Out} (hF : Spec.Fits o)
    {p : Server.Pkt} (hh : Spec.heard k.mac o = some p) {xid : List Byte} (hxid : Spec.xid o = some xid) {a b d : Nat} {s : Server.Srv}
    (hs : Spec.Live w a b d s) (hr : Spec.Reaches w.addr o) (hid : p.serverId = none ∨ p.serverId = some (Spec.num w.addr)) :
    ∃ t ps, round k w x s o = some (t, ps) ∧ ∀ q ∈ ps, ∃ items, Options.Spec.Layout q.1 548 items [] [] ∧ Options.Spec.value 54 items = some w.addr := by
  have he : Spec.identifier w = Spec.num w.addr := by simp [Spec.identifier, hbe]
  obtain ⟨t, outs, ps, -, h2, h3, -⟩ := answers_come_back hk hw hx hF hh hxid hs hr (by rw [he]; exact hid)
  refine ⟨t, ps, h2, fun q hq => ?_⟩
  obtain ⟨r, h4, h5⟩ := allCarry_mem h3 hq
  refine ⟨_, h5.layout, ?_⟩
  rw [replies_identifier h4, (digits_addr hw.addr _ (identifier_lt hw)).mpr he]

/-- **C115 fails** on every little-endian host: the server identifier in every answer is the server's address backwards. -/
theorem identifier_reversed {k : Cli} {w : Srvr} {x : Trip} (hk : Spec.CliOk k) (hw : Spec.SrvrOk w) (hx : Spec.TripOk x) (hle : w.host = .le) {o : Client.Out} (hF : Spec.Fits o)
    {p : Server.Pkt} (hh : Spec.heard k.mac o = some p) {xid : List Byte} (hxid : Spec.xid o = some xid) {a b d : Nat} {s : Server.Srv}
    (hs : Spec.Live w a b d s) (hr : Spec.Reaches w.addr o) (hid : p.serverId = none ∨ p.serverId = some (Spec.num w.addr.reverse)) :
    ∃ t ps, round k w x s o = some (t, ps) ∧ ∀ q ∈ ps, ∃ items, Options.Spec.Layout q.1 548 items [] [] ∧ Options.Spec.value 54 items = some w.addr.reverse := by
  have he : Spec.identifier w = Spec.num w.addr.reverse := by simp [Spec.identifier, hle]
  obtain ⟨t, outs, ps, -, h2, h3, -⟩ := answers_come_back hk hw hx hF hh hxid hs hr (by rw [he]; exact hid)
  refine ⟨t, ps, h2, fun q hq => ?_⟩
  obtain ⟨r, h4, h5⟩ := allCarry_mem h3 hq
  refine ⟨_, h5.layout, ?_⟩
  rw [replies_identifier h4, (digits_addr (by rw [List.length_reverse]; exact hw.addr) _ (identifier_lt hw)).mpr he]

/-- **C115 fails** on little-endian hosts: the identifier in the answers of the server 192.168.77.1 is 1.77.168.192 (the first packet the
client gets back carries it in option 54). -/
theorem identifier_refuted : ∃ q, round cli0 srv0 (trip0 1000) (Server.start 3232255234 3232255300 (Spec.identifier srv0) 3600 true) (.discover [1, 2, 3, 4] 0) = some q ∧
    q.2.map (fun p => (p.1.drop 240).take 33) = [[53, 1, 2, 54, 4, 1, 77, 168, 192, 51, 4, 0, 0, 14, 16, 1, 4, 255, 255, 255, 0, 3, 4, 192, 168, 77, 1, 255, 0, 0, 0, 0, 0]] := by
  have h : (round cli0 srv0 (trip0 1000) (Server.start 3232255234 3232255300 (Spec.identifier srv0) 3600 true) (.discover [1, 2, 3, 4] 0)).map
      (fun q => q.2.map (fun p => (p.1.drop 240).take 33)) =
      some [[53, 1, 2, 54, 4, 1, 77, 168, 192, 51, 4, 0, 0, 14, 16, 1, 4, 255, 255, 255, 0, 3, 4, 192, 168, 77, 1, 255, 0, 0, 0, 0, 0]] := by decide +kernel
  obtain ⟨q, h1, h2⟩ := Option.map_eq_some_iff.mp h
  exact ⟨q, h1, h2⟩

theorem live0 : Spec.Live srv0 3232255234 3232255300 3600 (Server.start 3232255234 3232255300 (Spec.identifier srv0) 3600 true) :=
  ⟨by decide, by decide, [], [], rfl⟩

example : ∃ t outs ps, Server.recv (Server.start 3232255234 3232255300 (Spec.identifier srv0) 3600 true) 1000 { type := 1, mac := Spec.num cli0.mac } true = some (t, outs) ∧
    outs = [.offer 0x020000000001 3232255234] ∧
    round cli0 srv0 (trip0 1000) (Server.start 3232255234 3232255300 (Spec.identifier srv0) 3600 true) (.discover [1, 2, 3, 4] 0) = some (t, ps) ∧
    Spec.AllCarry cli0.mac [1, 2, 3, 4] ps [⟨3232255234, Spec.grantItems srv0 2 3600⟩] := by
  obtain ⟨t, outs, ps, h1, h2, h3, -⟩ := answers_come_back (o := .discover [1, 2, 3, 4] 0) cli0_ok srv0_ok (trip0_ok 1000) ⟨rfl, by decide⟩ rfl rfl live0
    (by intro n h; cases h) (Or.inl rfl)
  have h4 : (Server.recv (Server.start 3232255234 3232255300 (Spec.identifier srv0) 3600 true) 1000 { type := 1, mac := Spec.num cli0.mac } true).map (·.2) =
      some [.offer 0x020000000001 3232255234] := by decide +kernel
  have h1' : Server.recv (Server.start 3232255234 3232255300 (Spec.identifier srv0) 3600 true) 1000 { type := 1, mac := Spec.num cli0.mac } true = some (t, outs) := h1
  rw [h1'] at h4
  have h5 : outs = [.offer 0x020000000001 3232255234] := Option.some.inj h4
  subst h5
  exact ⟨t, _, ps, h1', rfl, h2, h3⟩

/-! ## C116: the handshake -/

/-- **C116.** A stopped client is started; its DISCOVER goes to a server with a free address and comes back as one OFFER, for which the
client sends a REQUEST. -/
theorem discover_answered {k : Cli} {w : Srvr} {x : Trip} (hk : Spec.CliOk k) (hw : Spec.SrvrOk w) (hx : Spec.TripOk x) (hmem : x.mem = true)
    {A : Client.Op → Client.Env → Prop} (hA : ∀ op e, A op e) {c : Client.Cl} {l : Client.Spec.Log} (r : Client.Spec.Reach A k.mac k.codes c l) (hl : Client.Spec.running l = false)
    {a b d : Nat} {s : Server.Srv} (hs : Spec.Live w a b d s) (hm : Server.Spec.client (Spec.num k.mac))
    (hfree : (∃ y, Server.Spec.Holds s y ∧ y.mac = Spec.num k.mac) ∨ ∃ ip, Server.Spec.usable s ip ∧ ∀ y, Server.Spec.Holds s y → y.nip ≠ ip)
    (e1 e2 : Client.Env) (ho : e1.open2 = true) (hxid : e1.xid.length = 4) :
    ∃ c1 s1 q c2 ip l2, c.step (.start none) e1 = some (c1, [.discover e1.xid 0]) ∧
      round k w x s (.discover e1.xid 0) = some (s1, [q]) ∧ Spec.Live w a b d s1 ∧ a ≤ ip ∧ ip ≤ b ∧ Server.Spec.Holds s1 ⟨300, ip, Spec.num k.mac⟩ ∧
      c1.step (.recv q.1 q.2) e2 = some (c2, [.request e1.xid (some ip) (some (Spec.identifier w)) 0 none]) ∧
      Client.Spec.Reach A k.mac k.codes c2 l2 ∧ c2.state = .requesting ∧ c2.mode = .l2 ∧ c2.watch = true ∧ c2.xid = e1.xid ∧
      c2.requestedIp = ip ∧ c2.serverIp = Spec.identifier w := by
  have hi := Client.reach_inv r
  obtain ⟨c1, h1, h2, h3, h4, h5⟩ := start_discover (hi.idle hl) e1 ho
  have r1 : Client.Spec.Reach A k.mac k.codes c1 (l ++ [(.start none, [.discover e1.xid 0])]) :=
    .step r (fun a h => hl) (hA _ _) h1
  have hi1 := Client.reach_inv r1
  obtain ⟨t, outs, ps, g1, g2, g3, g4⟩ := answers_come_back (o := .discover e1.xid 0) hk hw hx ⟨hxid, by decide⟩ rfl rfl hs
    (by intro n h; cases h) (Or.inl rfl)
  obtain ⟨hb, hd, pre, o, hrun⟩ := hs
  have hW : b + 1 ≠ W32 := by have : W32 = 2 ^ 32 := rfl; omega
  obtain ⟨t', ip, f1, f2, f3, f4⟩ := Server.discover_offers hW hrun x.now { type := 1, mac := Spec.num k.mac } rfl (by rintro ⟨n, y, -⟩; cases y) hm hfree
  have g1 : Server.recv s x.now { type := 1, mac := Spec.num k.mac } x.mem = some (t, outs) := g1
  rw [hmem, f1] at g1
  cases g1
  cases g3 with
  | cons hc ht =>
    cases ht
    rename_i q
    obtain ⟨v1, v2, -, -⟩ := value_grant hw 2 d
    obtain ⟨c2, j1, j2, j3, j4, j5, j6⟩ := offer_step hc hi1.good h2 h3 h4 hi1.macOk h5 e2 v1 v2 (identifier_lt hw)
    have r2 := Client.Spec.Reach.step r1 (fun a h => by cases h) (hA _ _) j1
    have hx2 : c2.xid = e1.xid := by
      have hp2 := (Client.reach_inv r2).pend (Or.inr (Or.inl j2))
      rw [Client.pending_snoc] at hp2
      simp [Client.Spec.pendOut] at hp2
      exact hp2.symm
    exact ⟨c1, _, q, c2, ip, _, h1, g2, g4, f2, f3, f4, j1, r2, j2, j3, j4, hx2, j5, j6⟩

/-- **C116.** The REQUEST of the client for an address the server holds for it is answered with one ACK, and then both agree: the client is bound to the address
and reports it, the server holds it for the client; the lease time is the one announced (at least ten seconds and cut to 28 bits) and the user is told the
server's netmask, router and DNS server.  `hs`, `hh`: other clients may have been served in the meantime. -/
theorem request_granted {k : Cli} {w : Srvr} {x : Trip} (hk : Spec.CliOk k) (ha : Spec.AsksAddresses k) (hw : Spec.SrvrOk w) (hx : Spec.TripOk x)
    {A : Client.Op → Client.Env → Prop} {c : Client.Cl} {l : Client.Spec.Log} (r : Client.Spec.Reach A k.mac k.codes c l)
    (hst : c.state = .requesting ∨ c.state = .rebooting) (hmo : c.mode = .l2) (hwt : c.watch = true) {xid : List Byte} (hxc : c.xid = xid)
    (hxid : xid.length = 4) {server : Option Nat} (hserver : server = none ∨ server = some (Spec.identifier w)) {a b d : Nat} {s : Server.Srv} (hs : Spec.Live w a b d s)
    {ip : Nat} (h0 : ip ≠ 0) {ex : Int} (hh : Server.Spec.Holds s ⟨ex, ip, Spec.num k.mac⟩) (e : Client.Env) :
    ∃ s' q c', round k w x s (.request xid (some ip) server 0 none) = some (s', [q]) ∧ Spec.Live w a b d s' ∧
      c.step (.recv q.1 q.2) e = some (c', [.lease (some ip)]) ∧ c'.state = .bound ∧
      Server.Spec.Holds s' ⟨x.now + d, ip, Spec.num k.mac⟩ ∧ c'.leaseSeconds = max 10 (d % 2 ^ 28) ∧
      (∀ code ∈ k.codes, c'.vals code = Spec.told w code) ∧ c'.requestedIp = c.requestedIp ∧ c'.xid = xid ∧
      (c.state = .rebooting → c'.serverIp = Spec.identifier w) ∧ (c.state = .requesting → c'.serverIp = c.serverIp) := by
  have hs0 := hs
  obtain ⟨hb, hd, pre, o, hrun⟩ := hs
  have hW : b + 1 ≠ W32 := by have : W32 = 2 ^ 32 := rfl; omega
  have hex := (Server.table_exclusive hW hrun).2 _ hh
  have hcfg := (Server.reach hW hrun).2.2
  have hip : ip < 2 ^ 32 := by
    have h1 := hex.2.1
    have h2 : s.endIp = b := hcfg.b
    dsimp only at h1
    omega
  have hsn : s.serverNip = Spec.identifier w := hcfg.c
  obtain ⟨t, outs, ps, g1, g2, g3, g4⟩ := answers_come_back (o := .request xid (some ip) server 0 none) hk hw hx
    ⟨hxid, by intro n h; cases h; exact hip, by
      intro n h; rcases hserver with h1 | h1
      · rw [h1] at h; cases h
      · rw [h1] at h; cases h; exact identifier_lt hw, by decide, by intro n h; cases h⟩ rfl rfl hs0
    (by intro n h; cases h) hserver
  obtain ⟨n, rfl⟩ : ∃ n, ip = n + 1 := ⟨ip - 1, by omega⟩
  obtain ⟨t', f1, f2⟩ := Server.request_acked hW hrun x.now { type := 3, mac := Spec.num k.mac, serverId := server, reqIp := some (n + 1) } x.mem rfl
    (by rintro ⟨m, y1, y2⟩
        rcases hserver with h1 | h1
        · rw [h1] at y1; cases y1
        · rw [h1] at y1; cases y1; exact y2 hsn.symm) ⟨ex, n + 1, Spec.num k.mac⟩ hh rfl rfl
  have g1 : Server.recv s x.now { type := 3, mac := Spec.num k.mac, serverId := server, reqIp := some (n + 1) } x.mem = some (t, outs) := g1
  rw [f1] at g1
  cases g1
  cases g3 with
  | cons hc ht =>
    cases ht
    rename_i q
    obtain ⟨c', j1, j2, j3, j4, j5, j6, j7, j8⟩ := ack_step ha hw r (by rcases hst with h | h <;> simp [h]) hmo hwt hxc hd hc e
    exact ⟨_, q, c', g2, g4, j1, j2, f2, j3, j4, j5, j6, j7, fun h => j8 (by rw [h]; decide)⟩

/-- **C116.** Client and server, started from any states (the client stopped, the server with a free address), run through DISCOVER, OFFER, REQUEST and ACK
over the network and end with the same lease. -/
theorem lease_obtained {k : Cli} {w : Srvr} {x y : Trip} (hk : Spec.CliOk k) (ha : Spec.AsksAddresses k) (hw : Spec.SrvrOk w) (hx : Spec.TripOk x) (hy : Spec.TripOk y)
    (hmem : x.mem = true) {A : Client.Op → Client.Env → Prop} (hA : ∀ op e, A op e) {c : Client.Cl} {l : Client.Spec.Log} (r : Client.Spec.Reach A k.mac k.codes c l)
    (hl : Client.Spec.running l = false) {a b d : Nat} {s : Server.Srv} (hs : Spec.Live w a b d s) (hm : Server.Spec.client (Spec.num k.mac))
    (hfree : (∃ y, Server.Spec.Holds s y ∧ y.mac = Spec.num k.mac) ∨ ∃ ip, Server.Spec.usable s ip ∧ ∀ y, Server.Spec.Holds s y → y.nip ≠ ip)
    (e1 e2 e3 : Client.Env) (ho : e1.open2 = true) (hxid : e1.xid.length = 4) :
    ∃ c1 s1 q1 c2 req s2 q2 c3 ip, c.step (.start none) e1 = some (c1, [.discover e1.xid 0]) ∧ round k w x s (.discover e1.xid 0) = some (s1, [q1]) ∧
      c1.step (.recv q1.1 q1.2) e2 = some (c2, [req]) ∧ round k w y s1 req = some (s2, [q2]) ∧
      c2.step (.recv q2.1 q2.2) e3 = some (c3, [.lease (some ip)]) ∧ c3.state = .bound ∧ a ≤ ip ∧ ip ≤ b ∧
      Server.Spec.Holds s2 ⟨y.now + d, ip, Spec.num k.mac⟩ ∧ c3.leaseSeconds = max 10 (d % 2 ^ 28) ∧
      (∀ code ∈ k.codes, c3.vals code = Spec.told w code) ∧ c3.requestedIp = ip ∧ c3.serverIp = Spec.identifier w ∧ c3.xid = e1.xid ∧
      Spec.Live w a b d s2 ∧ ∃ l3, Client.Spec.Reach A k.mac k.codes c3 l3 := by
  obtain ⟨c1, s1, q1, c2, ip, l2, h1, h2, h3, h4, h5, h6, h7, h8, h9, h10, h11, h12, h13, h14⟩ := discover_answered hk hw hx hmem hA r hl hs hm hfree e1 e2 ho hxid
  have h0 : ip ≠ 0 := by
    obtain ⟨hb, hd, pre, o, hrun⟩ := h3
    have hW : b + 1 ≠ W32 := by have : W32 = 2 ^ 32 := rfl; omega
    exact ((Server.table_exclusive hW hrun).2 _ h6).2.2
  obtain ⟨s2, q2, c3, g1, g2, g3, g4, g5, g6, g7, g8, g9, g10, g11⟩ := request_granted hk ha hw hy h8 (Or.inl h9) h10 h11 h12 hxid (Or.inr rfl) h3 h0 h6 e3
  exact ⟨c1, s1, q1, c2, _, s2, q2, c3, ip, h1, h2, h7, g1, g3, g4, h4, h5, g5, g6, g7, by rw [g8, h13], by rw [g11 h9, h14], g9, g2, _,
    .step h8 (fun a h => by cases h) (hA _ _) g3⟩

/-- **C116.** A client that starts again with the address the server still holds for it gets it at once, with one message. -/
theorem lease_confirmed {k : Cli} {w : Srvr} {x : Trip} (hk : Spec.CliOk k) (ha : Spec.AsksAddresses k) (hw : Spec.SrvrOk w) (hx : Spec.TripOk x)
    {A : Client.Op → Client.Env → Prop} (hA : ∀ op e, A op e) {c : Client.Cl} {l : Client.Spec.Log} (r : Client.Spec.Reach A k.mac k.codes c l)
    (hl : Client.Spec.running l = false) {a b d : Nat} {s : Server.Srv} (hs : Spec.Live w a b d s) {ip : Nat} (h0 : ip ≠ 0) {ex : Int}
    (hh : Server.Spec.Holds s ⟨ex, ip, Spec.num k.mac⟩) (e1 e2 : Client.Env) (ho : e1.open2 = true) (hxid : e1.xid.length = 4) :
    ∃ c1 req s1 q c2, c.step (.start (some ip)) e1 = some (c1, [req]) ∧ round k w x s req = some (s1, [q]) ∧
      c1.step (.recv q.1 q.2) e2 = some (c2, [.lease (some ip)]) ∧ c2.state = .bound ∧ Server.Spec.Holds s1 ⟨x.now + d, ip, Spec.num k.mac⟩ ∧
      c2.leaseSeconds = max 10 (d % 2 ^ 28) ∧ (∀ code ∈ k.codes, c2.vals code = Spec.told w code) ∧ c2.requestedIp = ip ∧ c2.serverIp = Spec.identifier w := by
  have hi := Client.reach_inv r
  have hne : ip ≠ 0xffffffff := by
    obtain ⟨hb, hd, pre, o, hrun⟩ := hs
    have hW : b + 1 ≠ W32 := by have : W32 = 2 ^ 32 := rfl; omega
    have h1 := ((Server.table_exclusive hW hrun).2 _ hh).2.1
    have h2 : s.endIp = b := (Server.reach hW hrun).2.2.b
    dsimp only at h1
    omega
  obtain ⟨c1, h1, h2, h3, h4, h5, h6⟩ := start_reboot (hi.idle hl) e1 ho h0 hne
  have r1 := Client.Spec.Reach.step r (fun a h => hl) (hA _ _) h1
  obtain ⟨s1, q, c2, g1, g2, g3, g4, g5, g6, g7, g8, g9, g10, g11⟩ := request_granted hk ha hw hx r1 (Or.inr h2) h3 h4 h5 hxid (Or.inl rfl) hs h0 hh e2
  exact ⟨c1, _, s1, q, c2, h1, g1, g3, g4, g5, g6, g7, by rw [g8, h6], g10 h2⟩

/-- The two programs of the examples, from the start of the client to the lease. -/
example : ∃ c1 s1 q1 c2 req s2 q2 c3 ip, (Client.new cli0.mac cli0.codes).step (.start none) Client.env0 = some (c1, [.discover [1, 2, 3, 4] 0]) ∧
    round cli0 srv0 (trip0 1000) (Server.start 3232255234 3232255300 (Spec.identifier srv0) 3600 true) (.discover [1, 2, 3, 4] 0) = some (s1, [q1]) ∧
    c1.step (.recv q1.1 q1.2) Client.env0 = some (c2, [req]) ∧ round cli0 srv0 (trip0 1001) s1 req = some (s2, [q2]) ∧
    c2.step (.recv q2.1 q2.2) Client.env0 = some (c3, [.lease (some ip)]) ∧ c3.state = .bound ∧ 3232255234 ≤ ip ∧ ip ≤ 3232255300 ∧
    Server.Spec.Holds s2 ⟨1001 + 3600, ip, 0x020000000001⟩ ∧ c3.leaseSeconds = 3600 ∧ c3.vals 1 = some [bytes "255.255.255.0"] ∧
    c3.vals 3 = some [bytes "192.168.77.1"] ∧ c3.vals 6 = none := by
  obtain ⟨c1, s1, q1, c2, req, s2, q2, c3, ip, h1, h2, h3, h4, h5, h6, h7, h8, h9, h10, h11, -⟩ :=
    lease_obtained (x := trip0 1000) (y := trip0 1001) (A := Client.Spec.Any) cli0_ok (by unfold Spec.AsksAddresses; decide) srv0_ok (trip0_ok _) (trip0_ok _) rfl (fun _ _ => trivial) .init rfl live0
      (by unfold Server.Spec.client; decide +kernel) (Or.inr ⟨3232255234, by unfold Server.Spec.usable; decide, by rintro y ⟨id, h, -⟩; cases h⟩) Client.env0 Client.env0 Client.env0 rfl rfl
  refine ⟨c1, s1, q1, c2, req, s2, q2, c3, ip, h1, h2, h3, h4, h5, h6, h7, h8, h9, by rw [h10]; decide, ?_, ?_, ?_⟩
  · rw [h11 1 (by decide)]; decide +kernel
  · rw [h11 3 (by decide)]; decide +kernel
  · rw [h11 6 (by decide)]; decide +kernel

/-- The client of the examples, killed and started again with its address. -/
example : ∃ s ip c1 req s1 q c2, Server.Spec.Holds s ⟨4601, ip, 0x020000000001⟩ ∧ (Client.new cli0.mac cli0.codes).step (.start (some ip)) Client.env0 = some (c1, [req]) ∧
    round cli0 srv0 (trip0 2000) s req = some (s1, [q]) ∧ c1.step (.recv q.1 q.2) Client.env0 = some (c2, [.lease (some ip)]) ∧
    Server.Spec.Holds s1 ⟨5600, ip, 0x020000000001⟩ := by
  obtain ⟨c1, s1, q1, c2, req, s, q2, c, ip, -, -, -, -, -, h6, h7, h8, h9, -, -, -, -, -, h15, -⟩ :=
    lease_obtained (x := trip0 1000) (y := trip0 1001) (A := Client.Spec.Any) cli0_ok (by unfold Spec.AsksAddresses; decide) srv0_ok (trip0_ok _) (trip0_ok _) rfl (fun _ _ => trivial) .init rfl
      live0 (by unfold Server.Spec.client; decide +kernel) (Or.inr ⟨3232255234, by unfold Server.Spec.usable; decide, by rintro y ⟨id, h, -⟩; cases h⟩) Client.env0 Client.env0 Client.env0 rfl rfl
  obtain ⟨c1, req, s1, q, c2, g1, g2, g3, -, g5, -⟩ := lease_confirmed (x := trip0 2000) (A := Client.Spec.Any) cli0_ok (by unfold Spec.AsksAddresses; decide) srv0_ok (trip0_ok _)
    (fun _ _ => trivial) .init rfl h15 (by omega) h9 Client.env0 Client.env0 rfl rfl
  exact ⟨s, ip, c1, req, s1, q, c2, h9, g1, g2, g3, g5⟩

/-! ## C117: keeping the lease, giving it back -/

/-- The server identifier on a little-endian host is the address backwards, so no client reaches the server with it. -/
theorem identifier_unreachable {w : Srvr} (hw : Spec.SrvrOk w) (h : w.host = .le) (hp : w.addr.reverse ≠ w.addr) : Spec.identifier w ≠ Spec.num w.addr := by
  intro he
  apply hp
  have e1 : Spec.identifier w = Spec.num w.addr.reverse := by simp [Spec.identifier, h]
  rw [e1] at he
  have hl : w.addr.reverse.length = 4 := by rw [List.length_reverse]; exact hw.addr
  have hlt := identifier_lt hw
  rw [e1] at hlt
  have h1 := (digits_addr hl (Spec.num w.addr.reverse) hlt).mpr rfl
  have h2 := (digits_addr hw.addr (Spec.num w.addr.reverse) hlt).mpr he
  rw [← h1, h2]

/-- One timer of a client with a lease of a little-endian server. -/
theorem unrenewed_step {k : Cli} {w : Srvr} (hk : Spec.CliOk k) (hw : Spec.SrvrOk w) (hle : w.host = .le) (hp : w.addr.reverse ≠ w.addr)
    {A : Client.Op → Client.Env → Prop} {c c' : Client.Cl} {l : Client.Spec.Log} (r : Client.Spec.Reach A k.mac k.codes c l)
    (hst : c.state = .bound ∨ c.state = .renewing ∨ c.state = .rebinding) (hlive : (c.idLease, .expire) ∈ c.live) (hsrv : c.serverIp = Spec.identifier w) (hxid : c.xid.length = 4)
    {a b d : Nat} {s : Server.Srv} (hs : Spec.Live w a b d s) {ex : Int} (hh : Server.Spec.Holds s ⟨ex, c.requestedIp, Spec.num k.mac⟩)
    (hrev : Spec.reversed c.requestedIp ≠ c.requestedIp) (id : Nat) (e : Client.Env) (o : List Client.Out) (hstep : c.step (.fire id) e = some (c', o)) :
    (∃ m, o = [m] ∧ (∀ x, Spec.TripOk x → round k w x s m = some (s, [])) ∧ (c'.state = .renewing ∨ c'.state = .rebinding) ∧ (c'.idLease, .expire) ∈ c'.live ∧
      c'.requestedIp = c.requestedIp ∧ c'.serverIp = c.serverIp ∧ c'.xid = c.xid) ∨ Client.Out.lost ∈ o := by
  have hs0 := hs
  obtain ⟨hb, hd, pre, oo, hrun⟩ := hs
  rw [hle, show Spec.little .le = true from rfl] at hrun
  have hW : b + 1 ≠ W32 := by have : W32 = 2 ^ 32 := rfl; omega
  have hip : c.requestedIp < 2 ^ 32 := by
    have h1 := ((Server.table_exclusive hW hrun).2 _ hh).2.1
    have h2 : s.endIp = b := (Server.reach hW hrun).2.2.b
    dsimp only at h1
    omega
  obtain ⟨ht, -⟩ := Client.reach_step r (fun a h => by cases h) hstep
  cases ht with
  | skip w hop => rcases hop with h | ⟨_, _, h⟩ <;> cases h
  | retried h1 h2 => cases h1 with
    | discover hs => rw [hs] at hst; simp at hst
    | reboot hs => rw [hs] at hst; simp at hst
    | restart hs hl => rw [hl] at hlive; simp at hlive
  | expired => right; simp
  | asked hs => rw [hs] at hst; simp at hst
  | unanswered hs => rw [hs] at hst; simp at hst
  | renewed h1 h2 h3 h4 h5 h6 h7 h8 =>
    left
    refine ⟨_, rfl, fun x hx => ?_, Or.inl h3, h8, h5, h6, h4⟩
    refine others_unanswered (o := .request c.xid none none c.requestedIp (some c.serverIp)) hk hw hx ⟨hxid, (by intro n h; cases h), (by intro n h; cases h), hip, ?_⟩ rfl hs0 (Or.inl ?_)
    · intro n h; cases h; rw [hsrv]; exact identifier_lt hw
    · intro hr
      exact identifier_unreachable hw hle hp (hsrv ▸ hr _ rfl)
  | rebound h1 h2 h3 h4 h5 h6 h7 h8 =>
    left
    refine ⟨_, rfl, fun x hx => ?_, Or.inr h3, h8, h5, h6, h4⟩
    obtain ⟨t, outs, ps, g1, g2, g3, -⟩ := answers_come_back (o := .request c.xid none none c.requestedIp none) hk hw hx
      ⟨hxid, (by intro n h; cases h), (by intro n h; cases h), hip, (by intro n h; cases h)⟩ rfl rfl hs0 (by intro n h; cases h) (Or.inl rfl)
    have := Server.renewal_unanswered hW hrun x.now ⟨ex, c.requestedIp, Spec.num k.mac⟩ hh x.mem hrev
    have g1 : Server.recv s x.now { type := 3, mac := Spec.num k.mac, ciaddr := c.requestedIp } x.mem = some (t, outs) := g1
    rw [show Server.recv s x.now { type := 3, mac := Spec.num k.mac, ciaddr := c.requestedIp } x.mem = some (s, []) from this] at g1
    cases g1
    cases g3
    exact g2

/-- Any number of timers. -/
theorem unrenewed_run {k : Cli} {w : Srvr} (hk : Spec.CliOk k) (hw : Spec.SrvrOk w) (hle : w.host = .le) (hp : w.addr.reverse ≠ w.addr)
    {A : Client.Op → Client.Env → Prop} (hA : ∀ op e, A op e) {c c' : Client.Cl} {l : Client.Spec.Log} (r : Client.Spec.Reach A k.mac k.codes c l)
    (hst : c.state = .bound ∨ c.state = .renewing ∨ c.state = .rebinding) (hlive : (c.idLease, .expire) ∈ c.live) (hsrv : c.serverIp = Spec.identifier w) (hxid : c.xid.length = 4)
    {a b d : Nat} {s : Server.Srv} (hs : Spec.Live w a b d s) {ex : Int} (hh : Server.Spec.Holds s ⟨ex, c.requestedIp, Spec.num k.mac⟩)
    (hrev : Spec.reversed c.requestedIp ≠ c.requestedIp) (evs : List (Client.Op × Client.Env)) (hevs : ∀ ev ∈ evs, ∃ id, ev.1 = .fire id)
    (outs : List (List Client.Out)) (hrun : c.run evs = some (c', outs)) :
    Client.Out.lost ∈ outs.flatten ∨ (outs.length = evs.length ∧ ∀ o ∈ outs, ∃ m, o = [m] ∧ ∀ x, Spec.TripOk x → round k w x s m = some (s, [])) := by
  induction evs generalizing c l outs with
  | nil => cases hrun; right; exact ⟨rfl, by simp⟩
  | cons ev t ih =>
    obtain ⟨op, e⟩ := ev
    obtain ⟨id, rfl⟩ : ∃ id, op = .fire id := hevs (op, e) (by simp)
    simp only [Client.Cl.run, Option.bind_eq_bind, Option.bind_eq_some_iff, Prod.exists, Option.some.injEq, Prod.mk.injEq] at hrun
    obtain ⟨c1, o1, h1, c2, o2, h2, rfl, rfl⟩ := hrun
    rcases unrenewed_step hk hw hle hp r hst hlive hsrv hxid hs hh hrev id e o1 h1 with ⟨m, g1, g2, g3, g4, g5, g6, g7⟩ | h
    · have r1 := Client.Spec.Reach.step r (fun a h => by cases h) (hA _ _) h1
      rcases ih r1 (Or.inr g3) g4 (by rw [g6, hsrv]) (by rw [g7, hxid]) (by rw [g5]; exact hh) (by rw [g5]; exact hrev) (fun ev hev => hevs ev (by simp [hev])) o2 h2 with h | ⟨h, h'⟩
      · left; simp [h]
      · right
        refine ⟨by simp [h], ?_⟩
        intro o ho
        rcases List.mem_cons.mp ho with rfl | ho
        · exact ⟨m, g1, g2⟩
        · exact h' o ho
    · left; simp [h]

/-- **C117 fails** for a server on a little-endian host (any address that is not a palindrome): a client bound to a lease of it, when its timers fire, asks to
renew and to rebind any number of times, and the server neither answers nor prolongs the lease, until the client tells the user that the lease is lost. -/
theorem never_renewed_le {k : Cli} {w : Srvr} (hk : Spec.CliOk k) (hw : Spec.SrvrOk w) (hle : w.host = .le) (hp : w.addr.reverse ≠ w.addr)
    {A : Client.Op → Client.Env → Prop} (hA : ∀ op e, A op e) {c c' : Client.Cl} {l : Client.Spec.Log} (r : Client.Spec.Reach A k.mac k.codes c l)
    (hst : c.state = .bound) (hsrv : c.serverIp = Spec.identifier w) (hxid : c.xid.length = 4)
    {a b d : Nat} {s : Server.Srv} (hs : Spec.Live w a b d s) {ex : Int} (hh : Server.Spec.Holds s ⟨ex, c.requestedIp, Spec.num k.mac⟩)
    (hrev : Spec.reversed c.requestedIp ≠ c.requestedIp) (evs : List (Client.Op × Client.Env)) (hevs : ∀ ev ∈ evs, ∃ id, ev.1 = .fire id)
    (outs : List (List Client.Out)) (hrun : c.run evs = some (c', outs)) :
    Client.Out.lost ∈ outs.flatten ∨ (outs.length = evs.length ∧ ∀ o ∈ outs, ∃ m, o = [m] ∧ ∀ x, Spec.TripOk x → round k w x s m = some (s, [])) := by
  refine unrenewed_run hk hw hle hp hA r (Or.inl hst) ?_ hsrv hxid hs hh hrev evs hevs outs hrun
  cases (Client.reach_inv r).good.shape with
  | bound h hl => rw [hl]; simp
  | idle h => rw [hst] at h; simp at h
  | quit h => rw [hst] at h; simp at h
  | disc h => rw [hst] at h; simp at h
  | reboot h => rw [hst] at h; simp at h
  | req h => rw [hst] at h; simp at h
  | nak h => rw [hst] at h; simp at h
  | renew h => rw [hst] at h; simp at h
  | rebind h => rw [hst] at h; simp at h

/-- The client of the examples after its handshake with the little-endian server: timers in vain. -/
example : ∃ c s, c.state = .bound ∧ Server.Spec.Holds s ⟨4601, c.requestedIp, 0x020000000001⟩ ∧ ∀ evs c' outs, (∀ ev ∈ evs, ∃ id, ev.1 = .fire id) →
    Client.Cl.run c evs = some (c', outs) →
    Client.Out.lost ∈ outs.flatten ∨ (outs.length = evs.length ∧ ∀ o ∈ outs, ∃ m, o = [m] ∧ ∀ x, Spec.TripOk x → round cli0 srv0 x s m = some (s, [])) := by
  obtain ⟨c1, s1, q1, c2, req, s2, q2, c, ip, -, -, -, -, -, h6, h7, h8, h9, -, -, h12, h13, h14, h15, l, r⟩ :=
    lease_obtained (x := trip0 1000) (y := trip0 1001) (A := Client.Spec.Any) cli0_ok (by unfold Spec.AsksAddresses; decide) srv0_ok (trip0_ok _) (trip0_ok _) rfl (fun _ _ => trivial) .init rfl
      live0 (by unfold Server.Spec.client; decide +kernel) (Or.inr ⟨3232255234, by unfold Server.Spec.usable; decide, by rintro y ⟨id, h, -⟩; cases h⟩) Client.env0 Client.env0 Client.env0 rfl rfl
  have h9' : Server.Spec.Holds s2 ⟨4601, c.requestedIp, 0x020000000001⟩ := by rw [h12]; exact h9
  refine ⟨c, s2, h6, h9', fun evs c' outs hevs hrun => ?_⟩
  refine never_renewed_le cli0_ok srv0_ok rfl (by decide) (A := Client.Spec.Any) (fun _ _ => trivial) r h6 h13 (by rw [h14]; rfl) h15 h9' ?_ evs hevs outs hrun
  rw [h12]
  unfold Spec.reversed
  have e1 : ip % 256 = ip - 3232255232 := by omega
  have e2 : ip / 256 % 256 < 256 := Nat.mod_lt _ (by decide)
  have e3 : ip / 65536 % 256 < 256 := Nat.mod_lt _ (by decide)
  have e4 : ip / 16777216 % 256 < 256 := Nat.mod_lt _ (by decide)
  omega

/-- **C117 fails** likewise for giving back: the RELEASE does not reach the server, which keeps the lease. -/
theorem never_released_le {k : Cli} {w : Srvr} {x : Trip} (hk : Spec.CliOk k) (hw : Spec.SrvrOk w) (hx : Spec.TripOk x) (hle : w.host = .le) (hp : w.addr.reverse ≠ w.addr)
    {a b d : Nat} {s : Server.Srv} (hs : Spec.Live w a b d s) (ip : Nat) (hip : ip < 2 ^ 32) : round k w x s (.release ip (Spec.identifier w)) = some (s, []) :=
  others_unanswered (o := .release ip (Spec.identifier w)) hk hw hx ⟨hip, identifier_lt hw⟩ rfl hs (Or.inl (fun hr => identifier_unreachable hw hle hp (hr _ rfl)))

/-- **C117 (partial).** With a server on a big-endian host, a client that rebinds gets an ACK, is bound again, and the server holds the lease from now on for the
whole lease time.  Missing: little-endian hosts (`never_renewed_le`); the renewal before (the server would prolong the lease, but the client does not read the answer,
`Verif.Client.renewal_ignores_answers`). -/
theorem rebound_partial {k : Cli} {w : Srvr} {x : Trip} (hk : Spec.CliOk k) (ha : Spec.AsksAddresses k) (hw : Spec.SrvrOk w) (hx : Spec.TripOk x) (hbe : w.host = .be)
    {A : Client.Op → Client.Env → Prop} {c : Client.Cl} {l : Client.Spec.Log} (r : Client.Spec.Reach A k.mac k.codes c l) (hst : c.state = .rebinding)
    (hmo : c.mode = .l2) (hwt : c.watch = true) (hxid : c.xid.length = 4) {a b d : Nat} {s : Server.Srv} (hs : Spec.Live w a b d s) {ex : Int}
    (hh : Server.Spec.Holds s ⟨ex, c.requestedIp, Spec.num k.mac⟩) (e : Client.Env) :
    ∃ s' q c', round k w x s c.sendRequest = some (s', [q]) ∧ c.step (.recv q.1 q.2) e = some (c', [.lease (some c.requestedIp)]) ∧ c'.state = .bound ∧
      Server.Spec.Holds s' ⟨x.now + d, c.requestedIp, Spec.num k.mac⟩ ∧ c'.leaseSeconds = max 10 (d % 2 ^ 28) ∧ c'.requestedIp = c.requestedIp := by
  have hs0 := hs
  obtain ⟨hb, hd, pre, oo, hrun⟩ := hs
  rw [hbe, show Spec.little .be = false from rfl] at hrun
  have hW : b + 1 ≠ W32 := by have : W32 = 2 ^ 32 := rfl; omega
  have hip : c.requestedIp < 2 ^ 32 := by
    have h1 := ((Server.table_exclusive hW hrun).2 _ hh).2.1
    have h2 : s.endIp = b := (Server.reach hW hrun).2.2.b
    dsimp only at h1
    omega
  have hreq : c.sendRequest = .request c.xid none none c.requestedIp none := by simp [Client.Cl.sendRequest, hst]
  rw [hreq]
  obtain ⟨t, outs, ps, g1, g2, g3, -⟩ := answers_come_back (o := .request c.xid none none c.requestedIp none) hk hw hx
    ⟨hxid, (by intro n h; cases h), (by intro n h; cases h), hip, (by intro n h; cases h)⟩ rfl rfl hs0 (by intro n h; cases h) (Or.inl rfl)
  obtain ⟨t', f1, f2⟩ := Server.renewal_partial hW hrun x.now ⟨ex, c.requestedIp, Spec.num k.mac⟩ hh x.mem
  have g1 : Server.recv s x.now { type := 3, mac := Spec.num k.mac, ciaddr := c.requestedIp } x.mem = some (t, outs) := g1
  rw [show Server.recv s x.now { type := 3, mac := Spec.num k.mac, ciaddr := c.requestedIp } x.mem = _ from f1] at g1
  cases g1
  cases g3 with
  | cons hc ht =>
    cases ht
    rename_i q
    obtain ⟨c', j1, j2, j3, j4, j5, -, -, -⟩ := ack_step ha hw r (Or.inr (Or.inr hst)) hmo hwt rfl hd hc e
    exact ⟨_, q, c', g2, j1, j2, f2, j3, j5⟩

/-- A big-endian server 10.0.0.1 with the address 10.0.0.5. -/
def srv1 : Srvr := ⟨.be, [10, 0, 0, 1], [(1, 4294967040)]⟩
theorem srv1_ok : Spec.SrvrOk srv1 := ⟨rfl, by decide, by decide, by decide⟩
theorem live1 : Spec.Live srv1 0x0a000005 0x0a000005 7200 (Server.start 0x0a000005 0x0a000005 (Spec.identifier srv1) 7200 false) :=
  ⟨by decide, by decide, [], [], rfl⟩

/-- A client that rebinds with it. -/
example : ∃ c s s' q c', c.state = .rebinding ∧ Server.Spec.Holds s ⟨8201, 0x0a000005, 0x020000000001⟩ ∧ round cli0 srv1 (trip0 7000) s c.sendRequest = some (s', [q]) ∧
    Client.Cl.step c (.recv q.1 q.2) Client.env0 = some (c', [.lease (some 0x0a000005)]) ∧ Server.Spec.Holds s' ⟨14200, 0x0a000005, 0x020000000001⟩ := by
  obtain ⟨c1, s1, q1, c2, req, s, q2, c3, ip, -, -, -, -, -, -, h7, h8, h9, -, -, -, -, -, h15, -⟩ :=
    lease_obtained (x := trip0 1000) (y := trip0 1001) (A := Client.Spec.Any) cli0_ok (by unfold Spec.AsksAddresses; decide) srv1_ok (trip0_ok _) (trip0_ok _) rfl (fun _ _ => trivial) .init rfl
      live1 (by unfold Server.Spec.client; decide +kernel) (Or.inr ⟨0x0a000005, by unfold Server.Spec.usable; decide, by rintro y ⟨id, h, -⟩; cases h⟩) Client.env0 Client.env0 Client.env0 rfl rfl
  obtain rfl : ip = 0x0a000005 := by omega
  obtain ⟨c, outs, r, hv⟩ := Client.reached (mac := cli0.mac) (codes := cli0.codes) Client.Spec.Any (Client.handshake [10, 0, 0, 5] ++ [(.fire 3, Client.env0), (.fire 4, Client.env0)])
    (fun r => (r.1.state, r.1.mode, r.1.watch, r.1.xid, r.1.requestedIp)) (.rebinding, .l2, true, [1, 2, 3, 4], 0x0a000005) (fun _ _ => trivial) (by decide) (by decide +kernel)
  simp only [Prod.mk.injEq] at hv
  obtain ⟨v1, v2, v3, v4, v5⟩ := hv
  have hh : Server.Spec.Holds s ⟨8201, c.requestedIp, Spec.num cli0.mac⟩ := by rw [v5]; exact h9
  obtain ⟨s', q, c', g1, g2, g3, g4, -⟩ := rebound_partial (x := trip0 7000) cli0_ok (by unfold Spec.AsksAddresses; decide) srv1_ok (trip0_ok _) rfl r v1 v2 v3 (by rw [v4]; rfl) h15 hh Client.env0
  rw [v5] at g2 g4
  exact ⟨c, s, s', q, c', v1, h9, g1, g2, g4⟩

end Verif.Dora
