import Verif.Proof.DoraReply
/-!
# Helper lemmas: the client's steps in a handshake
-/
namespace Verif.Dora
open Verif.C Verif.Options

/-- A step of a reachable server. -/
theorem live_step {w : Srvr} {a b d : Nat} {s : Server.Srv} (h : Spec.Live w a b d s) (now : Int) (p : Server.Pkt) (mem : Bool) :
    s.leaseSeconds = d ∧ ∃ t outs, Server.recv s now p mem = some (t, outs) ∧ (∀ y ∈ outs, Spec.OutFits y) ∧ Spec.Live w a b d t := by
  obtain ⟨hb, hd, pre, o, hr⟩ := h
  have hW : b + 1 ≠ W32 := by have : W32 = 2 ^ 32 := rfl; omega
  obtain ⟨hi, hE, hc⟩ := Server.reach hW hr
  obtain ⟨t, outs, hs, cs⟩ := Server.recv_case hi hE now p mem
  refine ⟨hc.d, t, outs, hs, ?_, hb, hd, pre ++ [⟨now, p, mem⟩], o ++ outs, ?_⟩
  · intro y hy
    cases y with
    | offer m n =>
      have := Server.offer_sound hW hr now p mem t outs hs m n hy
      obtain ⟨-, -, -, -, hn, -⟩ := this
      exact Nat.lt_of_le_of_lt hn (by omega)
    | ack m n k =>
      have := Server.ack_sound hW hr now p mem t outs hs m n k hy
      obtain ⟨-, -, -, -, -, hn, hk, -⟩ := this
      exact ⟨Nat.lt_of_le_of_lt hn (by omega), by omega⟩
    | nak m => trivial
    | inform m => trivial
    | event m n => trivial
  · clear hi hE hc cs
    revert hr
    generalize Server.start _ _ _ _ _ = q
    intro hr
    induction pre generalizing q o with
    | nil => cases hr; simp [Server.run, hs]
    | cons e t ih =>
      simp only [Server.run, Option.bind_eq_bind, Option.bind_eq_some_iff, Prod.exists, Option.some.injEq, Prod.mk.injEq] at hr
      obtain ⟨x1, x2, h1, y1, y2, h2, rfl, rfl⟩ := hr
      have := ih _ _ h2
      simp only [List.cons_append, Server.run, h1, this, Option.bind_eq_bind, Option.bind_some, List.append_assoc]

/-! ### The client -/

theorem start_discover {c : Client.Cl} (hi : Client.IsIdle c) (e : Client.Env) (ho : e.open2 = true) :
    ∃ c', c.step (.start none) e = some (c', [.discover e.xid 0]) ∧ c'.state = .initSelecting ∧ c'.mode = .l2 ∧ c'.watch = true ∧
      c'.xid = e.xid := by
  have key : (c.start none e).2 = [.discover e.xid 0] ∧ (c.start none e).1.state = .initSelecting ∧ (c.start none e).1.mode = .l2 ∧
      (c.start none e).1.watch = true ∧ (c.start none e).1.xid = e.xid := by
    unfold Client.Cl.start
    rw [if_neg (by rw [hi.retry]; decide)]
    simp only [hi.retry, if_true, Client.Cl.switch, hi.mode, ho]
    simp [Client.Cl.add]
  obtain ⟨k1, k2⟩ := key
  exact ⟨_, by show some (c.start none e) = _; rw [← k1], k2⟩

theorem start_reboot {c : Client.Cl} (hi : Client.IsIdle c) (e : Client.Env) (ho : e.open2 = true) {a : Nat} (h0 : a ≠ 0) (h1 : a ≠ 0xffffffff) :
    ∃ c', c.step (.start (some a)) e = some (c', [.request e.xid (some a) none 0 none]) ∧ c'.state = .rebooting ∧ c'.mode = .l2 ∧
      c'.watch = true ∧ c'.xid = e.xid ∧ c'.requestedIp = a := by
  have key : (c.start (some a) e).2 = [.request e.xid (some a) none 0 none] ∧ (c.start (some a) e).1.state = .rebooting ∧
      (c.start (some a) e).1.mode = .l2 ∧ (c.start (some a) e).1.watch = true ∧ (c.start (some a) e).1.xid = e.xid ∧
      (c.start (some a) e).1.requestedIp = a := by
    unfold Client.Cl.start
    rw [if_neg (by rw [hi.retry]; decide)]
    simp only [hi.retry, if_true, Client.Cl.switch, hi.mode, ho, if_neg h1]
    simp [Client.Cl.add, Client.Cl.sendRequest, h0]
  obtain ⟨k1, k2⟩ := key
  exact ⟨_, by show some (c.start (some a) e) = _; rw [← k1], k2⟩

/-- An answer as the client finds its parts. -/
theorem carries_parts {mac xid : List Byte} {q : List Byte × Int} {r : Spec.Reply} (h : Spec.Carries mac xid q r) {c : Client.Cl}
    (hm : c.mac = mac) (hx : c.xid = xid) (host : Wire.Host) {type : Byte} {srv : Nat}
    (ht : Options.Spec.value 53 r.items = some [type]) (hs : Options.Spec.value 54 r.items = some (Options.Spec.digits 4 srv)) (hl : srv < 2 ^ 32) :
    c.owner q.1 = true ∧ (∃ i, getOption q.1 548 0x35 2000 = .ptr i ∧ q.1[i]? = some type) ∧
      Client.ptrBe32 host q.1 (getOption q.1 548 0x36 2000) = some srv ∧ Wire.getBe host 4 q.1 16 = some r.addr := by
  have hall : Options.Spec.all r.items [] [] = r.items := by simp [Options.Spec.all]
  have hlen := h.layout.size
  refine ⟨Client.mine_owner hlen (by rw [hm, hx]; exact h.mine), ?_, ?_, ?_⟩
  · have hg := getOption_first_occurrence q.1 548 r.items [] [] h.layout 53 2000 (by decide)
    rw [hall, ht] at hg
    obtain ⟨i, h1, -, h3, -, h5⟩ := hg
    refine ⟨i, h1, ?_⟩
    have : (q.1.drop i)[0]? = some type := by
      have h6 : ((q.1.drop i).take 1)[0]? = some type := by
        have : (q.1.drop i).take 1 = [type] := h5
        rw [this]; rfl
      rwa [List.getElem?_take_of_lt (by decide)] at h6
    simpa using this
  · have hg := getOption_first_occurrence q.1 548 r.items [] [] h.layout 54 2000 (by decide)
    rw [hall, hs] at hg
    obtain ⟨i, h1, -, h3, -, h5⟩ := hg
    rw [digits_length] at h3 h5
    rw [show getOption q.1 548 0x36 2000 = .ptr i from h1]
    show Wire.getBe host 4 q.1 i = some srv
    rw [Wire.getBe_eq, rd_some (by omega), h5, Option.map_some, num_eq, num_digits srv hl]
  · rw [Wire.getBe_eq, rd_some (by omega), Option.map_some, num_eq]
    exact congrArg some h.addr

theorem offer_step {mac xid : List Byte} {q : List Byte × Int} {r : Spec.Reply} (h : Spec.Carries mac xid q r) {c : Client.Cl}
    (hg : Client.Good c) (hst : c.state = .initSelecting) (hmo : c.mode = .l2) (hw : c.watch = true)
    (hm : c.mac = mac) (hx : c.xid = xid) (e : Client.Env) {srv : Nat}
    (ht : Options.Spec.value 53 r.items = some [2]) (hs : Options.Spec.value 54 r.items = some (Options.Spec.digits 4 srv)) (hl : srv < 2 ^ 32) :
    ∃ c', c.step (.recv q.1 q.2) e = some (c', [.request xid (some r.addr) (some srv) 0 none]) ∧ c'.state = .requesting ∧
      c'.mode = .l2 ∧ c'.watch = true ∧ c'.requestedIp = r.addr ∧ c'.serverIp = srv := by
  obtain ⟨h1, ⟨i, h2, h3⟩, h4, h5⟩ := carries_parts h hm hx e.host ht hs hl
  have hr : c.recv q.1 q.2 e = some (({ c with live := [], idTimeout := 0, idT1 := 0, idT2 := 0, idLease := 0, retry := 0, serverIp := srv, requestedIp := r.addr, state := .requesting } : Client.Cl).startRequest e) := by
    unfold Client.Cl.recv
    rw [h.len, if_neg (by rw [hmo]; simp), if_pos hmo]
    simp only [show ((548 : Int) % 65536).toNat = 548 from rfl]
    rw [if_neg (by decide), if_neg (by rw [h1]; simp), h2]
    simp only [h3, hst, Option.bind_eq_bind, Option.bind_some, h4, h5]
    rw [if_neg (by decide), Client.removeTimeouts_cover c hg.shape.cover]
  simp only [Client.Cl.step, hw, if_true, hr]
  refine ⟨_, congrArg some (Prod.ext rfl ?_), ?_⟩
  · unfold Client.Cl.startRequest
    simp [Client.Cl.switch, hmo, Client.Cl.sendRequest, hx]
  · unfold Client.Cl.startRequest
    simp [Client.Cl.switch, hmo, Client.Cl.add, hw]

theorem onAck_server {c c' : Client.Cl} {pkt : List Byte} {plen : Nat} {e : Client.Env} {o : List Client.Out} (hg : Client.Good c)
    (h : c.onAck pkt plen e = some (c', o)) : (c.state ≠ .rebooting → c'.serverIp = c.serverIp) ∧
      (c.state = .rebooting → Client.ptrBe32 e.host pkt (getOption pkt plen 0x36 2000) = some c'.serverIp) := by
  obtain ⟨hsh, hi, hw⟩ := hg
  unfold Client.Cl.onAck at h
  rw [Client.removeTimeouts_cover _ (show Client.Cover ({ c with retry := 0 } : Client.Cl) from hsh.cover)] at h
  simp only [Option.bind_eq_bind, Option.bind_eq_some_iff] at h
  obtain ⟨s, hs, v, hv, a, ha, h⟩ := h
  rw [Client.switch_none _ (by exact hw)] at h
  dsimp only at h
  have keep : ∀ d : Client.Cl, d.live = [] → d.idTimeout = 0 → d.idT1 = 0 → d.idT2 = 0 → d.idLease = 0 → d.startBound.serverIp = d.serverIp := by
    intro d h1 h2 h3 h4 h5
    unfold Client.Cl.startBound Client.Cl.removeTimeouts Client.Cl.drop
    simp [h2, h3, h4, h5, Client.Cl.add]
  split at h
  · rename_i hreb
    simp only [Option.bind_eq_some_iff] at h
    obtain ⟨srv, hsrv, x, hx, h⟩ := h
    cases hx
    cases h
    exact ⟨fun hn => absurd hreb hn, fun _ => by rw [keep _ rfl rfl rfl rfl rfl]; exact hsrv⟩
  · rename_i hreb
    simp only [Option.bind_some] at h
    cases h
    exact ⟨fun _ => keep _ rfl rfl rfl rfl rfl, fun hn => absurd hn hreb⟩

theorem value_opts (opts : List (Nat × Nat)) (hc : ∀ o ∈ opts, o.1 ∈ [1, 3, 6]) (code : Nat) :
    Options.Spec.value code (opts.map (fun o => Spec.word o.1.toUInt8 o.2)) = (opts.find? (·.1 = code)).map (fun o => Options.Spec.digits 4 o.2) := by
  induction opts with
  | nil => rfl
  | cons x t ih =>
    have h1 : x.1.toUInt8.toNat = x.1 := by
      have := hc x (by simp)
      simp only [List.mem_cons, List.not_mem_nil, or_false] at this
      rcases this with h | h | h <;> rw [h] <;> rfl
    simp only [List.map_cons, Spec.word, Options.Spec.value, h1, List.find?_cons]
    by_cases hx : x.1 = code
    · simp [hx]
    · simp only [if_neg hx, hx, decide_false]
      exact ih (fun o ho => hc o (by simp [ho]))

theorem value_grant {w : Srvr} (hw : Spec.SrvrOk w) (type : Byte) (seconds : Nat) :
    Options.Spec.value 53 (Spec.grantItems w type seconds) = some [type] ∧
    Options.Spec.value 54 (Spec.grantItems w type seconds) = some (Options.Spec.digits 4 (Spec.identifier w)) ∧
    Options.Spec.value 51 (Spec.grantItems w type seconds) = some (Options.Spec.digits 4 seconds) ∧
    ∀ code ∈ [1, 3, 6, 42, 50], Options.Spec.value code (Spec.grantItems w type seconds) =
      (w.opts.find? (·.1 = code)).map (fun o => Options.Spec.digits 4 o.2) := by
  refine ⟨by simp [Spec.grantItems, Options.Spec.value], by simp [Spec.grantItems, Options.Spec.value, Spec.word],
    by simp [Spec.grantItems, Options.Spec.value, Spec.word], ?_⟩
  intro code hcode
  have hne : code ≠ 53 ∧ code ≠ 54 ∧ code ≠ 51 := by
    simp only [List.mem_cons, List.not_mem_nil, or_false] at hcode
    omega
  rw [← value_opts w.opts hw.codes code]
  have h1 : (53 : Byte).toNat ≠ code := fun e => hne.1 e.symm
  have h2 : (54 : Byte).toNat ≠ code := fun e => hne.2.1 e.symm
  have h3 : (51 : Byte).toNat ≠ code := fun e => hne.2.2 e.symm
  simp only [Spec.grantItems, Options.Spec.value, Spec.word, if_neg h1, if_neg h2, if_neg h3]

theorem identifier_lt {w : Srvr} (hw : Spec.SrvrOk w) : Spec.identifier w < 2 ^ 32 := nip_eq w ▸ native_lt hw.addr

theorem grant_proper {k : Cli} (hk : Spec.AsksAddresses k) {w : Srvr} (hw : Spec.SrvrOk w) {mac xid : List Byte} {q : List Byte × Int} {a : Nat}
    {type : Byte} {seconds : Nat} (h : Spec.Carries mac xid q ⟨a, Spec.grantItems w type seconds⟩) :
    Client.Spec.Proper k.codes q.1 q.2 (Spec.grantItems w type seconds) [] [] := by
  have hall : Options.Spec.all (Spec.grantItems w type seconds) [] [] = Spec.grantItems w type seconds := by simp [Options.Spec.all]
  obtain ⟨v1, v2, v3, v4⟩ := value_grant hw type seconds
  refine { layout := ?_, type := ?_, server := ?_, time := ?_, asked := ?_, lists := ?_ }
  · rw [show Client.Spec.len q.2 = 548 by rw [h.len]; rfl]; exact h.layout
  · intro d hd; rw [hall, v1] at hd; cases hd; simp
  · exact ⟨_, by rw [hall, v2], by rw [digits_length]; decide⟩
  · intro d hd; rw [hall, v3] at hd; cases hd; exact digits_length _ _
  · exact hk
  · intro c hc d hd
    rw [hall, v4 c (hk c hc)] at hd
    obtain ⟨o, -, rfl⟩ := Option.map_eq_some_iff.mp hd
    refine ⟨fun h0 => ?_, by rw [digits_length]⟩
    have := digits_length 4 o.2
    rw [h0] at this; cases this

theorem digits_quad (v : Nat) : Options.Spec.digits 4 v = OptValue.Spec.addrBytes [Spec.quad v] := by
  simp only [Options.Spec.digits, OptValue.Spec.addrBytes, Spec.quad, List.flatMap_cons, List.flatMap_nil, List.append_nil, List.nil_append, List.cons_append,
    Nat.div_div_eq_div_mul]
  have h : ∀ n : Nat, (n % 256).toUInt8 = n.toUInt8 := fun n => by apply UInt8.toNat_inj.mp; simp
  rw [h, h, h, h]

/-- The client takes the server's ACK. -/
theorem ack_step {k : Cli} (hk : Spec.AsksAddresses k) {w : Srvr} (hw : Spec.SrvrOk w) {A : Client.Op → Client.Env → Prop} {c : Client.Cl} {l : Client.Spec.Log}
    (r : Client.Spec.Reach A k.mac k.codes c l) (hs : c.state = .rebooting ∨ c.state = .requesting ∨ c.state = .rebinding)
    (hm : c.mode = .l2) (hwt : c.watch = true) {xid : List Byte} (hx : c.xid = xid) {q : List Byte × Int} {a seconds : Nat} (hsec : seconds < 2 ^ 32)
    (h : Spec.Carries k.mac xid q ⟨a, Spec.grantItems w 5 seconds⟩) (e : Client.Env) :
    ∃ c', c.step (.recv q.1 q.2) e = some (c', [.lease (some a)]) ∧ c'.state = .bound ∧ c'.leaseSeconds = max 10 (seconds % 2 ^ 28) ∧
      (∀ code ∈ k.codes, c'.vals code = Spec.told w code) ∧ c'.requestedIp = c.requestedIp ∧ c'.xid = xid ∧
      (c.state = .rebooting → c'.serverIp = Spec.identifier w) ∧ (c.state ≠ .rebooting → c'.serverIp = c.serverIp) := by
  have hi := Client.reach_inv r
  have hall : Options.Spec.all (Spec.grantItems w 5 seconds) [] [] = Spec.grantItems w 5 seconds := by simp [Options.Spec.all]
  have hP := grant_proper hk hw h
  obtain ⟨v1, v2, v3, v4⟩ := value_grant hw 5 seconds
  obtain ⟨c', h1, h2, h3, -, -, -, -, h8⟩ := Client.ack_accepted_partial r hs hm hwt q.1 q.2 (Spec.grantItems w 5 seconds) [] [] hP (by rw [h.len]; decide) xid
    (by rw [hi.pend (by rcases hs with h | h | h <;> simp [h]), hx]) h.mine (by rw [hall, v1]; rfl) e
  obtain ⟨p1, ⟨i, p2, p3⟩, p4, p5⟩ := carries_parts h hi.macOk hx e.host v1 v2 (identifier_lt hw)
  have hstep : c.step (.recv q.1 q.2) e = c.onAck q.1 548 e := by
    simp only [Client.Cl.step, hwt, if_true]
    unfold Client.Cl.recv
    rw [if_neg (by rw [hm]; simp), if_pos hm, h.len, if_neg (by decide), if_neg (by rw [p1]; simp)]
    simp only [show ((548 : Int) % 65536).toNat = 548 from rfl]
    rw [p2]
    simp only [p3, Option.bind_eq_bind, Option.bind_some]
    rcases hs with h | h | h <;> rw [h] <;> simp
  have hon : c.onAck q.1 548 e = some (c', [.lease (some (Client.Spec.yiaddr q.1))]) := by rw [← hstep]; exact h1
  obtain ⟨s1, s2⟩ := onAck_server hi.good hon
  obtain ⟨a', -, -, -, -, -, -, y1, y2, -⟩ := Client.ack_case hi.good hon
  refine ⟨c', by rw [h1, h.addr], h2, ?_, ?_, y2, by rw [y1, hx], ?_, s1⟩
  · rw [hall] at h3
    rcases h3 with ⟨g, -⟩ | ⟨d, g1, g2, g3⟩
    · rw [v3] at g; cases g
    · rw [v3] at g1; cases g1
      rw [g3, num_digits seconds hsec]
  · intro code hc
    obtain ⟨g1, g2⟩ := h8 code hc
    rw [hall, v4 code (hk code hc)] at g1 g2
    unfold Spec.told
    cases hf : w.opts.find? (·.1 = code) with
    | none => rw [hf] at g1; exact g1 rfl
    | some o =>
      rw [hf] at g2
      exact g2 [Spec.quad o.2] (by rw [Option.map_some, digits_quad])
  · intro hreb
    have := s2 hreb
    rw [p4] at this
    exact (Option.some.inj this).symm

end Verif.Dora
