import Verif.Proof.Dora
/-!
# Helper lemmas: the client's messages and how the server reads them
-/
namespace Verif.Dora
open Verif.C Verif.Options

/-- What the client sends, by content. -/
structure Msg (k : Cli) (v : Env) where
  type : Byte
  xid : List Byte
  secs : List Byte
  ci : Nat
  opts : List Options.Spec.Item

/-- The header of a client's packet. -/
def cliHdr (mac xid secs flags ci : List Byte) : Hdr := { op := 1, xid := xid, secs := secs, flags := flags, ci := ci, mac := mac }

theorem cliHdr_ok {mac xid secs flags ci : List Byte} (h1 : mac.length = 6) (h2 : xid.length = 4) (h3 : secs.length = 2)
    (h4 : flags.length = 2) (h5 : ci.length = 4) : (cliHdr mac xid secs flags ci).Ok :=
  { xid := h2, secs := h3, flags := h4, ci := h5, mac := h1 }

theorem initPacket_built {k : Cli} {v : Env} (hk : Spec.CliOk k) (hv : Spec.EnvOk v) {type : Byte}
    (ht : type ≠ 2 ∧ type ≠ 5 ∧ type ≠ 6) :
    ∃ p, initPacket k v type = some p ∧ Built (cliHdr k.mac [0, 0, 0, 0] [0, 0] [0, 0] [0, 0, 0, 0]).bytes [.opt 53 [type]] p := by
  obtain ⟨p0, e0, b0⟩ := initHeader_built k.host v.junk hv.junk type
  rw [header_eq, if_neg (by rintro (h | h | h) <;> simp [h] at ht)] at b0
  obtain ⟨p1, e1, b1⟩ := b0.head (fun T => set_mac (T := T) {} hk.mac)
  exact ⟨p1, by simp only [initPacket, e0, Option.bind_eq_bind, Option.bind_some]; exact e1, b1⟩

theorem digits_len (w v : Nat) : (Options.Spec.digits w v).length = w := digits_length w v

theorem addIf_built {H p junk : List Byte} {is : List Options.Spec.Item} (b : Built H is p) (hH : H.length = 240) (hj : junk.length = 6)
    (h : Wire.Host) {code v : Nat} (c : Bool) (ht : code = 0x32 ∨ code = 0x36) (hv : c = true → v < 2 ^ 32)
    (hr : (Options.Spec.enc is).length ≤ 40) :
    ∃ p', addIf c h junk p code v = some p' ∧
      Built H (is ++ if c then [.opt code.toUInt8 (Options.Spec.digits 4 v)] else []) p' := by
  unfold addIf
  cases c with
  | false => exact ⟨p, rfl, by simpa using b⟩
  | true =>
    exact b.uint hH hj h (by rcases ht with rfl | rfl <;> decide) (by simp) (hv rfl) (by rcases ht with rfl | rfl <;> decide) (by omega)

/-- The options of a DISCOVER or REQUEST before those of the user. -/
def baseItems (type : Byte) (addr server : Option Nat) : List Options.Spec.Item :=
  [.opt 53 [type]] ++ (if addr.isSome then [.opt 50 (Options.Spec.digits 4 (addr.getD 0))] else []) ++
    (if server.isSome then [.opt 54 (Options.Spec.digits 4 (server.getD 0))] else []) ++ [.opt 57 (Options.Spec.digits 2 576)]

theorem baseItems_length (type : Byte) (addr server : Option Nat) : (Options.Spec.enc (baseItems type addr server)).length ≤ 40 := by
  unfold baseItems
  cases addr <;> cases server <;>
    simp [Options.Spec.enc, Options.Spec.Item.bytes, digits_length]

theorem value_asks (code : Nat) (codes : List Nat) (h : code ≠ 55) : Options.Spec.value code (asks codes) = none := by
  unfold asks
  split
  · rfl
  · simp [Options.Spec.value]; omega

/-- All options of a DISCOVER or REQUEST. -/
def cliItems (k : Cli) (type : Byte) (addr server : Option Nat) : List Options.Spec.Item :=
  addAll (baseItems type addr server ++ asks k.codes) k.sends

theorem value_cli {k : Cli} (hk : Spec.CliOk k) (type : Byte) (addr server : Option Nat) :
    Options.Spec.value 53 (cliItems k type addr server) = some [type] ∧
    Options.Spec.value 50 (cliItems k type addr server) = addr.map (Options.Spec.digits 4) ∧
    Options.Spec.value 54 (cliItems k type addr server) = server.map (Options.Spec.digits 4) := by
  have ne : ∀ c : Byte, c ≠ 50 ∧ c ≠ 53 ∧ c ≠ 54 → c.toNat ≠ 50 ∧ c.toNat ≠ 53 ∧ c.toNat ≠ 54 := by
    intro c ⟨h1, h2, h3⟩
    exact ⟨fun e => h1 (UInt8.toNat_inj.mp e), fun e => h2 (UInt8.toNat_inj.mp e), fun e => h3 (UInt8.toNat_inj.mp e)⟩
  have hs : ∀ b ∈ k.sends, b.1.toNat ≠ 50 ∧ b.1.toNat ≠ 53 ∧ b.1.toNat ≠ 54 := by
    intro b hb
    obtain ⟨-, -, -, h1, h2, h3, -⟩ := hk.sends b hb
    exact ne _ ⟨h1, h2, h3⟩
  unfold cliItems
  rw [value_addAll (fun b hb => (hs b hb).2.1), value_addAll (fun b hb => (hs b hb).1), value_addAll (fun b hb => (hs b hb).2.2),
    value_append, value_append, value_append, value_asks _ _ (by decide), value_asks _ _ (by decide), value_asks _ _ (by decide),
    Option.or_none, Option.or_none, Option.or_none]
  unfold baseItems
  cases addr <;> cases server <;> simp [Options.Spec.value]

theorem message_built {k : Cli} {v : Env} (hk : Spec.CliOk k) (hv : Spec.EnvOk v) {type : Byte} (ht : type ≠ 2 ∧ type ≠ 5 ∧ type ≠ 6)
    {xid : List Byte} (hx : xid.length = 4) (addr server : Option Nat)
    (ha : ∀ n, addr = some n → n < 2 ^ 32) (hs : ∀ n, server = some n → n < 2 ^ 32) :
    ∃ p0 p1 p2 p3 p4 p5 p6 p7, initPacket k v type = some p0 ∧ wr p0 4 xid = some p1 ∧ wr p1 8 v.secs = some p2 ∧
      addIf addr.isSome k.host v.junk p2 0x32 (addr.getD 0) = some p3 ∧
      addIf server.isSome k.host v.junk p3 0x36 (server.getD 0) = some p4 ∧
      addUint k.host v.junk p4 2 0x39 576 = some p5 ∧ addRequestOptions p5 k.codes = some p6 ∧
      addSendOptions p6 k.sends = some p7 ∧
      Built (cliHdr k.mac xid v.secs [0, 0] [0, 0, 0, 0]).bytes (cliItems k type addr server) p7 := by
  obtain ⟨p0, e0, b0⟩ := initPacket_built hk hv ht
  have ok0 : (cliHdr k.mac [0, 0, 0, 0] [0, 0] [0, 0] [0, 0, 0, 0]).Ok := cliHdr_ok hk.mac rfl rfl rfl rfl
  have ok1 : (cliHdr k.mac xid [0, 0] [0, 0] [0, 0, 0, 0]).Ok := cliHdr_ok hk.mac hx rfl rfl rfl
  have ok2 : (cliHdr k.mac xid v.secs [0, 0] [0, 0, 0, 0]).Ok := cliHdr_ok hk.mac hx hv.secs rfl rfl
  obtain ⟨p1, e1, b1⟩ := b0.head (fun T => set_xid (T := T) ok0 hx)
  obtain ⟨p2, e2, b2⟩ := Built.head (H' := (cliHdr k.mac xid v.secs [0, 0] [0, 0, 0, 0]).bytes) b1 (fun T => set_secs (T := T) ok1 hv.secs)
  obtain ⟨p3, e3, b3⟩ := addIf_built b2 (Hdr.length ok2) hv.junk k.host (code := 0x32) (v := addr.getD 0) addr.isSome (Or.inl rfl)
    (by cases addr with | none => simp | some n => intro _; exact ha n rfl) (by simp [Options.Spec.enc, Options.Spec.Item.bytes])
  obtain ⟨p4, e4, b4⟩ := addIf_built b3 (Hdr.length ok2) hv.junk k.host (code := 0x36) (v := server.getD 0) server.isSome (Or.inr rfl)
    (by cases server with | none => simp | some n => intro _; exact hs n rfl)
    (by cases addr <;> simp [Options.Spec.enc, Options.Spec.Item.bytes, digits_length])
  obtain ⟨p5, e5, b5⟩ := b4.uint (Hdr.length ok2) hv.junk k.host (w := 2) (code := 0x39) (v := 576) (by decide) (by simp) (by decide) (by decide)
    (by cases addr <;> cases server <;> simp [Options.Spec.enc, Options.Spec.Item.bytes, digits_length])
  obtain ⟨p6, e6, b6⟩ := Built.asks (is := baseItems type addr server) b5 (Hdr.length ok2) hk.codes (baseItems_length _ _ _)
  obtain ⟨p7, e7, b7⟩ := b6.sends (Hdr.length ok2) (sends := k.sends) (fun b hb => by
    obtain ⟨h0, h1, h2, -, -, -, h3⟩ := hk.sends b hb
    exact ⟨h0, h1, h2, h3⟩)
  exact ⟨p0, p1, p2, p3, p4, p5, p6, p7, e0, e1, e2, e3, e4, e5, e6, e7, b7⟩

theorem discover_built {k : Cli} {v : Env} (hk : Spec.CliOk k) (hv : Spec.EnvOk v) {xid : List Byte} (hx : xid.length = 4)
    {a : Nat} (ha : a < 2 ^ 32) :
    ∃ p, discover k v xid a = some p ∧ Built (cliHdr k.mac xid v.secs [0, 0] [0, 0, 0, 0]).bytes
      (cliItems k 1 (if a = 0 then none else some a) none) p := by
  obtain ⟨p0, p1, p2, p3, p4, p5, p6, p7, e0, e1, e2, e3, e4, e5, e6, e7, b⟩ :=
    message_built hk hv (type := 1) (by decide) hx (if a = 0 then none else some a) none
      (by intro n; split <;> intro h <;> cases h; exact ha) (by intro n h; cases h)
  refine ⟨p7, ?_, b⟩
  have e4 : p3 = p4 := by simpa [addIf] using e4
  subst e4
  have e3 : addIf (a != 0) k.host v.junk p2 0x32 a = some p3 := by
    rw [← e3]
    by_cases h : a = 0
    · subst h; rfl
    · have : (a != 0) = true := bne_iff_ne.mpr h
      rw [if_neg h, this]; rfl
  simp only [discover, e0, e1, e2, e3, e5, e6, Option.bind_eq_bind, Option.bind_some]
  exact e7

theorem request_built' {k : Cli} {v : Env} (hk : Spec.CliOk k) (hv : Spec.EnvOk v) {xid : List Byte} (hx : xid.length = 4)
    {addr server : Option Nat} (ha : ∀ n, addr = some n → n < 2 ^ 32) (hs : ∀ n, server = some n → n < 2 ^ 32) (ci : Nat) :
    ∃ p, request k v xid addr server ci = some p ∧ Built (cliHdr k.mac xid v.secs [0, 0] (Options.Spec.digits 4 ci)).bytes
      (cliItems k 3 addr server) p := by
  obtain ⟨p0, p1, p2, p3, p4, p5, p6, p7, e0, e1, e2, e3, e4, e5, e6, e7, b⟩ :=
    message_built hk hv (type := 3) (by decide) hx addr server ha hs
  have ok : (cliHdr k.mac xid v.secs [0, 0] [0, 0, 0, 0]).Ok := cliHdr_ok hk.mac hx hv.secs rfl rfl
  obtain ⟨p8, e8, b8⟩ := b.head (fun T => set_ci (T := T) ok (digits_length 4 ci))
  refine ⟨p8, ?_, b8⟩
  simp only [request, e0, e1, e2, e3, e4, e5, e6, e7, Option.bind_eq_bind, Option.bind_some, putAddr, Wire.putUnaligned, layout_htonl]
  exact e8

theorem release_built {k : Cli} {v : Env} (hk : Spec.CliOk k) (hv : Spec.EnvOk v) (ci : Nat) {server : Nat} (hs : server < 2 ^ 32) :
    ∃ p, release k v ci server = some p ∧ Built (cliHdr k.mac v.rand [0, 0] [0, 0] (Options.Spec.digits 4 ci)).bytes
      [.opt 53 [7], .opt 54 (Options.Spec.digits 4 server)] p := by
  obtain ⟨p0, e0, b0⟩ := initPacket_built hk hv (type := 7) (by decide)
  have ok0 : (cliHdr k.mac [0, 0, 0, 0] [0, 0] [0, 0] [0, 0, 0, 0]).Ok := cliHdr_ok hk.mac rfl rfl rfl rfl
  have ok1 : (cliHdr k.mac v.rand [0, 0] [0, 0] [0, 0, 0, 0]).Ok := cliHdr_ok hk.mac hv.rand rfl rfl rfl
  have ok2 : (cliHdr k.mac v.rand [0, 0] [0, 0] (Options.Spec.digits 4 ci)).Ok := cliHdr_ok hk.mac hv.rand rfl rfl (digits_length 4 ci)
  obtain ⟨p1, e1, b1⟩ := b0.head (fun T => set_xid (T := T) ok0 hv.rand)
  obtain ⟨p2, e2, b2⟩ := Built.head (H' := (cliHdr k.mac v.rand [0, 0] [0, 0] (Options.Spec.digits 4 ci)).bytes) b1
    (fun T => set_ci (T := T) ok1 (digits_length 4 ci))
  obtain ⟨p3, e3, b3⟩ := b2.uint (Hdr.length ok2) hv.junk k.host (w := 4) (code := 0x36) (v := server) (by decide) (by simp) hs (by decide)
    (by simp [Options.Spec.enc, Options.Spec.Item.bytes])
  refine ⟨p3, ?_, b3⟩
  simp only [release, e0, e1, Option.bind_eq_bind, Option.bind_some, putAddr, Wire.putUnaligned, layout_htonl]
  rw [e2]
  exact e3

/-! ### Transport -/

/-- A frame for port 67 is accepted by a kernel, which gets out the 548 bytes. -/
theorem sendRaw_udp (h : Wire.Host) (dhcp saddr daddr : List Byte) (sport dport : Nat) (hd : dhcp.length = 628) (hs : saddr.length = 4)
    (hda : daddr.length = 4) (hsp : sport < 65536) (hdp : dport < 65536) :
    ∃ frame, Wire.sendRaw h dhcp saddr daddr sport dport = some frame ∧ frame.length = 576 ∧
      (frame.drop 12).take 4 = saddr ∧ (frame.drop 16).take 4 = daddr ∧
      udpInput frame dport = some ((Wire.withBroadcast dhcp).take 548) := by
  have hev := Wire.sendRaw_eval h dhcp saddr daddr sport dport hd hs hda hsp hdp
  have hlt : ∀ l, Wire.Spec.inetChecksum l < 65536 := fun l => by unfold Wire.Spec.inetChecksum; omega
  have hwl := Wire.withBroadcast_length dhcp
  generalize hD : Wire.withBroadcast dhcp = D at *
  obtain ⟨s0, s1, s2, s3, rfl⟩ := Wire.cons4 saddr hs
  obtain ⟨d0, d1, d2, d3, rfl⟩ := Wire.cons4 daddr hda
  simp only at hev
  generalize hc1 : Wire.Spec.inetChecksum ([0, 0, 2, 44, 0, 0, 0, 0, 0, 17, 0, 0] ++ [s0, s1, s2, s3] ++ [d0, d1, d2, d3] ++
      [Wire.hi sport, Wire.lo sport, Wire.hi dport, Wire.lo dport, 2, 44, 0, 0] ++ D.take 548) = c1 at hev
  generalize hc2 : Wire.Spec.inetChecksum ([0x45, 0, 2, 64, 0, 0, 0, 0, 64, 17, 0, 0] ++ [s0, s1, s2, s3] ++ [d0, d1, d2, d3]) = c2 at hev
  have h1 : c1 < 65536 := hc1 ▸ hlt _
  have h2 : c2 < 65536 := hc2 ▸ hlt _
  refine ⟨_, hev, by simp; omega, by simp, by simp, ?_⟩
  unfold udpInput
  have htot : Wire.Spec.beVal ((([0x45, 0, 2, 64, 0, 0, 0, 0, 64, 17, Wire.hi c2, Wire.lo c2] ++ [s0, s1, s2, s3] ++ [d0, d1, d2, d3] ++
       [Wire.hi sport, Wire.lo sport, Wire.hi dport, Wire.lo dport, 2, 44, Wire.hi c1, Wire.lo c1] ++ D.take 548).drop 2).take 2) = 576 := by
    simp [Wire.Spec.beVal]
  dsimp only
  rw [htot, if_pos]
  · congr 1
    simp only [List.cons_append, List.nil_append, List.drop_succ_cons, List.drop_zero]
    rw [List.take_of_length_le (by rw [List.length_take]; omega)]
  · refine ⟨by simp, by simp; omega, by simp, ?_, by simp [Wire.Spec.beVal], ?_, Or.inr ?_⟩
    · simp only [List.cons_append, List.nil_append, List.drop_succ_cons, List.drop_zero, List.take_succ_cons, List.take_zero]
      exact Wire.beVal_hilo dport hdp
    · simp only [List.cons_append, List.nil_append, List.drop_succ_cons, List.drop_zero, List.take_succ_cons,
        List.take_zero, Wire.Spec.ipBlank, Wire.beVal_hilo c2 h2]
      rw [← hc2]; rfl
    · simp only [List.cons_append, List.nil_append, List.drop_succ_cons, List.drop_zero, List.take_succ_cons,
        List.take_zero, Wire.Spec.pseudo, Wire.Spec.udpBlank, Wire.beVal_hilo c1 h1]
      rw [← hc1]
      unfold Wire.Spec.inetChecksum
      rw [List.take_take, Nat.min_eq_left (by decide)]
      refine congrArg (65535 - ·) (Wire.ocSum_congr ?_)
      simp only [List.cons_append, List.nil_append, Wire.Spec.words, List.sum_cons]
      have : (576 - 28) = 548 := rfl
      rw [this]
      simp
      omega

theorem cookie_native (h : Wire.Host) : Wire.native h [0x63, 0x82, 0x53, 0x63] = Wire.htonl h 0x63825363 := by
  cases h <;> decide

/-- A packet of 548 bytes is read by the server as it is, filled up with zeros. -/
theorem recvL3_built {H : Hdr} (ok : H.Ok) {is : List Options.Spec.Item} {p : List Byte} (b : Built H.bytes is p) (h : Wire.Host) :
    ∃ q, recvL3 h (p.take 548) = some (548, q) ∧ Built H.bytes is q := by
  have hl := b.size (Hdr.length ok)
  have hb := b.carry (Hdr.length ok) (z := List.replicate 80 0) (by simp)
  refine ⟨_, ?_, hb⟩
  have ht : (p.take 548).take 628 = p.take 548 := by rw [List.take_take, Nat.min_eq_right (by decide)]
  have hlen : (p.take 548).length = 548 := by rw [List.length_take]; omega
  have hw : wr (List.replicate 628 (0 : Byte)) 0 (p.take 548) = some (p.take 548 ++ List.replicate 80 0) := by
    have e : List.replicate 628 (0 : Byte) = List.replicate 548 0 ++ List.replicate 80 0 := by decide +kernel
    rw [e]
    exact wr_here (by rw [hlen, List.length_replicate])
  unfold recvL3
  rw [ht, hw]
  simp only [Option.bind_eq_bind, Option.bind_some]
  obtain ⟨rest, hr, -⟩ := hb
  rw [hr, Wire.getUnaligned, get_cookie ok]
  simp only [Option.bind_eq_bind, Option.bind_some, hlen, Option.pure_def, cookie_native]
  simp

theorem num_eq (bs : List Byte) : Wire.leVal bs.reverse = Wire.Spec.beVal bs := by
  have key : ∀ (l : List Byte) (a : Nat), l.foldl (fun a b => 256 * a + b.toNat) a = a * 256 ^ l.length + Wire.Spec.beVal l := by
    intro l
    induction l with
    | nil => intro a; simp [Wire.Spec.beVal]
    | cons x t ih =>
      intro a
      rw [List.foldl_cons, ih]
      have : Wire.Spec.beVal (x :: t) = x.toNat * 256 ^ t.length + Wire.Spec.beVal t := by
        show t.foldl _ (256 * 0 + x.toNat) = _
        rw [ih]; simp
      rw [this, List.length_cons, Nat.pow_succ, Nat.add_mul, Nat.mul_comm 256 a, Nat.mul_assoc, Nat.mul_comm 256, Nat.add_assoc]
  have app : ∀ (l : List Byte) (b : Byte), Wire.leVal (l ++ [b]) = Wire.leVal l + b.toNat * 256 ^ l.length := by
    intro l b
    induction l with
    | nil => simp [Wire.leVal]
    | cons x t ih =>
      simp only [List.cons_append, Wire.leVal, ih, List.length_cons, Nat.pow_succ]
      rw [Nat.mul_add, Nat.add_assoc]
      congr 2
      rw [Nat.mul_comm 256, Nat.mul_assoc]
  induction bs with
  | nil => rfl
  | cons x t ih =>
    rw [List.reverse_cons, app, ih, List.length_reverse]
    show _ = t.foldl _ (256 * 0 + x.toNat)
    rw [key]
    simp only [Nat.mul_zero, Nat.zero_add]
    omega

/-- The options the server looks at. -/
structure Reads (is : List Options.Spec.Item) (type : Byte) (addr server : Option Nat) : Prop where
  ty : Options.Spec.value 53 is = some [type]
  addr : Options.Spec.value 50 is = addr.map (Options.Spec.digits 4)
  server : Options.Spec.value 54 is = server.map (Options.Spec.digits 4)

theorem optBe32_built {H : Hdr} (ok : H.Ok) {is : List Options.Spec.Item} {q : List Byte} (b : Built H.bytes is q) (h : Wire.Host)
    {code : Nat} {o : Option Nat} (hv : ∀ n, o = some n → n < 2 ^ 32) (hi : Options.Spec.value code is = o.map (Options.Spec.digits 4)) :
    optBe32 h q (getOption q 548 code 2000) = some o := by
  cases o with
  | none => rw [(b.lookup (Hdr.length ok) code).1 hi]; rfl
  | some n =>
    obtain ⟨i, h1, h2⟩ := b.word (Hdr.length ok) h (hv n rfl) hi
    rw [h1]
    simp [optBe32, h2]

theorem parse_built {H : Hdr} (ok : H.Ok) {is : List Options.Spec.Item} {q : List Byte} (b : Built H.bytes is q) (h : Wire.Host)
    {type : Byte} {addr server : Option Nat} (hop : H.op = 1) (r : Reads is type addr server) (ht : 1 ≤ type ∧ type ≤ 8)
    (ha : ∀ n, addr = some n → n < 2 ^ 32) (hs : ∀ n, server = some n → n < 2 ^ 32) (nip : Nat) :
    parse h nip q 548 = some (if server.isSome ∧ server ≠ some nip then none
      else some ⟨type.toNat, Wire.Spec.beVal H.mac, Wire.Spec.beVal H.ci, server, addr⟩) := by
  have h54 := optBe32_built ok b h hs r.server
  have h50 := optBe32_built ok b h ha r.addr
  obtain ⟨i, g1, g2⟩ := (b.lookup (Hdr.length ok) 53).2 _ r.ty
  have gi : q[i]? = some type := by
    have := getElem?_of_rd g2 0
    simpa using this.symm
  have hct : checkType q 548 = some type.toNat := by
    obtain ⟨rest, hr, -⟩ := id b
    have e0 : q[0]? = some 1 := by rw [hr]; simp [Hdr.bytes, hop]
    have e2 : q[2]? = some 6 := by rw [hr]; simp [Hdr.bytes]
    unfold checkType
    simp only [e0, e2, Option.bind_eq_bind, Option.bind_some, g1, gi]
    rw [if_neg (by simp), if_neg (by simp), if_neg (by have := ht.1; intro hh; exact absurd (UInt8.le_iff_toNat_le.mp this) (by have := UInt8.lt_iff_toNat_lt.mp hh; omega)),
      if_neg (by have := ht.2; intro hh; exact absurd (UInt8.le_iff_toNat_le.mp this) (by have := UInt8.lt_iff_toNat_lt.mp hh; omega))]
  have hne : type.toNat ≠ 0 := by
    have := UInt8.le_iff_toNat_le.mp ht.1
    simp at this; omega
  obtain ⟨rest, hr, -⟩ := b
  unfold parse
  simp only [hct, h54, Option.bind_eq_bind, Option.bind_some, if_neg hne]
  split
  · rfl
  · simp only [h50, Option.bind_some]
    rw [Wire.getBe_eq, hr, get_mac ok, get_ci ok]
    simp only [Option.bind_some, Option.map_some, num_eq]

end Verif.Dora
