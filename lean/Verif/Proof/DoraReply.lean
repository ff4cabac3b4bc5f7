import Verif.Proof.DoraMsg
import Verif.Props.Client
import Verif.Props.Server
/-!
# Helper lemmas: the server's answers and how the client reads them
-/
namespace Verif.Dora
open Verif.C Verif.Options

theorem Hdr.Ok.flag {H : Hdr} (ok : H.Ok) (a b : Byte) : ({ H with flags := [a, b] } : Hdr).Ok :=
  { xid := ok.xid, secs := ok.secs, ci := ok.ci, yi := ok.yi, gw := ok.gw, mac := ok.mac, pad := ok.pad }

/-- A client's packet as the server has it. -/
structure Rx (k : Cli) (o : Client.Out) (H : Hdr) : Prop where
  ok : H.Ok
  op : H.op = 1
  mac : H.mac = k.mac
  xid : ∀ x, Spec.xid o = some x → H.xid = x
  gw : H.gw = [0, 0, 0, 0]
  yi : H.yi = [0, 0, 0, 0]
  pad : H.pad = [0, 0, 0, 0, 0, 0, 0, 0, 0, 0]
  flags : H.flags = [if Spec.dest o = none then 0x80 else 0, 0]

theorem layout_native {h : Wire.Host} {a : List Byte} (ha : a.length = 4) : Wire.layout h 4 (Wire.native h a) = a := by
  obtain ⟨a, b, c, d, rfl⟩ := Wire.cons4 a ha
  cases h with
  | le =>
    simp only [Wire.layout, Wire.native, Wire.leBytes, Wire.leVal, List.cons.injEq, and_true]
    refine ⟨?_, ?_, ?_, ?_⟩ <;> (apply UInt8.toNat_inj.mp; simp only [UInt8.toNat_ofNat', Nat.toUInt8]; have := a.toNat_lt; have := b.toNat_lt; have := c.toNat_lt; have := d.toNat_lt; omega)
  | be =>
    simp only [Wire.layout, Wire.native, Wire.leBytes, Wire.leVal, List.reverse_cons, List.reverse_nil, List.nil_append, List.cons_append, List.cons.injEq, and_true]
    refine ⟨?_, ?_, ?_, ?_⟩ <;> (apply UInt8.toNat_inj.mp; simp only [UInt8.toNat_ofNat', Nat.toUInt8]; have := a.toNat_lt; have := b.toNat_lt; have := c.toNat_lt; have := d.toNat_lt; omega)

theorem native_lt {h : Wire.Host} {a : List Byte} (ha : a.length = 4) : Wire.native h a < 2 ^ 32 := by
  obtain ⟨a, b, c, d, rfl⟩ := Wire.cons4 a ha
  have := a.toNat_lt; have := b.toNat_lt; have := c.toNat_lt; have := d.toNat_lt
  cases h <;> simp only [Wire.native, Wire.leVal, List.reverse_cons, List.reverse_nil, List.nil_append, List.cons_append] <;> omega

theorem nip_eq (w : Srvr) : w.nip = Spec.identifier w := by
  unfold Srvr.nip Spec.identifier Spec.num Wire.native
  cases w.host with
  | le => simp only [← num_eq, List.reverse_reverse]
  | be => simp only [num_eq]

theorem digits_addr {a : List Byte} (ha : a.length = 4) (n : Nat) (hn : n < 2 ^ 32) : Options.Spec.digits 4 n = a ↔ n = Wire.Spec.beVal a := by
  constructor
  · intro h; rw [← h, num_digits n hn]
  · rintro rfl
    have := layout_native (h := .be) ha
    rw [digits_eq, ← num_eq]
    exact this

theorem heard_built {k : Cli} {v : Env} (hk : Spec.CliOk k) (hv : Spec.EnvOk v) {o : Client.Out} (hF : Spec.Fits o) {p : Server.Pkt}
    (hh : Spec.heard k.mac o = some p) (w : Srvr) (hw : w.addr.length = 4) :
    ∃ m, send k v o = some (some m) ∧ (¬ Spec.Reaches w.addr o → arrives w.addr m = none) ∧
      (Spec.Reaches w.addr o → ∃ d, arrives w.addr m = some d ∧ ∃ q H is, recvL3 w.host d = some (548, q) ∧ Built H.bytes is q ∧ Rx k o H ∧
        parse w.host w.nip q 548 = some (if p.serverId.isSome ∧ p.serverId ≠ some w.nip then none else some p)) := by
  -- broadcast
  have bc : ∀ {H : Hdr} {is : List Options.Spec.Item} {pkt : List Byte}, H.Ok → Built H.bytes is pkt → H.flags = [0, 0] →
      ∃ m, sendBroadcast k.host pkt = some m ∧ ∃ d q, arrives w.addr m = some d ∧ recvL3 w.host d = some (548, q) ∧
        Built ({ H with flags := [0x80, 0] } : Hdr).bytes is q := by
    intro H is pkt ok b hf
    have hl := b.size (Hdr.length ok)
    obtain ⟨f, e1, -, -, -, e2⟩ := sendRaw_udp k.host pkt [0, 0, 0, 0] [255, 255, 255, 255] 68 67 hl rfl rfl (by decide) (by decide)
    obtain ⟨rest, hr, hb⟩ := b
    have hbb : Built ({ H with flags := [0x80, 0] } : Hdr).bytes is (Wire.withBroadcast pkt) := by
      rw [hr, broadcast ok 0 0 hf]
      exact ⟨rest, rfl, hb⟩
    have ok' : ({ H with flags := [0x80, 0] } : Hdr).Ok := { ok with flags := rfl }
    obtain ⟨q, e3, b3⟩ := recvL3_built ok' hbb w.host
    exact ⟨.raw f, by simp [sendBroadcast, e1], _, q, e2, e3, b3⟩
  -- unicast
  have uc : ∀ {H : Hdr} {is : List Options.Spec.Item} {pkt : List Byte} {dst : Nat}, H.Ok → Built H.bytes is pkt → dst < 2 ^ 32 →
      ∃ m, sendKernel k.host pkt dst = some m ∧ (dst ≠ Spec.num w.addr → arrives w.addr m = none) ∧
        (dst = Spec.num w.addr → ∃ d q, arrives w.addr m = some d ∧ recvL3 w.host d = some (548, q) ∧ Built H.bytes is q) := by
    intro H is pkt dst ok b hd
    have hl := b.size (Hdr.length ok)
    refine ⟨.udp (Options.Spec.digits 4 dst) (pkt.take 548), ?_, ?_, ?_⟩
    · simp [sendKernel, rd_some (show 0 + 548 ≤ pkt.length by omega), layout_htonl]
    · intro hne
      simp only [arrives]
      rw [if_neg (fun h => hne ((digits_addr hw dst hd).mp h))]
    · intro he
      obtain ⟨q, e3, b3⟩ := recvL3_built ok b w.host
      exact ⟨_, q, by simp only [arrives]; rw [if_pos ((digits_addr hw dst hd).mpr he)], e3, b3⟩
  cases o with
  | discover x a =>
    obtain ⟨hx, ha⟩ := hF
    simp only [Spec.heard, Option.some.injEq] at hh
    subst hh
    obtain ⟨p0, e0, b0⟩ := discover_built hk hv hx ha
    obtain ⟨m, e1, d, q, e2, e3, b3⟩ := bc (cliHdr_ok hk.mac hx hv.secs rfl rfl) b0 rfl
    refine ⟨m, by simp [send, e0, e1], fun h => absurd (fun d hd => by cases hd) h, fun _ => ⟨d, e2, q, _, _, e3, b3, ?_, ?_⟩⟩
    · exact { ok := { cliHdr_ok hk.mac hx hv.secs rfl rfl with flags := rfl }, op := rfl, mac := rfl, xid := by intro y hy; cases hy; rfl
              gw := rfl, yi := rfl, pad := rfl, flags := rfl }
    · obtain ⟨v1, v2, v3⟩ := value_cli hk 1 (if a = 0 then none else some a) none
      have := parse_built (type := 1) { cliHdr_ok hk.mac hx hv.secs rfl rfl with flags := rfl } b3 w.host rfl ⟨v1, v2, v3⟩ (by decide)
        (by intro n; split <;> intro h <;> cases h; exact ha) (by intro n h; cases h) w.nip
      rw [this]
      simp [cliHdr, Wire.Spec.beVal, Spec.num]
  | request x a s ci dst =>
    obtain ⟨hx, ha, hs, hci, hd⟩ := hF
    simp only [Spec.heard, Option.some.injEq] at hh
    subst hh
    obtain ⟨p0, e0, b0⟩ := request_built' hk hv hx ha hs ci
    have ok : (cliHdr k.mac x v.secs [0, 0] (Options.Spec.digits 4 ci)).Ok := cliHdr_ok hk.mac hx hv.secs rfl (digits_length 4 ci)
    obtain ⟨v1, v2, v3⟩ := value_cli hk 3 a s
    cases dst with
    | none =>
      obtain ⟨m, e1, d, q, e2, e3, b3⟩ := bc ok b0 rfl
      refine ⟨m, by simp [send, e0, e1], fun h => absurd (fun d hd => by cases hd) h, fun _ => ⟨d, e2, q, _, _, e3, b3, ?_, ?_⟩⟩
      · exact { ok := { ok with flags := rfl }, op := rfl, mac := rfl, xid := by intro y hy; cases hy; rfl
                gw := rfl, yi := rfl, pad := rfl, flags := rfl }
      · rw [parse_built (type := 3) (ok.flag 0x80 0) b3 w.host rfl ⟨v1, v2, v3⟩ (by decide) ha hs w.nip]
        simp [cliHdr, Spec.num, num_digits ci hci]
    | some dst =>
      obtain ⟨m, e1, e2, e3⟩ := uc ok b0 (hd dst rfl)
      refine ⟨m, by simp [send, e0, e1], fun h => e2 (fun he => h (fun d hd => by cases hd; exact he)), fun hr => ?_⟩
      obtain ⟨d, q, e4, e5, b5⟩ := e3 (hr dst rfl)
      refine ⟨d, e4, q, _, _, e5, b5, ?_, ?_⟩
      · exact { ok := ok, op := rfl, mac := rfl, xid := by intro y hy; cases hy; rfl
                gw := rfl, yi := rfl, pad := rfl, flags := rfl }
      · rw [parse_built (type := 3) ok b5 w.host rfl ⟨v1, v2, v3⟩ (by decide) ha hs w.nip]
        simp [cliHdr, Spec.num, num_digits ci hci]
  | release ci s =>
    obtain ⟨hci, hs⟩ := hF
    simp only [Spec.heard, Option.some.injEq] at hh
    subst hh
    obtain ⟨p0, e0, b0⟩ := release_built hk hv ci hs
    have ok : (cliHdr k.mac v.rand [0, 0] [0, 0] (Options.Spec.digits 4 ci)).Ok := cliHdr_ok hk.mac hv.rand rfl rfl (digits_length 4 ci)
    obtain ⟨m, e1, e2, e3⟩ := uc ok b0 hs
    refine ⟨m, by simp [send, e0, e1], fun h => e2 (fun he => h (fun d hd => by cases hd; exact he)), fun hr => ?_⟩
    obtain ⟨d, q, e4, e5, b5⟩ := e3 (hr s rfl)
    refine ⟨d, e4, q, _, _, e5, b5, ?_, ?_⟩
    · exact { ok := ok, op := rfl, mac := rfl, xid := by intro y hy; cases hy
              gw := rfl, yi := rfl, pad := rfl, flags := rfl }
    · rw [parse_built (type := 7) (addr := none) (server := some s) ok b5 w.host rfl ⟨rfl, rfl, rfl⟩ (by decide) (by intro n h; cases h) (by intro n h; cases h; exact hs) w.nip]
      simp [cliHdr, Spec.num, num_digits ci hci]
  | lease a => cases hh
  | noLease => cases hh
  | lost => cases hh

/-! ### Answers -/

/-- The header of an answer. -/
def srvHdr (H : Hdr) (yi : List Byte) : Hdr :=
  { op := 2, xid := H.xid, flags := H.flags, ci := H.ci, yi := yi, gw := H.gw, mac := H.mac, pad := H.pad }

theorem srvHdr_ok {H : Hdr} (ok : H.Ok) {yi : List Byte} (hy : yi.length = 4) : (srvHdr H yi).Ok :=
  { xid := ok.xid, flags := ok.flags, ci := ok.ci, yi := hy, gw := ok.gw, mac := ok.mac, pad := ok.pad }

theorem replyPacket_built {w : Srvr} (hw : w.addr.length = 4) {junk cp : List Byte} (hj : junk.length = 6) {H : Hdr} (ok : H.Ok)
    {ic : List Options.Spec.Item} (bc : Built H.bytes ic cp) {type : Byte} (ht : type = 2 ∨ type = 5 ∨ type = 6) :
    ∃ p, replyPacket w junk cp type = some p ∧
      Built (srvHdr H [0, 0, 0, 0]).bytes [.opt 53 [type], Spec.word 54 (Spec.identifier w)] p := by
  obtain ⟨p0, e0, b0⟩ := initHeader_built w.host junk hj type
  rw [header_eq, if_pos ht] at b0
  obtain ⟨rest, rfl, -⟩ := bc
  have k0 : ({ op := 2 } : Hdr).Ok := {}
  have k1 : ({ op := 2, xid := H.xid } : Hdr).Ok := { xid := ok.xid }
  have k2 : ({ op := 2, xid := H.xid, mac := H.mac, pad := H.pad } : Hdr).Ok := { xid := ok.xid, mac := ok.mac, pad := ok.pad }
  have k3 : ({ op := 2, xid := H.xid, flags := H.flags, mac := H.mac, pad := H.pad } : Hdr).Ok :=
    { xid := ok.xid, mac := ok.mac, pad := ok.pad, flags := ok.flags }
  have k4 : ({ op := 2, xid := H.xid, flags := H.flags, gw := H.gw, mac := H.mac, pad := H.pad } : Hdr).Ok :=
    { xid := ok.xid, mac := ok.mac, pad := ok.pad, flags := ok.flags, gw := ok.gw }
  obtain ⟨p1, e1, b1⟩ := b0.head (fun T => set_xid (T := T) k0 ok.xid)
  obtain ⟨p2, e2, b2⟩ := b1.head (fun T => set_ch (T := T) k1 ok.mac ok.pad)
  obtain ⟨p3, e3, b3⟩ := b2.head (fun T => set_flags (T := T) k2 ok.flags)
  obtain ⟨p4, e4, b4⟩ := b3.head (fun T => set_gw (T := T) k3 ok.gw)
  obtain ⟨p5, e5, b5⟩ := b4.head (fun T => set_ci (T := T) k4 ok.ci)
  have b5 : Built (srvHdr H [0, 0, 0, 0]).bytes [.opt 53 [type]] p5 := b5
  have hl : w.nip < 2 ^ 32 := native_lt hw
  obtain ⟨p6, e6, b6⟩ := b5.uint (Hdr.length (srvHdr_ok ok rfl)) hj w.host (w := 4) (code := 0x36) (v := w.nip) (by decide) (by simp) hl (by decide)
    (by simp [Options.Spec.enc, Options.Spec.Item.bytes])
  refine ⟨p6, ?_, ?_⟩
  · simp only [replyPacket, copyField, e0, e1, e2, e3, e4, e5, get_xid ok, get_ch ok, get_flags ok, get_gw ok, get_ci ok,
      Option.bind_eq_bind, Option.bind_some]
    exact e6
  · rw [nip_eq] at b6; exact b6

theorem word_length (c : Byte) (v : Nat) (is : List Options.Spec.Item) :
    (Options.Spec.enc (is ++ [Spec.word c v])).length = (Options.Spec.enc is).length + 6 := by
  simp [enc_append, Spec.word, Options.Spec.enc, Options.Spec.Item.bytes, digits_length]

theorem serverOptions_built {w : Srvr} {junk p H : List Byte} (hj : junk.length = 6) {is : List Options.Spec.Item} (hH : H.length = 240)
    {opts : List (Nat × Nat)} (b : Built H is p) (hc : ∀ o ∈ opts, o.1 ∈ [1, 3, 6]) (hf : ∀ o ∈ opts, o.2 < 2 ^ 32)
    (hr : (Options.Spec.enc is).length + 6 * opts.length < 300) :
    ∃ p', addServerOptions w junk p opts = some p' ∧ Built H (is ++ opts.map (fun o => Spec.word o.1.toUInt8 o.2)) p' := by
  induction opts generalizing is p with
  | nil => exact ⟨p, rfl, by simpa using b⟩
  | cons x t ih =>
    obtain ⟨c, v⟩ := x
    have h1 := hc (c, v) (by simp)
    have h2 := hf (c, v) (by simp)
    simp only [List.length_cons] at hr
    obtain ⟨p1, e1, b1⟩ := b.uint hH hj w.host (w := 4) (code := c) (v := v)
      (by simp only [List.mem_cons, List.not_mem_nil, or_false] at h1; rcases h1 with rfl | rfl | rfl <;> decide) (by simp) h2
      (by simp only [List.mem_cons, List.not_mem_nil, or_false] at h1; omega) (by omega)
    obtain ⟨p2, e2, b2⟩ := ih (is := is ++ [Spec.word c.toUInt8 v]) b1 (fun o ho => hc o (by simp [ho])) (fun o ho => hf o (by simp [ho])) (by rw [word_length]; omega)
    refine ⟨p2, ?_, ?_⟩
    · have : c = 1 ∨ c = 3 ∨ c = 6 := by simpa using h1
      simp only [addServerOptions, if_pos this, e1, Option.bind_eq_bind, Option.bind_some]
      exact e2
    · simpa using b2

theorem opts_short {w : Srvr} (hw : Spec.SrvrOk w) : w.opts.length ≤ 3 := by
  have h1 : (w.opts.map Prod.fst).length ≤ [1, 3, 6].length :=
    Server.length_le_of_nodup _ _ hw.once (fun x hx => by
      obtain ⟨o, ho, rfl⟩ := List.mem_map.mp hx
      exact hw.codes o ho)
  simpa using h1

theorem grant_built {w : Srvr} (hw : Spec.SrvrOk w) {junk cp : List Byte} (hj : junk.length = 6) {H : Hdr} (ok : H.Ok)
    {ic : List Options.Spec.Item} (bc : Built H.bytes ic cp) {type : Byte} (ht : type = 2 ∨ type = 5 ∨ type = 6) {nip seconds : Nat}
    (hs : seconds < 2 ^ 32) :
    ∃ p, grant w junk cp type nip seconds = some p ∧ Built (srvHdr H (Options.Spec.digits 4 nip)).bytes (Spec.grantItems w type seconds) p := by
  obtain ⟨p0, e0, b0⟩ := replyPacket_built hw.addr hj ok bc ht
  obtain ⟨p1, e1, b1⟩ := Built.head (H' := (srvHdr H (Options.Spec.digits 4 nip)).bytes) b0
    (fun T => set_yi (T := T) (srvHdr_ok ok rfl) (digits_length 4 nip))
  have hH := Hdr.length (srvHdr_ok ok (digits_length 4 nip))
  obtain ⟨p2, e2, b2⟩ := b1.uint hH hj w.host (w := 4) (code := 0x33) (v := seconds) (by decide) (by simp) hs (by decide)
    (by simp [Options.Spec.enc, Options.Spec.Item.bytes, Spec.word, digits_length])
  have hn := opts_short hw
  obtain ⟨p3, e3, b3⟩ := serverOptions_built (w := w) hj hH b2 hw.codes hw.fits
    (by simp [Options.Spec.enc, Options.Spec.Item.bytes, Spec.word, digits_length]; omega)
  refine ⟨p3, ?_, ?_⟩
  · simp only [grant, e0, e1, e2, putAddr, Wire.putUnaligned, layout_htonl, Option.bind_eq_bind, Option.bind_some]
    exact e3
  · simpa [Spec.grantItems, Spec.word] using b3

/-- A frame of the server, as the client reads it. -/
theorem frame_read {w : Srvr} (hw : w.addr.length = 4) (h : Wire.Host) {buf p dst hwa : List Byte} (hb : buf.length = 628) (hd : dst.length = 4)
    {H : Hdr} (ok : H.Ok) {is : List Options.Spec.Item} (b : Built H.bytes is p) :
    ∃ f q, sendFrame w p dst hwa = some f ∧ f.hw = hwa ∧ Wire.recvL2 h f.bytes buf = some ⟨548, q⟩ ∧
      ∃ a b, H.flags = [a, b] ∧ Built ({ H with flags := [a ||| 0x80, b] } : Hdr).bytes is q := by
  have hl := b.size (Hdr.length ok)
  obtain ⟨x, y, hf⟩ : ∃ x y, H.flags = [x, y] := by
    match h : H.flags, ok.flags with
    | [x, y], _ => exact ⟨x, y, rfl⟩
  obtain ⟨rest, hr, hb'⟩ := id b
  have hck : (p.drop 236).take 4 = [0x63, 0x82, 0x53, 0x63] := by
    have := get_cookie (T := Options.Spec.enc is ++ 255 :: rest) ok
    rw [← hr] at this
    exact Client.rd_drop this
  obtain ⟨f, e1, -, e2⟩ := Wire.raw_frames_interoperate w.host h p w.addr dst buf 67 hl hw hd (by decide) hb hck
  have hbb : Built ({ H with flags := [x ||| 0x80, y] } : Hdr).bytes is (Wire.withBroadcast p) := by
    rw [hr, broadcast ok x y hf]
    exact ⟨rest, rfl, hb'⟩
  have ok' : ({ H with flags := [x ||| 0x80, y] } : Hdr).Ok := { ok with flags := rfl }
  refine ⟨⟨hwa, f⟩, _, ?_, rfl, e2, x, y, hf, ?_⟩
  · simp only [sendFrame, Srvr.nip, layout_native hw, e1, Option.bind_eq_bind, Option.bind_some]
  · exact hbb.carry (Hdr.length ok') (by simp; omega)

theorem sendToClient_frame {w : Srvr} {p : List Byte} {H : Hdr} (ok : H.Ok) {is : List Options.Spec.Item} (b : Built H.bytes is p) :
    ∃ dst hwa, dst.length = 4 ∧ sendToClient w p = sendFrame w p dst hwa ∧
      ((dst = [255, 255, 255, 255] ∧ hwa = hwAll) ∨ (dst = H.ci ∧ hwa = H.mac)) := by
  obtain ⟨rest, rfl, -⟩ := b
  obtain ⟨x, y, hf⟩ : ∃ x y, H.flags = [x, y] := by
    match h : H.flags, ok.flags with
    | [x, y], _ => exact ⟨x, y, rfl⟩
  have hx : (H.bytes ++ (Options.Spec.enc is ++ 255 :: rest))[10]? = some x := by
    have := getElem?_of_rd (get_flags (T := Options.Spec.enc is ++ 255 :: rest) ok) 0
    rw [hf] at this
    simpa using this.symm
  unfold sendToClient
  simp only [hx, get_ci ok, get_mac ok, Option.bind_eq_bind, Option.bind_some]
  split
  · exact ⟨_, _, rfl, rfl, Or.inl ⟨rfl, rfl⟩⟩
  · exact ⟨_, _, ok.ci, rfl, Or.inr ⟨rfl, rfl⟩⟩

theorem carries_built {H : Hdr} (ok : H.Ok) {is : List Options.Spec.Item} {q : List Byte} (b : Built H.bytes is q) :
    Spec.Carries H.mac H.xid (q, 548) ⟨Wire.Spec.beVal H.yi, is⟩ := by
  have hL := (b.layout (Hdr.length ok)).1
  obtain ⟨rest, rfl, -⟩ := b
  exact { len := rfl, layout := hL, addr := by unfold Client.Spec.yiaddr; rw [Client.rd_drop (get_yi ok)]
          mine := { xid := Client.rd_drop (get_xid ok), chaddr := Client.rd_drop (get_mac ok), hlen := by simp [Hdr.bytes] } }

theorem answers_read {k : Cli} {w : Srvr} (hw : Spec.SrvrOk w) {junk buf cp : List Byte} (hj : junk.length = 6) (hb : buf.length = 628)
    {o : Client.Out} {H : Hdr} (rx : Rx k o H) {ic : List Options.Spec.Item} (bc : Built H.bytes ic cp) {seconds : Nat} (hs : seconds < 2 ^ 32)
    (outs : List Server.Out) (hout : ∀ x ∈ outs, Spec.OutFits x) :
    ∃ fs ps, answers w seconds junk cp outs = some fs ∧ readFrames k.host buf fs = some ps ∧ Spec.AllCarry k.mac H.xid ps (Spec.replies w seconds outs) := by
  have one : ∀ {p : List Byte} {yi : List Byte} {is : List Options.Spec.Item} {dst hwa : List Byte}, yi.length = 4 → dst.length = 4 →
      Built (srvHdr H yi).bytes is p → ∃ f q, sendFrame w p dst hwa = some f ∧ Wire.recvL2 k.host f.bytes buf = some ⟨548, q⟩ ∧
        Spec.Carries k.mac H.xid (q, 548) ⟨Wire.Spec.beVal yi, is⟩ := by
    intro p yi is dst hwa hy hd b
    obtain ⟨f, q, e1, -, e2, x, y, hf, b2⟩ := frame_read (hwa := hwa) hw.addr k.host hb hd (srvHdr_ok rx.ok hy) b
    have := carries_built ((srvHdr_ok rx.ok hy).flag _ _) b2
    refine ⟨f, q, e1, e2, ?_⟩
    rw [← rx.mac]
    exact this
  have oneC : ∀ {p : List Byte} {yi : List Byte} {is : List Options.Spec.Item}, yi.length = 4 →
      Built (srvHdr H yi).bytes is p → ∃ f q, sendToClient w p = some f ∧ Wire.recvL2 k.host f.bytes buf = some ⟨548, q⟩ ∧
        Spec.Carries k.mac H.xid (q, 548) ⟨Wire.Spec.beVal yi, is⟩ := by
    intro p yi is hy b
    obtain ⟨dst, hwa, hd, he, -⟩ := sendToClient_frame (w := w) (srvHdr_ok rx.ok hy) b
    rw [he]
    exact one hy hd b
  induction outs with
  | nil => exact ⟨[], [], rfl, rfl, .nil⟩
  | cons x t ih =>
    obtain ⟨fs, ps, e1, e2, h3⟩ := ih (fun y hy => hout y (by simp [hy]))
    have hx := hout x (by simp)
    have fin : ∀ {f : Frame} {q : List Byte} {r : Spec.Reply}, answer w seconds junk cp x = some [f] →
        Wire.recvL2 k.host f.bytes buf = some ⟨548, q⟩ → Spec.Carries k.mac H.xid (q, 548) r →
        Spec.replies w seconds (x :: t) = r :: Spec.replies w seconds t →
        ∃ fs ps, answers w seconds junk cp (x :: t) = some fs ∧ readFrames k.host buf fs = some ps ∧
          Spec.AllCarry k.mac H.xid ps (Spec.replies w seconds (x :: t)) := by
      intro f q r h1 h2 h4 h5
      refine ⟨f :: fs, (q, 548) :: ps, ?_, ?_, h5 ▸ .cons h4 h3⟩
      · simp only [answers, h1, e1, Option.bind_eq_bind, Option.bind_some]; rfl
      · simp only [readFrames, h2, e2, Option.bind_eq_bind, Option.bind_some]
    cases x with
    | offer m n =>
      obtain ⟨p, g1, b1⟩ := grant_built hw hj rx.ok bc (type := 2) (by decide) (nip := n) hs
      obtain ⟨f, q, g2, g3, g4⟩ := oneC (digits_length 4 n) b1
      rw [num_digits n hx] at g4
      exact fin (by simp only [answer, g1, g2, Option.bind_eq_bind, Option.bind_some]) g3 g4 rfl
    | ack m n s =>
      obtain ⟨p, g1, b1⟩ := grant_built hw hj rx.ok bc (type := 5) (by decide) (nip := n) hx.2
      obtain ⟨f, q, g2, g3, g4⟩ := oneC (digits_length 4 n) b1
      rw [num_digits n hx.1] at g4
      exact fin (by simp only [answer, g1, g2, Option.bind_eq_bind, Option.bind_some]) g3 g4 rfl
    | nak m =>
      obtain ⟨p, g1, b1⟩ := replyPacket_built hw.addr hj rx.ok bc (type := 6) (by decide)
      obtain ⟨f, q, g2, g3, g4⟩ := one (dst := [255, 255, 255, 255]) (hwa := hwAll) rfl rfl b1
      exact fin (by simp only [answer, g1, g2, Option.bind_eq_bind, Option.bind_some]) g3 g4 rfl
    | inform m =>
      obtain ⟨p, g1, b1⟩ := replyPacket_built hw.addr hj rx.ok bc (type := 5) (by decide)
      have hn := opts_short hw
      obtain ⟨p', g1', b1'⟩ := serverOptions_built (w := w) hj (Hdr.length (srvHdr_ok rx.ok rfl)) b1 hw.codes hw.fits
        (by simp [Options.Spec.enc, Options.Spec.Item.bytes, Spec.word, digits_length]; omega)
      obtain ⟨f, q, g2, g3, g4⟩ := oneC rfl b1'
      exact fin (by simp only [answer, g1, g1', g2, Option.bind_eq_bind, Option.bind_some]) g3 g4 rfl
    | event m n =>
      refine ⟨fs, ps, ?_, e2, h3⟩
      simp only [answers, answer, e1, Option.bind_eq_bind, Option.bind_some]; rfl

/-- One exchange. -/
theorem round_eq {k : Cli} {w : Srvr} {x : Trip} (hk : Spec.CliOk k) (hw : Spec.SrvrOk w) (hx : Spec.TripOk x) {o : Client.Out} (hF : Spec.Fits o)
    {p : Server.Pkt} (hh : Spec.heard k.mac o = some p) (s t : Server.Srv) (outs : List Server.Out) (hs : s.leaseSeconds < 2 ^ 32)
    (hrecv : Server.recv s x.now p x.mem = some (t, outs)) (hout : ∀ y ∈ outs, Spec.OutFits y) :
    (¬ Spec.Reaches w.addr o → round k w x s o = some (s, [])) ∧
    (Spec.Reaches w.addr o → p.serverId.isSome → p.serverId ≠ some (Spec.identifier w) → round k w x s o = some (s, [])) ∧
    (Spec.Reaches w.addr o → (p.serverId = none ∨ p.serverId = some (Spec.identifier w)) →
      ∃ ps, round k w x s o = some (t, ps) ∧
        ∃ xid, (∀ y, Spec.xid o = some y → xid = y) ∧ Spec.AllCarry k.mac xid ps (Spec.replies w s.leaseSeconds outs)) := by
  obtain ⟨m, e1, e2, e3⟩ := heard_built hk hx.cli hF hh w hw.addr
  refine ⟨fun h => ?_, fun h h1 h2 => ?_, fun h h1 => ?_⟩
  · simp only [round, e1, e2 h, Option.bind_eq_bind, Option.bind_some]
  · obtain ⟨d, e4, q, H, is, e5, b5, rx, e6⟩ := e3 h
    rw [nip_eq, if_pos ⟨h1, h2⟩] at e6
    simp only [round, e1, e4, Option.bind_eq_bind, Option.bind_some, serve, e5]
    simp [nip_eq, e6, readFrames]
  · obtain ⟨d, e4, q, H, is, e5, b5, rx, e6⟩ := e3 h
    rw [nip_eq, if_neg (by rcases h1 with h1 | h1 <;> simp [h1])] at e6
    obtain ⟨fs, ps, g1, g2, g3⟩ := answers_read (k := k) hw hx.srv hx.buf rx b5 hs outs hout
    refine ⟨ps, ?_, H.xid, rx.xid, g3⟩
    simp only [round, e1, e4, Option.bind_eq_bind, Option.bind_some, serve, e5]
    simp [nip_eq, e6, hrecv, g1, g2]

end Verif.Dora
