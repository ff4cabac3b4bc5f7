import Verif.Proof.RtspBuild
/-! From items to frames: helper lemmas. -/
namespace Verif.Rtsp
open Verif.C
open Sanitize.Spec (text endMode)
open Spec (Hdr Item hdrArgs hdrsArgs Word TokenOk HdrOk HdrsOk finish make makeAll stream Sendable headerCount extra view SameHeaders Arrives PhraseOk)

theorem hdr_lines (hs : List Hdr) : LinesAre (hs.map full) (hs.map hdrText) := by
  unfold LinesAre
  rw [List.map_map, List.map_map]
  rfl

theorem lineF_len (ts : List (List Byte)) : ∀ d : List Byte, (Qstr.lineF d ts).length ≤ d.length + (ts.map (fun t => 2 * t.length + 3)).sum := by
  induction ts with
  | nil => intro d; simp [Qstr.lineF]
  | cons t ts ih =>
    intro d
    have := ih ((if d = [] then [] else d ++ [ch ' ']) ++ Qstr.enc t)
    have e := Qstr.enc_len t
    have l : ((if d = [] then [] else d ++ [ch ' ']) ++ Qstr.enc t).length ≤ d.length + 1 + (Qstr.enc t).length := by
      rw [List.length_append]
      split <;> simp
    show (Qstr.lineF _ ts).length ≤ _
    rw [List.map_cons, List.sum_cons]
    omega

theorem flat_len (bs : List Hdr) : (flat (bs.map hdrText)).length ≤ (bs.map (fun h => h.1.length + 4 + (h.2.map (fun t => 2 * t.length + 3)).sum)).sum := by
  induction bs with
  | nil => simp [flat]
  | cons h t ih =>
    have e : flat ((h :: t).map hdrText) = hdrText h ++ crlf ++ flat (t.map hdrText) := by simp [flat]
    have l := lineF_len h.2 []
    have l2 : (hdrText h).length = h.1.length + 2 + (Qstr.lineF [] h.2).length := by
      unfold hdrText nvText
      rw [List.length_append, List.length_append]
      rfl
    rw [e, List.map_cons, List.sum_cons, List.length_append, List.length_append, l2]
    have : crlf.length = 2 := rfl
    simp only [List.length_nil] at l
    omega

theorem mem_lineF (c : Byte) (ts : List (List Byte)) : ∀ d : List Byte, c ∈ Qstr.lineF d ts → c ∈ d ∨ c = ch ' ' ∨ ∃ t ∈ ts, c ∈ Qstr.enc t := by
  induction ts with
  | nil => intro d h; exact Or.inl h
  | cons t ts ih =>
    intro d h
    rcases ih _ h with h | h | ⟨u, hu, h⟩
    · rw [List.mem_append] at h
      rcases h with h | h
      · split at h
        · cases h
        · rw [List.mem_append] at h
          rcases h with h | h
          · exact Or.inl h
          · exact Or.inr (Or.inl (List.mem_singleton.mp h))
      · exact Or.inr (Or.inr ⟨t, List.mem_cons_self, h⟩)
    · exact Or.inr (Or.inl h)
    · exact Or.inr (Or.inr ⟨u, List.mem_cons_of_mem _ hu, h⟩)

theorem mem_enc {c : Byte} {t : List Byte} (h : c ∈ Qstr.enc t) : c ∈ t ∨ c = ch '\\' ∨ c = ch '"' := by
  unfold Qstr.enc at h
  split at h
  · simp only [List.mem_append, List.mem_singleton] at h
    rcases h with (h | h) | h
    · exact Or.inr (Or.inr h)
    · rcases body_mem t c h with h | h
      · exact Or.inl h
      · exact Or.inr (Or.inl h)
    · exact Or.inr (Or.inr h)
  · rcases body_mem t c h with h | h
    · exact Or.inl h
    · exact Or.inr (Or.inl h)

theorem body_line {h : Hdr} (hh : HdrOk h) (hn : ∀ t ∈ h.2, (13 : Byte) ∉ t ∧ (10 : Byte) ∉ t) : ∀ c ∈ hdrText h, c ≠ 13 ∧ c ≠ 10 := by
  intro c hc
  unfold hdrText nvText at hc
  rw [List.mem_append, List.mem_append] at hc
  rcases hc with (hc | hc) | hc
  · exact ⟨(hh.1.2 c hc).2.2.2.2.1, (hh.1.2 c hc).2.2.2.1⟩
  · revert c; decide +kernel
  · rcases mem_lineF c h.2 [] hc with hc | hc | ⟨t, ht, hc⟩
    · cases hc
    · rw [hc]; decide
    · rcases mem_enc hc with hc | hc | hc
      · exact ⟨fun e => (hn t ht).1 (e ▸ hc), fun e => (hn t ht).2 (e ▸ hc)⟩
      · rw [hc]; decide
      · rw [hc]; decide

theorem view_full (hs : List Hdr) : (hs.map full).map view = hs := by
  rw [List.map_map]
  exact List.map_id' _

theorem read_full (hs : List Hdr) (h : ∀ x ∈ hs, HdrOk x) : (hs.map hdrText).map lineHeader = hs.map full := by
  rw [List.map_map]
  exact List.map_congr_left (fun x hx => (h x hx).read)

theorem extra_view (bs : List Hdr) (n : Nat) : ((specials (bs.map hdrText) n).map lineHeader).map view = extra bs (flat (bs.map hdrText)) n := by
  unfold specials extra
  have h1 : ∀ k, view (lineHeader (nvText CL (dec k))) = (bytes "Content-Length", [dec k]) := by
    intro k; rw [lh_cl]; unfold view nv; simp only [dec_tokens]; rfl
  have h2 : view (lineHeader (nvText CT TP)) = (bytes "Content-Type", [bytes "text/parameters"]) := by decide +kernel
  have h3 : ∀ k, view (lineHeader (nvText CS (dec k))) = (bytes "CSeq", [dec k]) := by
    intro k; rw [lh_cs]; unfold view nv; simp only [dec_tokens]; rfl
  by_cases hb : bs = []
  · rw [if_pos (by rw [hb]; rfl), if_pos hb]
    simp only [List.nil_append, List.map_cons, List.map_nil, h3]
  · rw [if_neg (by simpa using hb), if_neg hb]
    simp only [List.map_append, List.map_cons, List.map_nil, h1, h2, h3]

theorem local_lt (n : Nat) : local_ n < REMOTE := Nat.mod_lt _ (by decide)

theorem item_msg (mvS : Moves) (env : Env) (ha : Accepts env) (ck : Nat) (ms m0 : Msg) (head : List Byte) (hbg : Begun ms m0 head)
    (ht : ms.type = .request ∨ ms.type = .reply) (ho : Open ms) (h1 : ms.clen = none) (h2 : ms.ctype = none) (h3 : ms.cseq = none)
    (hh0 : ms.headers = []) (hb0 : ms.bodyHeaders = []) (hbo : ms.body = none) (hl : headLine ms = some (head ++ crlf))
    (hs bs : List Hdr) (hok : HdrsOk hs bs) (hr : Roomy env.mv (hs.length + 3)) :
    ∃ ck' s raw, finish mvS ck hs bs ms = some (ck', s) ∧ s.raw = some raw ∧ (ms.cookie ≠ 0 → ms.type = .reply → s.cookie = remote ms.cookie) ∧
      ((ms.cookie = 0 → ms.type ≠ .reply → ck' = nextCookie ck ∧ s.cookie = nextCookie ck) ∧ (ms.cookie ≠ 0 → ck' = ck)) ∧
      Frame env raw (fun x => (x.type = ms.type ∧ x.method = ms.method ∧ x.uri = ms.uri ∧ x.code = ms.code ∧ x.phrase = ms.phrase ∧ x.major = ms.major ∧
        x.minor = ms.minor) ∧ x.raw = s.raw ∧ x.isSealed = true ∧ x.isUsed = true ∧ SameHeaders hs bs s x ∧ Spec.Unread x) := by
  obtain ⟨k1, k2, k3⟩ := hok
  have hplain : ∀ h ∈ hs, Plain h.1 := fun h hh =>
    ⟨(k1 h hh).2 _ (by simp [Spec.reserved, CL]), (k1 h hh).2 _ (by simp [Spec.reserved, CT]), (k1 h hh).2 _ (by simp [Spec.reserved, CS])⟩
  have happ := append_all mvS ms hs bs (fun h hh => (k1 h hh).1.1.1) (fun h hh => (k2 h hh).1.1.1) ho
  obtain ⟨p1, p2, p3, p4, p5, p6⟩ := pushFull_head mvS hs hplain ms ho.iterBody
  obtain ⟨g1, g2, g3, g4⟩ := pushFull_gen mvS hs ms
  generalize pushFull mvS ms hs = M at happ p1 p2 p3 p4 p5 p6 g1 g2 g3 g4
  rw [hh0, List.nil_append] at p1
  rw [show M.bodyHeaders = [] from p2.bodyHeaders.trans hb0, List.nil_append] at happ
  -- the cookie
  generalize hcv : (if M.cookie = 0 then (if M.cookie = 0 then nextCookie ck else ck) else M.cookie) = c0
  generalize hcw : (if M.type = .reply then remote c0 else c0) = c1
  obtain ⟨s, e1, e2, e3, e4, e5, e6, _, _⟩ := send_serialize mvS { M with bodyHeaders := bs.map full, cookie := c1 }
    ⟨g1 ▸ ho.type, g3.trans ho.iterBody, g4.trans ho.iterHeader, g2.trans ho.notSealed⟩ (p4.trans h1) (p5.trans h2) (p6.trans h3) (p2.body.trans hbo)
    head (by
      show headLine M = _
      rw [headLine_same p2 ht]; exact hl) (hs.map hdrText) (bs.map hdrText) (by show LinesAre M.headers _; rw [p1]; exact hdr_lines hs) (hdr_lines bs)
    (Nat.lt_of_le_of_lt (flat_len bs) k3)
  have hseal : sealMsg mvS ck { M with bodyHeaders := bs.map full } = some (0, if M.cookie = 0 then nextCookie ck else ck, { s with isSealed := true }) := by
    unfold sealMsg
    rw [if_neg (show ¬ M.isSealed = true from by rw [g2, ho.notSealed]; decide), if_neg (show ¬ (M.iterBody = true ∨ M.iterHeader ≠ none) from by rw [g3, g4, ho.iterBody, ho.iterHeader]; simp)]
    simp only
    rw [hcv, hcw, if_neg (show ¬ M.type = .data from g1 ▸ ho.type), e1]
    simp only [Option.bind_eq_bind, Option.bind_some]
    rw [if_neg (Int.lt_irrefl 0)]
  refine ⟨if M.cookie = 0 then nextCookie ck else ck, { s with isSealed := true }, _, ?_, e2, ?_, ⟨?_, ?_⟩, ?_⟩
  · unfold finish
    rw [happ]
    show Spec.sealed mvS ck _ = _
    unfold Spec.sealed
    rw [hseal]
    rfl
  · intro hn htr
    show s.cookie = _
    rw [e5]
    show c1 = _
    rw [← hcw, if_pos (by rw [g1]; exact htr), ← hcv, if_neg (by rw [p3]; exact hn), p3]
  · intro hz htr
    refine ⟨if_pos (p3.trans hz), ?_⟩
    show s.cookie = _
    rw [e5]
    show c1 = _
    rw [← hcw, if_neg (by rw [g1]; exact htr), ← hcv, if_pos (p3.trans hz), if_pos (p3.trans hz)]
  · intro hz
    exact if_neg (by rw [p3]; exact hz)
  · have hf := round_frame env ha ms m0 head hbg ht (hs.map hdrText) (bs.map hdrText)
      (fun l hl => by
        obtain ⟨h, hh, rfl⟩ := List.mem_map.mp hl
        exact ⟨(k1 h hh).1.clean, by rw [(k1 h hh).1.key]; exact hplain h hh⟩)
      (fun l hl => by
        obtain ⟨h, hh, rfl⟩ := List.mem_map.mp hl
        exact ⟨(k2 h hh).1.clean, body_line (k2 h hh).1 (k2 h hh).2⟩)
      (Nat.lt_of_le_of_lt (flat_len bs) k3) (by rw [List.length_map]; exact hr) (local_ c1) (local_lt c1)
    intro b hb
    obtain ⟨b', x, r1, r2, r3, x1, x2, x3, x4, x5, x6, x7, x8, x9, x10, x11, x12, x13, x14, x15⟩ := hf b hb
    refine ⟨b', x, r1, r2, r3, ⟨x1, x2, x3, x4, x5, x6, x7⟩, ?_, x13, x14, ⟨flat (bs.map hdrText), local_ c1, e4, x9, ?_, x12, ?_, ?_, ?_, ?_⟩, x15⟩
    · rw [x8]; exact e2.symm
    · show _ = local_ s.cookie
      rw [e5]
    · rw [x10, List.map_append, List.map_append, extra_view, read_full hs (fun h hh => (k1 h hh).1), view_full]
    · rw [x11, read_full bs (fun h hh => (k2 h hh).1), view_full]
    · rw [x10, linesAre_map]
      exact e3.symm
    · rw [x11, linesAre_map]
      show _ = s.bodyHeaders.map Header.line
      rw [e6]
      exact (hdr_lines bs).symm

theorem recv_fresh (m : Msg) (ht : m.type ≠ .data) (h1 : m.iterBody = false) (h2 : m.iterHeader = none) (h3 : m.isSealed = false) (h4 : m.headers = [])
    (h5 : m.hcap = 0) (h6 : m.clen = none) (h7 : m.ctype = none) (h8 : m.cseq = none) : Recv m none none none := by
  refine ⟨⟨ht, h1, h2, h3⟩, ⟨by rw [h4]; exact Nat.zero_le _, Or.inl h5, ?_, ?_, ?_⟩, h6, h7, h8⟩
  · intro p hp; rw [h6] at hp; cases hp
  · intro p hp; rw [h7] at hp; cases hp
  · intro p hp; rw [h8] at hp; cases hp

theorem head_cons {w : List Byte} (h : w ≠ []) (r : List Byte) : (w ++ r).head? = w.head? := by
  cases w with
  | nil => exact absurd rfl h
  | cons c t => rfl

theorem request_head (method uri : List Byte) (hm : Word method) (hu : Word uri) (hd : method.head? ≠ some (ch '$'))
    (hp : caseEq (method.take 5) (bytes "RTSP/") = false) (ms : Msg) (hms : ms = { newMsg with type := .request, method := method, uri := uri }) :
    ∃ m0 head, Begun ms m0 head ∧ headLine ms = some (head ++ crlf) := by
  have hcl := clean_cons hm.closed (clean_cons hu.closed (version_word 1 0).clean)
  have e : method ++ ch ' ' :: (uri ++ ch ' ' :: (bytes "RTSP/" ++ dec 1 ++ [ch '.'] ++ dec 0)) =
      method ++ [ch ' '] ++ uri ++ bytes " RTSP/" ++ dec 1 ++ [ch '.'] ++ dec 0 := by
    rw [show bytes " RTSP/" = ch ' ' :: bytes "RTSP/" from rfl]
    simp
  rw [e] at hcl
  have hw : W32 = 4294967296 := rfl
  have hf := fromHead_request method uri 1 0 hm.1 hu.1 (fun h => (hm.2 _ h).2.1 rfl) (fun h => (hu.2 _ h).2.1 rfl) hp (by omega) (by omega)
  refine ⟨_, _, ⟨hcl, ?_, hf, recv_fresh _ (fun h => by cases h) rfl rfl rfl rfl rfl rfl rfl rfl, rfl, rfl, rfl, rfl, ?_, ?_, ?_, ?_, ?_, ?_, ?_⟩, ?_⟩
  · have hh : (method ++ [ch ' '] ++ uri ++ bytes " RTSP/" ++ dec 1 ++ [ch '.'] ++ dec 0).head? = method.head? := by
      simp only [List.append_assoc]
      exact head_cons hm.1 _
    unfold HeadStart
    rw [hh]
    refine ⟨hd, fun h => ?_⟩
    exact (hm.2 _ (List.mem_of_head? h)).2.2.2.2.2 rfl
  all_goals rw [hms]
  all_goals rfl

theorem reply_head (code : Nat) (phrase : List Byte) (cookie : Nat) (hc : code < W32 - 1) (hp : Clean phrase) (ms : Msg)
    (hms : ms = { newMsg with type := .reply, code := code, phrase := phrase, cookie := cookie }) :
    ∃ m0 head, Begun ms m0 head ∧ headLine ms = some (head ++ crlf) := by
  have hcl := clean_cons (version_word 1 0) (clean_cons (dec_word code) hp)
  have e : bytes "RTSP/" ++ dec 1 ++ [ch '.'] ++ dec 0 ++ ch ' ' :: (dec code ++ ch ' ' :: phrase) =
      bytes "RTSP/" ++ dec 1 ++ [ch '.'] ++ dec 0 ++ [ch ' '] ++ dec code ++ [ch ' '] ++ phrase := by simp
  rw [e] at hcl
  have hw : W32 = 4294967296 := rfl
  have hf := fromHead_reply code phrase 1 0 hc hp.ne (by omega) (by omega)
  refine ⟨_, _, ⟨hcl, ?_, hf, recv_fresh _ (fun h => by cases h) rfl rfl rfl rfl rfl rfl rfl rfl, rfl, rfl, rfl, rfl, ?_, ?_, ?_, ?_, ?_, ?_, ?_⟩, ?_⟩
  · have hh : (bytes "RTSP/" ++ dec 1 ++ [ch '.'] ++ dec 0 ++ [ch ' '] ++ dec code ++ [ch ' '] ++ phrase).head? = (bytes "RTSP/").head? := by
      simp only [List.append_assoc]
      exact head_cons (by decide) _
    unfold HeadStart
    rw [hh]
    exact ⟨by decide, by decide⟩
  all_goals rw [hms]
  all_goals rfl

theorem description_clean (code : Nat) : Clean (codeDescription code) := by
  unfold codeDescription
  cases h : codeDescriptions.lookup code with
  | none => exact ⟨by decide +kernel, by decide +kernel, by decide +kernel⟩
  | some s =>
    have hm : (code, s) ∈ codeDescriptions := by
      have : ∀ (l : List (Nat × String)), l.lookup code = some s → (code, s) ∈ l := by
        intro l
        induction l with
        | nil => intro h; cases h
        | cons x t ih =>
          intro h
          rw [List.lookup_cons] at h
          split at h
          · rename_i he
            have he : code = x.1 := by simpa using he
            cases h
            rw [he]; exact List.mem_cons_self
          · exact List.mem_cons_of_mem _ (ih h)
      exact this _ h
    have hall : ∀ x ∈ codeDescriptions, text (bytes x.2) = bytes x.2 ∧ endMode .plain (bytes x.2) = .plain ∧ bytes x.2 ≠ [] := by decide +kernel
    have := hall _ hm
    exact ⟨this.1, this.2.1, this.2.2⟩

theorem item_frame (mvS : Moves) (env : Env) (ha : Accepts env) (ck : Nat) (i : Item) (hi : Sendable i) (hr : Roomy env.mv (headerCount i + 3)) :
    ∃ ck' s raw, make mvS ck i = some (ck', s) ∧ s.raw = some raw ∧ Frame env raw (Arrives i s) := by
  cases i with
  | request method uri hs bs =>
    obtain ⟨h1, h2, h3, h4, h5⟩ := hi
    have hn : newRequest method uri = some { newMsg with type := .request, method := method, uri := uri } := by
      unfold newRequest
      rw [if_neg (fun x => x.elim h1.1 h2.1)]
    obtain ⟨m0, head, hb, hl⟩ := request_head method uri h1 h2 h3 h4 _ rfl
    obtain ⟨ck', s, raw, e1, e2, _, _, e3⟩ := item_msg mvS env ha ck _ m0 head hb (Or.inl rfl) ⟨(fun h => by cases h), rfl, rfl, rfl⟩ rfl rfl rfl rfl rfl rfl hl hs bs h5 hr
    refine ⟨ck', s, raw, ?_, e2, ?_⟩
    · show (newRequest method uri).bind _ = _
      rw [hn]
      exact e1
    · intro b hbb
      obtain ⟨b', x, r1, r2, r3, ⟨x1, x2, x3, x4, x5, x6, x7⟩, x8, x9, x9', x10⟩ := e3 b hbb
      exact ⟨b', x, r1, r2, r3, x8, by rw [e2]; simp, x9, x9', x1, x2, x3, x6, x7, x10⟩
  | reply cookie code phrase hs bs =>
    obtain ⟨h1, h2, h3, h4⟩ := hi
    have hn : newReply cookie code phrase =
        some { newMsg with type := .reply, code := code, phrase := if phrase = [] then codeDescription code else phrase, cookie := remote cookie } := by
      unfold newReply newRawReply
      rw [if_neg h1, if_neg (fun h => by rw [h] at h2; exact Nat.lt_irrefl _ h2)]
      rfl
    have hc : Clean (if phrase = [] then codeDescription code else phrase) := by
      split
      · exact description_clean code
      · rename_i hp; exact ⟨h3.1, h3.2, hp⟩
    obtain ⟨m0, head, hb, hl⟩ := reply_head code _ (remote cookie) h2 hc _ rfl
    obtain ⟨ck', s, raw, e1, e2, hck, _, e3⟩ := item_msg mvS env ha ck _ m0 head hb (Or.inr rfl) ⟨(fun h => by cases h), rfl, rfl, rfl⟩ rfl rfl rfl rfl rfl rfl hl hs bs h4 hr
    refine ⟨ck', s, raw, ?_, e2, ?_⟩
    · show (newReply cookie code phrase).bind _ = _
      rw [hn]
      exact e1
    · intro b hbb
      obtain ⟨b', x, r1, r2, r3, ⟨x1, x2, x3, x4, x5, x6, x7⟩, x8, x9, x9', x10⟩ := e3 b hbb
      refine ⟨b', x, r1, r2, r3, x8, by rw [e2]; simp, x9, x9', x1, x4, x5, x6, x7, ?_, x10⟩
      obtain ⟨⟨_, n, _, _, hn1, hn2, _⟩, _⟩ := x10
      rw [hn2, hn1, hck (by
        show remote cookie ≠ 0
        have : REMOTE = 9223372036854775808 := rfl
        unfold remote; omega) rfl]
      show remote (local_ (remote (remote cookie))) = _
      rw [remote_remote]
      unfold local_ remote
      rw [Nat.add_mod_right, Nat.mod_mod, Nat.mod_mod]
  | data channel payload =>
    obtain ⟨h1, h2, h3⟩ := hi
    have hw : W32 = 4294967296 := rfl
    have hn : newData channel payload = some { newMsg with type := .data, channel := channel, payload := payload } := by
      unfold newData
      rw [if_neg (by omega)]
    refine ⟨nextCookie ck, { newMsg with type := .data, channel := channel, payload := payload, cookie := nextCookie ck, isSealed := true, raw := some ([ch '$', channel.toUInt8, (payload.length / 256).toUInt8, payload.length.toUInt8] ++ payload) }, _, ?_, rfl, ?_⟩
    · show (newData channel payload).bind _ = _
      rw [hn]
      rfl
    · intro b hbb
      obtain ⟨b', x, r1, r2, r3, x1, x2, x3, x4, x5, x6⟩ := data_frame env ha channel payload h1 h2 h3 b hbb
      exact ⟨b', x, r1, r2, r3, x6, by simp, x4, x5, x1, x2, x3⟩

theorem items_frames (mvS : Moves) (env : Env) (ha : Accepts env) (is : List Item) (hi : ∀ i ∈ is, Sendable i ∧ Roomy env.mv (headerCount i + 3)) :
    ∀ ck, ∃ ms fs, makeAll mvS ck is = some ms ∧ stream ms = (fs.map Prod.fst).flatten ∧ (∀ f ∈ fs, Frame env f.1 f.2) ∧
      ∀ xs : List Msg, List.Forall₂ (fun x (f : List Byte × (Msg → Prop)) => f.2 x) xs fs → xs.length = is.length ∧ ms.length = is.length ∧
        ∀ (k : Nat) i s x, is[k]? = some i → ms[k]? = some s → xs[k]? = some x → Arrives i s x := by
  induction is with
  | nil =>
    intro ck
    refine ⟨[], [], rfl, rfl, (fun f hf => by cases hf), fun xs hx => ?_⟩
    cases hx
    exact ⟨rfl, rfl, fun k i s x h => by simp at h⟩
  | cons i t ih =>
    intro ck
    obtain ⟨ck', s, raw, e1, e2, e3⟩ := item_frame mvS env ha ck i (hi i List.mem_cons_self).1 (hi i List.mem_cons_self).2
    obtain ⟨ms, fs, i1, i2, i3, i4⟩ := ih (fun x hx => hi x (List.mem_cons_of_mem _ hx)) ck'
    refine ⟨s :: ms, (raw, Arrives i s) :: fs, ?_, ?_, ?_, ?_⟩
    · unfold makeAll
      rw [e1]
      simp only [Option.bind_some]
      rw [i1]
      rfl
    · unfold stream at i2 ⊢
      rw [List.map_cons, List.flatten_cons, i2, e2]
      rfl
    · intro f hf
      rcases List.mem_cons.mp hf with rfl | hf
      · exact e3
      · exact i3 f hf
    · intro xs hx
      cases hx with
      | cons h1 h2 =>
        obtain ⟨j1, j2, j3⟩ := i4 _ h2
        refine ⟨by simp [j1], by simp [j2], ?_⟩
        intro k i' s' x' hk1 hk2 hk3
        cases k with
        | zero =>
          simp only [List.getElem?_cons_zero, Option.some.injEq] at hk1 hk2 hk3
          subst hk1 hk2 hk3
          exact h1
        | succ k =>
          simp only [List.getElem?_cons_succ] at hk1 hk2 hk3
          exact j3 k i' s' x' hk1 hk2 hk3

end Verif.Rtsp
