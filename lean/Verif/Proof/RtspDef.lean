import Verif.Proof.RtspSeal
import Verif.Proof.RtspChunk
/-! The RTSP parser is defined on every stream unless the header array moved: helper lemmas. -/
namespace Verif.Rtsp
open Verif.C

/-- What holds of a message the parser has begun. -/
structure MsgInv (mv : Moves) (m : Msg) : Prop where
  open_ : Open m
  lined : Lined m.headers
  blined : Lined m.bodyHeaders
  live : Live m ∨ Moved mv m

/-- The same for the parser. -/
def PInv (mv : Moves) (d : Parser) : Prop := ∀ m, d.m = some m → MsgInv mv m

/-- The one dangerous situation: a message with at least 62 headers and an allocator that moves big arrays. -/
def Danger (mv : Moves) (d : Parser) : Prop :=
  (∃ m, d.m = some m ∧ 62 ≤ m.headers.length) ∧ ∃ c, 64 ≤ c ∧ mv c = true

theorem fresh_inv (mv : Moves) (m : Msg) (ht : m.type ≠ .data) (h1 : m.iterBody = false) (h2 : m.iterHeader = none) (h3 : m.isSealed = false)
    (h4 : m.headers = []) (h5 : m.bodyHeaders = []) (h6 : m.hcap = 0) (h7 : m.clen = none) (h8 : m.ctype = none) (h9 : m.cseq = none) :
    MsgInv mv m ∧ m.headers = [] := by
  refine ⟨⟨⟨ht, h1, h2, h3⟩, fun x hx => ?_, fun x hx => ?_, Or.inl ⟨?_, Or.inl h6, fun p hp => ?_, fun p hp => ?_, fun p hp => ?_⟩⟩, h4⟩
  · rw [h4] at hx; cases hx
  · rw [h5] at hx; cases hx
  · rw [h4]; exact Nat.zero_le _
  · rw [h7] at hp; cases hp
  · rw [h8] at hp; cases hp
  · rw [h9] at hp; cases hp

theorem newRequest_inv (mv : Moves) (a b : List Byte) (m : Msg) (h : newRequest a b = some m) : MsgInv mv m ∧ m.headers = [] := by
  unfold newRequest at h
  split at h
  · cases h
  · cases h; exact fresh_inv mv _ (by simp) rfl rfl rfl rfl rfl rfl rfl rfl rfl

theorem newRawReply_inv (mv : Moves) (a : Nat) (b : List Byte) (m : Msg) (h : newRawReply a b = some m) : MsgInv mv m ∧ m.headers = [] := by
  unfold newRawReply at h
  split at h
  · cases h
  · cases h; exact fresh_inv mv _ (by simp) rfl rfl rfl rfl rfl rfl rfl rfl rfl

theorem newUnknown_inv (mv : Moves) (a : List Byte) : MsgInv mv (newUnknown a) ∧ (newUnknown a).headers = [] :=
  fresh_inv mv _ (by simp [newUnknown]) rfl rfl rfl rfl rfl rfl rfl rfl rfl

theorem MsgInv.version (mv : Moves) {m : Msg} (a b : Nat) (h : MsgInv mv m) : MsgInv mv { m with major := a, minor := b } := by
  obtain ⟨⟨h1, h2, h3, h4⟩, h5, h6, h7⟩ := h
  refine ⟨⟨h1, h2, h3, h4⟩, h5, h6, ?_⟩
  rcases h7 with ⟨a1, a2, a3, a4, a5⟩ | h7
  · exact Or.inl ⟨a1, a2, a3, a4, a5⟩
  · exact Or.inr h7

theorem MsgInv.setCookie (mv : Moves) {m : Msg} (a : Nat) (h : MsgInv mv m) : MsgInv mv { m with cookie := a } := by
  obtain ⟨⟨h1, h2, h3, h4⟩, h5, h6, h7⟩ := h
  refine ⟨⟨h1, h2, h3, h4⟩, h5, h6, ?_⟩
  rcases h7 with ⟨a1, a2, a3, a4, a5⟩ | h7
  · exact Or.inl ⟨a1, a2, a3, a4, a5⟩
  · exact Or.inr h7

theorem fromHead_inv (mv : Moves) (l : List Byte) (m : Msg) (h : fromHead l = some m) : MsgInv mv m := by
  unfold fromHead at h
  split at h
  · unfold fromReply at h
    simp only at h
    split at h
    · simp only [Option.map_eq_some_iff] at h
      obtain ⟨x, hx, h⟩ := h
      rw [← h]; exact (newRawReply_inv mv _ _ _ hx).1.version mv _ _
    · cases h; exact (newUnknown_inv mv _).1
  · unfold fromRequest at h
    simp only at h
    split at h
    · simp only [Option.map_eq_some_iff] at h
      obtain ⟨x, hx, h⟩ := h
      rw [← h]; exact (newRequest_inv mv _ _ _ hx).1.version mv _ _
    · cases h; exact (newUnknown_inv mv _).1

theorem MsgInv.push (mv : Moves) {m : Msg} (h : Header) (hl : h.line ≠ none) (hm : MsgInv mv m) : MsgInv mv (pushHeader mv m h) := by
  refine ⟨hm.open_.push mv h, hm.lined.push mv h hm.open_.iterBody hl, ?_, ?_⟩
  · rw [(push_same mv m h hm.open_.iterBody).2.2.2.2.2.2.1]; exact hm.blined
  · rcases hm.live with h1 | h1
    · exact h1.push mv h hm.open_.iterBody
    · exact Or.inr (h1.push mv h hm.open_.iterBody)

theorem negInval : ¬ (0 : Int) ≤ -EINVAL := by decide
theorem negNomem : ¬ (0 : Int) ≤ -ENOMEM := by decide

theorem appendHeader_ex (mv : Moves) (m : Msg) (k v : List Byte) (n : Nat) (line : Option (List Byte)) (r : Int × Msg)
    (h : appendHeader mv m k v n line = r) (h0 : 0 ≤ r.1) :
    r.1 = 0 ∧ m.type ≠ .data ∧ ∃ x : Header, x.line = line ∧ r.2 = pushHeader mv m x := by
  unfold appendHeader at h
  split at h
  · rw [← h] at h0; exact absurd h0 negInval
  · split at h
    · rw [← h] at h0; exact absurd h0 negNomem
    · rw [← h]; exact ⟨rfl, by assumption, _, rfl, rfl⟩

/-- A header line of a message outside of its body. -/
theorem appendHeaderLine_ex (mv : Moves) (m : Msg) (line : List Byte) (r : Int × Msg) (h : appendHeaderLine mv m line = r) (h0 : 0 ≤ r.1) :
    r.1 = 0 ∧ m.type ≠ .data ∧ ∃ x : Header, x.line = some (line ++ [13, 10]) ∧ r.2 = pushHeader mv m x :=
  appendHeader_ex mv m _ _ _ _ r h h0

theorem parserAppendHeader_def (env : Env) (d : Parser) (m : Msg) (line : List Byte) (hm : MsgInv env.mv m) :
    ∃ r, parserAppendHeader env d m line = some r ∧ (0 ≤ r.1 → PInv env.mv r.2) := by
  unfold parserAppendHeader
  simp only
  generalize hr : appendHeaderLine env.mv m line = r
  by_cases h0 : r.1 < 0
  · rw [if_pos h0]; exact ⟨_, rfl, fun h => absurd h (by show ¬ 0 ≤ r.1; omega)⟩
  · rw [if_neg h0]
    obtain ⟨h1, ht, x, hx, h2⟩ := appendHeaderLine_ex env.mv m line r hr (by omega)
    have hl : r.2.headers.getLast? = some x := by rw [h2, push_headers _ _ _ hm.open_.iterBody]; simp
    have hi : MsgInv env.mv r.2 := by rw [h2]; exact hm.push env.mv x (by rw [hx]; simp)
    rw [hl]
    simp only [Option.bind_eq_bind, Option.bind_some]
    split
    · split
      · exact ⟨_, rfl, fun h => absurd h negInval⟩
      · split
        · exact ⟨_, rfl, fun h => absurd h negInval⟩
        · exact ⟨_, rfl, fun _ m' hm' => by cases hm'; exact hi⟩
    · split
      · split
        · exact ⟨_, rfl, fun _ m' hm' => by cases hm'; exact hi⟩
        · refine ⟨_, rfl, fun _ m' hm' => ?_⟩
          simp only [Option.some.injEq] at hm'
          rw [← hm']
          split
          · exact hi.setCookie env.mv _
          · exact hi
      · exact ⟨_, rfl, fun _ m' hm' => by cases hm'; exact hi⟩

theorem finish_def (env : Env) (d : Parser) (hd : PInv env.mv d) (hb : d.buflen ≤ d.ring.length) :
    ∃ r, finishHeaderLine env d = some r ∧ (0 ≤ r.1 → PInv env.mv r.2) := by
  unfold finishHeaderLine copyOut
  rw [if_pos hb]
  simp only [Option.bind_eq_bind, Option.bind_some]
  cases hm : d.m with
  | none =>
    simp only
    cases hf : fromHead (Sanitize.Spec.text (d.ring.take d.buflen)) with
    | none => exact ⟨_, rfl, fun h => absurd h negInval⟩
    | some m => exact ⟨_, rfl, fun _ m' hm' => by cases hm'; exact fromHead_inv _ _ _ hf⟩
  | some m => exact parserAppendHeader_def env d m _ (hd m hm)

theorem finish_moved (env : Env) (d : Parser) (r : Int × Parser) (h : finishHeaderLine env d = some r) (h0 : 0 ≤ r.1) (m : Msg)
    (hm : r.2.m = some m) (hd : PInv env.mv d) :
    m.headers = [] ∨ ∃ m0, d.m = some m0 ∧ m.headers.length = m0.headers.length + 1 := by
  unfold finishHeaderLine at h
  simp only [Option.bind_eq_bind, Option.bind_eq_some_iff] at h
  obtain ⟨raw, _, h⟩ := h
  cases hdm : d.m with
  | none =>
    rw [hdm] at h
    simp only at h
    cases hf : fromHead (Sanitize.Spec.text raw) with
    | none => rw [hf] at h; cases h; exact absurd h0 negInval
    | some m' =>
      rw [hf] at h
      cases h
      simp only [Option.some.injEq] at hm
      left
      rw [← hm]
      unfold fromHead fromReply fromRequest at hf
      split at hf
      · simp only at hf
        split at hf
        · simp only [Option.map_eq_some_iff] at hf
          obtain ⟨x, hx, hf⟩ := hf
          rw [← hf]; exact (newRawReply_inv env.mv _ _ _ hx).2
        · cases hf; rfl
      · simp only at hf
        split at hf
        · simp only [Option.map_eq_some_iff] at hf
          obtain ⟨x, hx, hf⟩ := hf
          rw [← hf]; exact (newRequest_inv env.mv _ _ _ hx).2
        · cases hf; rfl
  | some m0 =>
    right
    rw [hdm] at h
    simp only at h
    have hm0 := hd m0 hdm
    unfold parserAppendHeader at h
    simp only at h
    generalize hr : appendHeaderLine env.mv m0 (Sanitize.Spec.text raw) = q at h
    by_cases hq : q.1 < 0
    · rw [if_pos hq] at h; cases h; exact absurd h0 (by show ¬ 0 ≤ q.1; omega)
    · rw [if_neg hq] at h
      obtain ⟨_, _, x, hx, h2⟩ := appendHeaderLine_ex env.mv m0 _ q hr (by omega)
      have hlen : q.2.headers.length = m0.headers.length + 1 := by
        rw [h2, push_headers _ _ _ hm0.open_.iterBody, List.length_append]; rfl
      simp only [Option.bind_eq_bind, Option.bind_eq_some_iff] at h
      obtain ⟨y, _, h⟩ := h
      refine ⟨m0, rfl, ?_⟩
      split at h
      · split at h
        · cases h; exact absurd h0 negInval
        · split at h
          · cases h; exact absurd h0 negInval
          · cases h; cases hm; exact hlen
      · split at h
        · split at h
          · cases h; cases hm; exact hlen
          · cases h
            simp only [Option.some.injEq] at hm
            rw [← hm]
            split <;> exact hlen
        · cases h; cases hm; exact hlen

/-- Submitting is defined, or the situation is dangerous. -/
theorem submit_def (env : Env) (b : Bus) (hd : PInv env.mv b.dec) :
    (∃ r, submit env b = some r ∧ r.2.dec.m = none) ∨
    (∃ m, b.dec.m = some m ∧ 63 ≤ m.headers.length ∧ ∃ c, 64 ≤ c ∧ env.mv c = true) := by
  unfold submit
  cases hm : b.dec.m with
  | none => exact Or.inl ⟨_, rfl, hm⟩
  | some m =>
    have hi := hd m hm
    have hsd : (∃ x, sealMsg env.mv b.cookies m = some x) ∨ (63 ≤ m.headers.length ∧ ∃ c, 64 ≤ c ∧ env.mv c = true) := by
      unfold sealMsg
      rw [if_neg (by rw [hi.open_.notSealed]; decide), if_neg (by rw [hi.open_.iterBody, hi.open_.iterHeader]; decide)]
      simp only
      rw [if_neg hi.open_.type]
      rcases hi.live with hl | hl
      · generalize hM : ({ m with cookie := if m.type = .reply then remote (if m.cookie = 0 then if m.cookie = 0 then nextCookie b.cookies else b.cookies else m.cookie) else (if m.cookie = 0 then if m.cookie = 0 then nextCookie b.cookies else b.cookies else m.cookie) } : Msg) = M
        have hs := serialize_def env.mv M (by rw [← hM]; exact ⟨hi.open_.type, hi.open_.iterBody, hi.open_.iterHeader, hi.open_.notSealed⟩)
          (by rw [← hM]; exact ⟨hl.cap, hl.cap0, hl.clen, hl.ctype, hl.cseq⟩) (by rw [← hM]; exact hi.lined) (by rw [← hM]; exact hi.blined)
        rcases hs with ⟨m', h⟩ | h
        · rw [h]
          exact Or.inl ⟨_, rfl⟩
        · right
          rw [← hM] at h
          exact h
      · exact Or.inr ⟨by have := hl.1; omega, hl.2⟩
    rcases hsd with ⟨x, hx⟩ | h
    · left
      simp only [Option.bind_eq_bind]
      rw [hx]
      simp only [Option.bind_some]
      split
      · exact ⟨_, rfl, rfl⟩
      · exact ⟨_, rfl, rfl⟩
    · exact Or.inr ⟨m, rfl, h⟩

theorem submitData_def (env : Env) (b : Bus) (p : List Byte) : ∃ r, submitData env b p = some r ∧ r.2.dec = b.dec := by
  unfold submitData
  cases hn : newData b.dec.dataChannel p with
  | none => exact ⟨_, rfl, rfl⟩
  | some m =>
    unfold newData at hn
    split at hn
    · cases hn
    · have hs : ∃ x, sealMsg env.mv b.cookies m = some x := by
        cases hn
        unfold sealMsg
        rw [if_neg (by show ¬ false = true; decide), if_neg (by show ¬ (false = true ∨ none ≠ none); decide)]
        exact ⟨_, rfl⟩
      obtain ⟨x, hx⟩ := hs
      simp only [Option.bind_eq_bind]
      rw [hx]
      simp only [Option.bind_some]
      split
      · exact ⟨_, rfl, rfl⟩
      · exact ⟨_, rfl, rfl⟩

/-- One step is defined and keeps the invariant, or the situation is dangerous. -/
def Fine (env : Env) (d : Parser) (x : Option (Int × Bus)) : Prop :=
  (∃ r, x = some r ∧ (0 ≤ r.1 → PInv env.mv r.2.dec)) ∨ Danger env.mv d

theorem PInv.same {mv : Moves} {d e : Parser} (h : PInv mv d) (he : e.m = d.m) : PInv mv e := fun m hm => h m (he ▸ hm)
theorem PInv.none {mv : Moves} {d : Parser} (h : d.m = none) : PInv mv d := fun m hm => by rw [h] at hm; cases hm

theorem feedNew_m (d : Parser) (c : Byte) : (feedNew d c).m = d.m := by
  unfold feedNew; split
  · rfl
  · split <;> rfl

theorem headerChar_m (d : Parser) (c : Byte) : (headerChar d c).m = d.m := by
  unfold headerChar; split <;> rfl

theorem feedQuote_m (d : Parser) (c : Byte) : (feedQuote d c).m = d.m := by
  unfold feedQuote; split
  · rfl
  · split <;> rfl

theorem headerEnd_def (env : Env) (b : Bus) (d : Parser) (s0 s1 : PState) (hd : PInv env.mv d) (hb : d.buflen ≤ d.ring.length) :
    Fine env d (headerEnd env b d s0 s1) := by
  obtain ⟨r, hr, hi⟩ := finish_def env d hd hb
  unfold headerEnd
  rw [hr]
  simp only [Option.bind_eq_bind, Option.bind_some]
  by_cases h0 : r.1 < 0
  · rw [if_pos h0]; exact Or.inl ⟨_, rfl, fun h => absurd h (by show ¬ 0 ≤ r.1; omega)⟩
  · rw [if_neg h0]
    have hi' := hi (by omega)
    split
    · rcases submit_def env (b.put ((pull r.2 (r.2.buflen + 1) 0).goto s0)) (hi'.same rfl) with ⟨x, hx, hn⟩ | ⟨m, hm, h1, h2⟩
      · exact Or.inl ⟨x, hx, fun _ => PInv.none hn⟩
      · right
        rcases finish_moved env d r hr (by omega) m hm hd with h | ⟨m0, h3, h4⟩
        · rw [h] at h1; exact absurd h1 (by decide)
        · exact ⟨⟨m0, h3, by omega⟩, h2⟩
    · exact Or.inl ⟨_, rfl, fun _ => hi'.same rfl⟩

theorem feedHeader_def (env : Env) (b : Bus) (c : Byte) (hd : PInv env.mv b.dec) (hb : b.dec.buflen + 1 = b.dec.ring.length) :
    Fine env b.dec (feedHeader env b c) := by
  unfold feedHeader
  simp only
  split
  · split
    · exact headerEnd_def env b (b.dec.goto .headerNl) _ _ (hd.same rfl) (by show b.dec.buflen ≤ b.dec.ring.length; omega)
    · exact Or.inl ⟨_, rfl, fun _ => hd.same rfl⟩
  · split
    · split
      · exact headerEnd_def env b b.dec _ _ hd (by omega)
      · exact Or.inl ⟨_, rfl, fun _ => hd.same rfl⟩
    · split
      · exact Or.inl ⟨_, rfl, fun _ => hd.same rfl⟩
      · split
        · obtain ⟨r, hr, hi⟩ := finish_def env b.dec hd (by omega)
          rw [hr]
          simp only [Option.bind_eq_bind, Option.bind_some]
          by_cases h0 : r.1 < 0
          · rw [if_pos h0]; exact Or.inl ⟨_, rfl, fun h => absurd h (by show ¬ 0 ≤ r.1; omega)⟩
          · rw [if_neg h0]
            exact Or.inl ⟨_, rfl, fun _ => (hi (by omega)).same (headerChar_m _ _)⟩
        · exact Or.inl ⟨_, rfl, fun _ => hd.same (headerChar_m _ _)⟩

/-- What appending lines to the body does to the message. -/
theorem appendBodyLines_inv (mv : Moves) (ls : List (List Byte)) : ∀ m : Msg, m.iterBody = true → Lined m.bodyHeaders →
    ∃ bh, (appendBodyLines mv m ls).2 = { m with bodyHeaders := bh } ∧ Lined bh := by
  induction ls with
  | nil => intro m _ hl; exact ⟨m.bodyHeaders, rfl, hl⟩
  | cons l t ih =>
    intro m hm hl
    unfold appendBodyLines
    simp only
    have key : ∃ bh, (appendHeaderLine mv m (Sanitize.Spec.text l)).2 = { m with bodyHeaders := bh } ∧ Lined bh := by
      unfold appendHeaderLine appendHeader
      simp only
      generalize (if rtrimLen (List.drop 1 (List.dropWhile (fun x => decide (x ≠ ch ':')) (Sanitize.Spec.text l))) = 0 then 0
        else (List.takeWhile (fun x => decide (x = ch ' ')) (List.drop 1 (List.dropWhile (fun x => decide (x ≠ ch ':')) (Sanitize.Spec.text l)))).length) = ld
      split
      · exact ⟨m.bodyHeaders, rfl, hl⟩
      · split
        · exact ⟨m.bodyHeaders, rfl, hl⟩
        · unfold pushHeader
          rw [if_pos hm]
          refine ⟨_, rfl, fun x hx => ?_⟩
          rcases List.mem_append.mp hx with hx | hx
          · exact hl x hx
          · rw [List.mem_singleton.mp hx]; simp
    obtain ⟨bh, h1, h2⟩ := key
    split
    · exact ⟨bh, h1, h2⟩
    · rw [h1]
      obtain ⟨bh', h3, h4⟩ := ih { m with bodyHeaders := bh } hm h2
      exact ⟨bh', h3, h4⟩

theorem appendBody_def (mv : Moves) (m : Msg) (raw : List Byte) (hm : MsgInv mv m) :
    (∃ a, appendBody mv m raw = some a ∧ (0 ≤ a.1 → MsgInv mv a.2 ∧ a.2.headers = m.headers)) ∨ Moved mv m := by
  rcases hm.live.symm with hl | hl
  · exact Or.inr hl
  left
  unfold appendBody
  split
  · exact ⟨_, rfl, fun _ => ⟨hm, rfl⟩⟩
  · have hct : ∃ ct, contentType m = some ct := by
      unfold contentType
      cases hc : m.ctype with
      | none => exact ⟨_, rfl⟩
      | some p =>
        obtain ⟨h1, h2⟩ := hl.ctype p hc
        simp only
        rw [if_pos h1, List.getElem?_eq_getElem h2]
        exact ⟨_, rfl⟩
    obtain ⟨ct, hct⟩ := hct
    have hset : ∀ (bo : Option (List Byte)) (bh : List Header), Lined bh → MsgInv mv { m with body := bo, bodyHeaders := bh } := fun bo bh hbh =>
      ⟨⟨hm.open_.type, hm.open_.iterBody, hm.open_.iterHeader, hm.open_.notSealed⟩, hm.lined, hbh,
        Or.inl ⟨hl.cap, hl.cap0, hl.clen, hl.ctype, hl.cseq⟩⟩
    simp only [Option.bind_eq_bind]
    rw [hct]
    simp only [Option.bind_some]
    split
    · exact ⟨_, rfl, fun _ => ⟨hset (some raw) m.bodyHeaders hm.blined, rfl⟩⟩
    · split
      · rename_i hneg; exact ⟨_, rfl, fun h => absurd h (Int.not_le.mpr hneg)⟩
      · have ho : openBody m = (0, { m with iterBody := true }) := by
          unfold openBody
          rw [if_neg hm.open_.type, if_neg (by rw [hm.open_.notSealed]; decide), if_neg (by rw [hm.open_.iterHeader, hm.open_.iterBody]; decide)]
        rw [ho]
        obtain ⟨bh, h1, h2⟩ := appendBodyLines_inv mv (bodyLines [] raw) { m with iterBody := true } rfl hm.blined
        split
        · rename_i hneg; exact ⟨_, rfl, fun h => absurd h (Int.not_le.mpr hneg)⟩
        · refine ⟨_, rfl, fun _ => ?_⟩
          rw [h1]
          have hc : closeBody { { m with iterBody := true } with bodyHeaders := bh } = (0, { m with body := m.body, bodyHeaders := bh }) := by
            unfold closeBody
            rw [if_neg (show ¬ m.type = .data from hm.open_.type), if_neg (show ¬ m.isSealed = true from by rw [hm.open_.notSealed]; decide),
              if_neg (show ¬ true = false from by decide), if_neg (show ¬ (m.iterHeader ≠ none) from by rw [hm.open_.iterHeader]; simp)]
            have := hm.open_.iterBody
            congr 1
            rw [← this]
          rw [hc]
          exact ⟨hset m.body bh h2, rfl⟩

theorem bodyDone_def (env : Env) (b : Bus) (hd : PInv env.mv b.dec) (hb : b.dec.buflen ≤ b.dec.ring.length) :
    Fine env b.dec (bodyDone env b) := by
  unfold bodyDone
  cases hm : b.dec.m with
  | none => exact Or.inl ⟨_, rfl, fun _ => PInv.none hm⟩
  | some m =>
    simp only
    unfold copyOut
    rw [if_pos hb]
    simp only [Option.bind_eq_bind, Option.bind_some]
    rcases appendBody_def env.mv m (b.dec.ring.take b.dec.buflen) (hd m hm) with ⟨a, ha, hi⟩ | hmv
    · rw [ha]
      simp only [Option.bind_some]
      by_cases h0 : 0 ≤ a.1
      · rw [if_pos h0]
        rcases submit_def env (b.put (b.dec.setM (some a.2))) (fun m' hm' => by cases hm'; exact (hi h0).1) with ⟨x, hx, hn⟩ | ⟨m', hm', h1, h2⟩
        · exact Or.inl ⟨x, hx, fun _ => PInv.none hn⟩
        · right
          cases hm'
          exact ⟨⟨m, hm, by rw [(hi h0).2] at h1; omega⟩, h2⟩
      · rw [if_neg h0]
        exact Or.inl ⟨_, rfl, fun h => absurd h (by show ¬ 0 ≤ a.1; omega)⟩
    · exact Or.inr ⟨⟨m, hm, by have := hmv.1; omega⟩, hmv.2⟩

theorem feedBody_def (env : Env) (b : Bus) (c : Byte) (hd : PInv env.mv b.dec) (hb : b.dec.buflen + 1 = b.dec.ring.length) :
    Fine env b.dec (feedBody env b c) := by
  unfold feedBody
  split
  · exact Or.inl ⟨_, rfl, fun _ => hd.same (feedNew_m _ _)⟩
  · simp only
    split
    · exact Or.inl ⟨_, rfl, fun _ => hd.same rfl⟩
    · rcases bodyDone_def env (b.put { b.dec.inc with remaining := b.dec.remaining - 1 }) (hd.same rfl) (Nat.le_of_eq hb) with ⟨x, hx, hi⟩ | h
      · rw [hx]
        refine Or.inl ⟨_, rfl, fun h => ?_⟩
        by_cases h0 : x.1 < 0
        · exact absurd h (by unfold reset; show ¬ 0 ≤ (if x.1 < 0 then x.1 else 0); rw [if_pos h0]; omega)
        · exact (hi (by omega)).same rfl
      · exact Or.inr h

/-- One character: defined, or dangerous. -/
theorem feedChar_def (env : Env) (b : Bus) (c : Byte) (hd : PInv env.mv b.dec) (hb : b.dec.buflen + 1 = b.dec.ring.length) :
    Fine env b.dec (feedChar env b c) := by
  unfold feedChar
  cases hs : b.dec.state with
  | new => exact Or.inl ⟨_, rfl, fun _ => hd.same (feedNew_m _ _)⟩
  | header => exact feedHeader_def env b c hd hb
  | headerQuote => exact Or.inl ⟨_, rfl, fun _ => hd.same (feedQuote_m _ _)⟩
  | headerNl =>
    unfold feedNl
    simp only
    split
    · exact Or.inl ⟨_, rfl, fun _ => hd.same rfl⟩
    · exact feedBody_def env (b.put ((pull b.dec b.dec.buflen 0).goto .body)) c (hd.same rfl)
        (by show 0 + 1 = (b.dec.ring.drop b.dec.buflen).length; rw [List.length_drop]; omega)
  | body => exact feedBody_def env b c hd hb
  | dataHead =>
    left
    unfold feedDataHead copyOut
    simp only
    split
    · rename_i h3
      rw [if_pos (by omega)]
      simp only [Option.bind_eq_bind, Option.bind_some]
      have hl : (b.dec.ring.take 3).length = 3 := by rw [List.length_take]; omega
      rw [List.getElem?_eq_getElem (by omega), List.getElem?_eq_getElem (by omega), List.getElem?_eq_getElem (by omega)]
      exact ⟨_, rfl, fun _ => hd.same rfl⟩
    · exact ⟨_, rfl, fun _ => hd.same rfl⟩
  | dataBody =>
    left
    unfold feedDataBody copyOut
    simp only
    split
    · rename_i h3
      rw [if_pos (show b.dec.inc.dataSize ≤ b.dec.inc.ring.length from Nat.le_trans h3 (Nat.le_of_eq hb))]
      simp only [Option.bind_eq_bind, Option.bind_some]
      obtain ⟨r, hr, he⟩ := submitData_def env (b.put b.dec.inc) (b.dec.inc.ring.take b.dec.inc.dataSize)
      rw [hr]
      exact ⟨_, rfl, fun _ => hd.same (by show r.2.dec.m = _; rw [he]; rfl)⟩
    · exact ⟨_, rfl, fun _ => hd.same rfl⟩

/-- A stream on which the machine is undefined goes through a dangerous state. -/
theorem run_def (env : Env) (t : List Byte) : ∀ b : Bus, Sync b → PInv env.mv b.dec → run env b t = none →
    ∃ pre c post b', t = pre ++ c :: post ∧ run env b pre = some (0, b') ∧ Danger env.mv b'.dec := by
  induction t with
  | nil => intro b _ _ h; cases h
  | cons c t ih =>
    intro b hb hd h
    rcases feedChar_def env (b.ext [c]) c (hd.same rfl) (sync_push b c hb) with ⟨r, hr, hi⟩ | hdg
    · unfold run at h
      rw [hr] at h
      simp only [Option.bind_eq_bind, Option.bind_some] at h
      split at h
      · cases h
      · rename_i h0
        obtain ⟨pre, c', post, b', h1, h2, h3⟩ := ih (r.2.last c) (feed_sync env b hb c r hr (by omega)) ((hi (by omega)).same rfl) h
        refine ⟨c :: pre, c', post, b', by rw [h1]; rfl, ?_, h3⟩
        unfold run
        rw [hr]
        simp only [Option.bind_eq_bind, Option.bind_some]
        rw [if_neg h0]
        exact h2
    · exact ⟨[], c, t, b, rfl, rfl, hdg⟩

end Verif.Rtsp
