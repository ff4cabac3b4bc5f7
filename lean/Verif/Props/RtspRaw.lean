import Verif.Proof.RtspRaw
/-!
# Messages from raw text (C141)

`rtsp_message_new_from_raw` on the text of a message.
-/
namespace Verif.Rtsp
open Verif.C
open Spec (Item make Sendable headerCount numbered OneLine bodyOf Says)

theorem head_one {ms : Msg} {head x : List Byte} (hl : headLine ms = some (head ++ crlf)) (he : headLine ms = some (x ++ crlf)) (hx : OneL x) : OneL head := by
  rw [hl] at he
  have := List.append_cancel_right (Option.some.inj he)
  rw [this]; exact hx

theorem dec_one (k : Nat) : OneL (dec k) := by
  intro c hc
  have := dec_digits k c hc
  constructor
  · intro e; rw [e] at this; exact absurd this (by decide)
  · intro e; rw [e] at this; exact absurd this (by decide)

theorem oneL_append {a b : List Byte} (ha : OneL a) (hb : OneL b) : OneL (a ++ b) := by
  intro c hc
  rcases List.mem_append.mp hc with h | h
  · exact ha c h
  · exact hb c h

theorem description_one (code : Nat) : OneL (codeDescription code) := by
  unfold codeDescription
  cases h : codeDescriptions.lookup code with
  | none => unfold OneL; decide +kernel
  | some s =>
    have hm : ∀ (l : List (Nat × String)), l.lookup code = some s → ∃ k, (k, s) ∈ l := by
      intro l
      induction l with
      | nil => intro h; cases h
      | cons x t ih =>
        intro h
        rw [List.lookup_cons] at h
        split at h
        · cases h
          exact ⟨x.1, List.mem_cons_self⟩
        · obtain ⟨k, hk⟩ := ih h
          exact ⟨k, List.mem_cons_of_mem _ hk⟩
    obtain ⟨k, hk⟩ := hm _ h
    have hall : ∀ x ∈ codeDescriptions, ∀ c ∈ bytes x.2, c ≠ 13 ∧ c ≠ 10 := by decide +kernel
    exact hall _ hk

/-- The text of an item and what becomes of it. -/
theorem raw_item (mvS mv : Moves) (ck ck' : Nat) (i : Item) (hi : Sendable i) (hl : OneLine i) (hr : Roomy mv (headerCount i + 3)) :
    ∃ c s raw c2 s2, make mvS ck i = some (c, s) ∧ s.raw = some raw ∧ make mvS ck' (numbered (nextCookie ck') i) = some (c2, s2) ∧
      (∃ x, fromRaw mv true ck' raw = some (0, nextCookie ck', some x) ∧ Says i (nextCookie ck') x ∧ x.raw = s2.raw) ∧
      (bodyOf i ≠ [] → fromRaw mv false ck' raw = none) ∧ (∀ k code p hs bs, i = .reply k code p hs bs → s.cookie = remote k) := by
  cases i with
  | request method uri hs bs =>
    obtain ⟨h1, h2, h3, h4, h5⟩ := hi
    have hn : newRequest method uri = some { newMsg with type := .request, method := method, uri := uri } := by
      unfold newRequest
      rw [if_neg (fun x => x.elim h1.1 h2.1)]
    obtain ⟨m0, head, hb, hhl⟩ := request_head method uri h1 h2 h3 h4 _ rfl
    have hone : OneL head := by
      refine head_one hhl (x := method ++ [ch ' '] ++ uri ++ bytes " RTSP/" ++ dec 1 ++ [ch '.'] ++ dec 0) rfl ?_
      have w : ∀ x, Spec.Word x → OneL x := fun x hx c hc => ⟨(hx.2 c hc).2.2.2.2.1, (hx.2 c hc).2.2.2.1⟩
      refine oneL_append (oneL_append (oneL_append (oneL_append (oneL_append (oneL_append (w _ h1) ?_) (w _ h2)) ?_) (dec_one 1)) ?_) (dec_one 0) <;>
        (unfold OneL; decide +kernel)
    have mk : ∀ ck, ∃ c s, make mvS ck (.request method uri hs bs) = some (c, s) ∧ s.cookie = nextCookie ck ∧
        s.raw = some (wire head (hs.map hdrText ++ specials (bs.map hdrText) (local_ s.cookie)) (flat (bs.map hdrText))) := by
      intro ck
      obtain ⟨c, s, e1, e2, e3⟩ := finish_raw mvS ck _ head (Or.inl rfl) ⟨(fun h => by cases h), rfl, rfl, rfl⟩ rfl rfl rfl rfl rfl rfl hhl hs bs h5
      refine ⟨c, s, ?_, e2, e3⟩
      show (newRequest method uri).bind _ = _
      rw [hn]; exact e1
    obtain ⟨c, s, e1, e2, e3⟩ := mk ck
    obtain ⟨c2, s2, f1, f2, f3⟩ := mk ck'
    obtain ⟨⟨x, x0, x1, x2, x3, x4, x5, x6, x7, x8, x9, x10, x11, x12, x13, x14, x15⟩, hov⟩ :=
      raw_again mv ck' _ m0 head hb hone (Or.inl rfl) hs bs h5 hl hr (local_ s.cookie)
    have hc : x.cookie = nextCookie ck' := x11
    refine ⟨c, s, _, c2, s2, e1, e3, f1, ⟨x, x0, ⟨x1, x2, x9, x10, x3, x4, x5, x6, hc, _, x13, ?_, x15⟩, ?_⟩, hov, fun _ _ _ _ _ h => by cases h⟩
    · rw [x14, hc]
    · rw [x12, f3, hc, f2]
  | reply cookie code phrase hs bs =>
    obtain ⟨h1, h2, h3, h4⟩ := hi
    obtain ⟨l1, l2⟩ := hl
    have hn : ∀ k, k ≠ 0 → newReply k code phrase =
        some { newMsg with type := .reply, code := code, phrase := if phrase = [] then codeDescription code else phrase, cookie := remote k } := by
      intro k hk
      unfold newReply newRawReply
      rw [if_neg hk, if_neg (fun h => by rw [h] at h2; exact Nat.lt_irrefl _ h2)]
      rfl
    have hc : Clean (if phrase = [] then codeDescription code else phrase) := by
      split
      · exact description_clean code
      · rename_i hp; exact ⟨h3.1, h3.2, hp⟩
    have hpo : OneL (if phrase = [] then codeDescription code else phrase) := by
      split
      · exact description_one code
      · intro c hc; exact ⟨fun e => l1.1 (e ▸ hc), fun e => l1.2 (e ▸ hc)⟩
    obtain ⟨m0, head, hb, hhl⟩ := reply_head code _ 0 h2 hc _ rfl
    have hone : OneL head := by
      refine head_one hhl (x := bytes "RTSP/" ++ dec 1 ++ [ch '.'] ++ dec 0 ++ [ch ' '] ++ dec code ++ [ch ' '] ++ _) rfl ?_
      refine oneL_append (oneL_append (oneL_append (oneL_append (oneL_append (oneL_append (oneL_append ?_ (dec_one 1)) ?_) (dec_one 0)) ?_) (dec_one code)) ?_) hpo <;>
        (unfold OneL; decide +kernel)
    have hne : ∀ k, remote k ≠ 0 := by
      intro k
      have : REMOTE = 9223372036854775808 := rfl
      unfold remote; omega
    have mk : ∀ ck k, k ≠ 0 → ∃ c s, make mvS ck (.reply k code phrase hs bs) = some (c, s) ∧ s.cookie = remote k ∧
        s.raw = some (wire head (hs.map hdrText ++ specials (bs.map hdrText) (local_ s.cookie)) (flat (bs.map hdrText))) := by
      intro ck k hk
      obtain ⟨c, s, e1, e2, e3⟩ := finish_raw mvS ck { newMsg with type := .reply, code := code, phrase := if phrase = [] then codeDescription code else phrase, cookie := remote k }
        head (Or.inr rfl) ⟨(fun h => by cases h), rfl, rfl, rfl⟩ rfl rfl rfl rfl rfl rfl hhl hs bs h4
      refine ⟨c, s, ?_, ?_, e3⟩
      · show (newReply k code phrase).bind _ = _
        rw [hn k hk]; exact e1
      · rw [e2, if_pos rfl, if_neg (hne k), remote_remote]
    obtain ⟨c, s, e1, e2, e3⟩ := mk ck cookie h1
    obtain ⟨c2, s2, f1, f2, f3⟩ := mk ck' (nextCookie ck') (nextCookie_ne ck')
    obtain ⟨⟨x, x0, x1, x2, x3, x4, x5, x6, x7, x8, x9, x10, x11, x12, x13, x14, x15⟩, hov⟩ :=
      raw_again mv ck' _ m0 head hb hone (Or.inr rfl) hs bs h4 l2 hr (local_ s.cookie)
    have hc : x.cookie = remote (nextCookie ck') := x11
    have hlr : local_ (remote (nextCookie ck')) = local_ (nextCookie ck') := by
      unfold local_ remote
      rw [Nat.add_mod_right, Nat.mod_mod]
    refine ⟨c, s, _, c2, s2, e1, e3, f1, ⟨x, x0, ⟨x1, x2, x9, x10, x3, x4, x7, x8, hc, _, x13, ?_, x15⟩, ?_⟩, hov, fun _ _ _ _ _ h => by cases h; exact e2⟩
    · rw [x14, hc, hlr]
    · rw [x12, f3, hc, f2]
  | data channel payload => exact hl.elim

/-- **C141 (partial).** The text of a request or reply made through the message API (sealed on whatever bus), handed to
`rtsp_message_new_from_raw`, gives a sealed message that says the same: same method and URI or code and phrase, same headers
and tokens, same body; and its text is what this bus would have made of the same item with its next number. Missing from the
full claim: the number is not kept (`raw_renumbers`), the byte behind the text must be readable (`raw_overread`), quoted
line breaks are not kept (`raw_splits`), data frames are not understood (`raw_data`), and items that are not `Sendable` (C18). -/
theorem raw_roundtrip_partial (mvS mv : Moves) (ck ck' : Nat) (i : Item) (hi : Sendable i) (hl : OneLine i)
    (hr : headerCount i + 3 ≤ 64 ∨ ∀ c, 64 ≤ c → mv c = false) :
    ∃ c s raw c2 s2 x, make mvS ck i = some (c, s) ∧ s.raw = some raw ∧ make mvS ck' (numbered (nextCookie ck') i) = some (c2, s2) ∧
      fromRaw mv true ck' raw = some (0, nextCookie ck', some x) ∧ Says i (nextCookie ck') x ∧ x.raw = s2.raw := by
  obtain ⟨c, s, raw, c2, s2, e1, e2, e3, ⟨x, e4, e5, e6⟩, _⟩ := raw_item mvS mv ck ck' i hi hl hr
  exact ⟨c, s, raw, c2, s2, x, e1, e2, e3, e4, e5, e6⟩

/-- A request with quoted tokens and a body, and a reply. -/
def rawItems : List Item :=
  [.request (bytes "SET_PARAMETER") (bytes "rtsp://x/y") [(bytes "Require", [bytes "a \"b\\", bytes "c\\d"])]
      [(bytes "wfd_x", [bytes "1", bytes "2 3"]), (bytes "wfd_y", [bytes "none"])],
   .reply 7 454 [] [] []]

-- the hypotheses are met
example : (∀ i ∈ rawItems, Sendable i ∧ OneLine i ∧ headerCount i + 3 ≤ 64) := by decide +kernel

/-- **C141, negation.** The `CSeq` in the text is not kept: a reply comes out as the reply to another request, unless by
chance its number is the next one of the bus. -/
theorem raw_renumbers (mvS mv : Moves) (ck ck' cookie code : Nat) (phrase : List Byte) (hs bs : List Spec.Hdr)
    (hi : Sendable (.reply cookie code phrase hs bs)) (hl : OneLine (.reply cookie code phrase hs bs))
    (hr : headerCount (.reply cookie code phrase hs bs) + 3 ≤ 64 ∨ ∀ c, 64 ≤ c → mv c = false) (hne : local_ cookie ≠ local_ (nextCookie ck')) :
    ∃ c s raw x, make mvS ck (.reply cookie code phrase hs bs) = some (c, s) ∧ s.raw = some raw ∧ s.cookie = remote cookie ∧
      fromRaw mv true ck' raw = some (0, nextCookie ck', some x) ∧ x.cookie ≠ s.cookie ∧
      (bytes "CSeq", [dec (local_ cookie)]) ∉ x.headers.map Spec.view := by
  obtain ⟨c, s, raw, c2, s2, e1, e2, e3, ⟨x, e4, e5, e6⟩, _, hk⟩ := raw_item mvS mv ck ck' _ hi hl hr
  have hs' := hk _ _ _ _ _ rfl
  obtain ⟨_, _, _, _, _, _, _, _, y1, b, _, y2, _⟩ := e5
  refine ⟨c, s, raw, x, e1, e2, hs', e4, ?_, ?_⟩
  · rw [hs', y1]
    unfold local_ at hne
    unfold remote
    omega
  · rw [y2]
    intro hm
    rcases List.mem_append.mp hm with hm | hm
    · have := (hi.2.2.2.1 _ hm).2 (bytes "CSeq") (by simp [Spec.reserved])
      exact absurd this (by show ¬ caseEq (bytes "CSeq") (bytes "CSeq") = false; decide +kernel)
    · unfold Spec.extra at hm
      rcases List.mem_append.mp hm with hm | hm
      · split at hm
        · cases hm
        · simp only [List.mem_cons, List.not_mem_nil, or_false, Prod.mk.injEq] at hm
          rcases hm with ⟨h, _⟩ | ⟨h, _⟩
          · exact absurd h (by decide +kernel)
          · exact absurd h (by decide +kernel)
      · simp only [List.mem_cons, List.not_mem_nil, or_false, Prod.mk.injEq, true_and] at hm
        have hd : dec (local_ cookie) = dec (local_ (nextCookie ck')) := by simpa using hm
        exact hne (by rw [← digitsVal_dec (local_ cookie), hd, digitsVal_dec])

example : ∃ ck', Sendable (.reply 7 454 [] [] []) ∧ OneLine (.reply 7 454 [] [] []) ∧ local_ 7 ≠ local_ (nextCookie ck') := ⟨0, by decide +kernel⟩

/-- **C141, negation.** If the byte behind the text must not be read, the text of any message with a body is read past its end. -/
theorem raw_overread (mvS mv : Moves) (ck ck' : Nat) (i : Item) (hi : Sendable i) (hl : OneLine i) (hb : bodyOf i ≠ [])
    (hr : headerCount i + 3 ≤ 64 ∨ ∀ c, 64 ≤ c → mv c = false) :
    ∃ c s raw, make mvS ck i = some (c, s) ∧ s.raw = some raw ∧ fromRaw mv false ck' raw = none := by
  obtain ⟨c, s, raw, _, _, e1, e2, _, _, h, _⟩ := raw_item mvS mv ck ck' i hi hl hr
  exact ⟨c, s, raw, e1, e2, h hb⟩

example : bodyOf (rawItems.headD (.data 0 [])) ≠ [] := by decide +kernel

/-- **C141, negation.** A line break in a quoted token of a header ends the line here (the parser of the bus keeps it): one header
more, with half of the token for a name. -/
theorem raw_splits :
    ∃ (i : Item) (c : Nat) (s : Msg) (raw : List Byte) (x : Msg), Sendable i ∧ make (fun _ => false) 0 i = some (c, s) ∧ s.raw = some raw ∧
      s.headers.map Header.key = [bytes "X", bytes "CSeq"] ∧ fromRaw (fun _ => false) true 0 raw = some (0, 1, some x) ∧
      x.headers.map Header.key = [bytes "X", bytes "b\"", bytes "CSeq"] :=
  ⟨.request (bytes "A") (bytes "b") [(bytes "X", [bytes "a\nb"])] [], _, _, _, _, by decide +kernel, rfl, rfl, by decide +kernel, rfl, by decide +kernel⟩

/-- **C141, negation.** A data frame is taken for text: no data comes out. -/
theorem raw_data :
    ∃ (c : Nat) (s : Msg) (raw : List Byte) (x : Msg), make (fun _ => false) 0 (.data 3 (bytes "abc")) = some (c, s) ∧ s.raw = some raw ∧
      fromRaw (fun _ => false) true 0 raw = some (0, 1, some x) ∧ x.type = .unknown ∧ x.payload = [] :=
  ⟨_, _, _, _, rfl, rfl, rfl, rfl, rfl⟩

end Verif.Rtsp
