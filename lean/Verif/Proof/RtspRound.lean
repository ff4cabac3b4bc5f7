import Verif.Proof.RtspTrip
/-! A sealed message comes back: helper lemmas. -/
namespace Verif.Rtsp
open Verif.C
open Sanitize.Spec (text endMode)

/-- The headers have just these lines. -/
def LinesAre (hs : List Header) (ls : List (List Byte)) : Prop := hs.map Header.line = ls.map (fun l => some (l ++ crlf))

/-- Lines as bytes. -/
def flat (ls : List (List Byte)) : List Byte := (ls.map (· ++ crlf)).flatten

theorem lines_are (hs : List Header) : ∀ ls, LinesAre hs ls → lines hs = some (flat ls) := by
  induction hs with
  | nil =>
    intro ls h
    cases ls with
    | nil => rfl
    | cons l t => exact absurd h (by simp [LinesAre])
  | cons x t ih =>
    intro ls h
    cases ls with
    | nil => exact absurd h (by simp [LinesAre])
    | cons l r =>
      unfold LinesAre at h
      simp only [List.map_cons, List.cons.injEq] at h
      unfold lines
      rw [h.1, ih r h.2]
      rfl

theorem LinesAre.append {a b : List Header} {x y : List (List Byte)} (h : LinesAre a x) (h' : LinesAre b y) : LinesAre (a ++ b) (x ++ y) := by
  unfold LinesAre at *
  rw [List.map_append, List.map_append, h, h']

theorem flat_append (x y : List (List Byte)) : flat (x ++ y) = flat x ++ flat y := by simp [flat]

theorem linesAre_map (ls : List (List Byte)) : LinesAre (ls.map lineHeader) ls := by
  unfold LinesAre
  rw [List.map_map]
  apply List.map_congr_left
  intro l _
  rfl

/-! ### The body -/

theorem bodyLines_word (l t : List Byte) (h : ∀ c ∈ l, c ≠ 13 ∧ c ≠ 10) (cur : List Byte) : bodyLines cur (l ++ t) = bodyLines (cur ++ l) t := by
  induction l generalizing cur with
  | nil => simp
  | cons c r ih =>
    have hc := h c List.mem_cons_self
    rw [List.cons_append]
    show (if c = 13 ∨ c = 10 then _ else bodyLines (cur ++ [c]) (r ++ t)) = _
    rw [if_neg (fun x => x.elim hc.1 hc.2), ih (fun x hx => h x (List.mem_cons_of_mem _ hx))]
    simp

theorem bodyLines_flat (ls : List (List Byte)) (h : ∀ l ∈ ls, l ≠ [] ∧ ∀ c ∈ l, c ≠ 13 ∧ c ≠ 10) : bodyLines [] (flat ls) = ls := by
  induction ls with
  | nil => rfl
  | cons l t ih =>
    obtain ⟨h1, h2⟩ := h l List.mem_cons_self
    have e : flat (l :: t) = l ++ (13 :: 10 :: flat t) := by simp [flat, crlf]
    rw [e, bodyLines_word l _ h2, List.nil_append]
    show (if (13 : Byte) = 13 ∨ (13 : Byte) = 10 then (if l = [] then [] else [l]) ++ bodyLines [] (10 :: flat t) else _) = _
    rw [if_pos (Or.inl rfl), if_neg h1]
    show [l] ++ (if (10 : Byte) = 13 ∨ (10 : Byte) = 10 then (if ([] : List Byte) = [] then [] else [[]]) ++ bodyLines [] (flat t) else _) = _
    rw [if_pos (Or.inr rfl), if_pos rfl, ih (fun x hx => h x (List.mem_cons_of_mem _ hx))]
    rfl

theorem appendBodyLines_ok (mv : Moves) (ls : List (List Byte)) (h : ∀ l ∈ ls, Clean l) : ∀ m : Msg, m.iterBody = true → m.type ≠ .data →
    appendBodyLines mv m ls = (0, { m with bodyHeaders := m.bodyHeaders ++ ls.map lineHeader }) := by
  induction ls with
  | nil => intro m _ _; simp [appendBodyLines]
  | cons l t ih =>
    intro m hm ht
    unfold appendBodyLines
    simp only
    rw [(h l List.mem_cons_self).text, appendLine_ok mv m ht l]
    simp only
    rw [if_neg (Int.lt_irrefl 0)]
    have hp : pushHeader mv m (lineHeader l) = { m with bodyHeaders := m.bodyHeaders ++ [lineHeader l] } := by
      unfold pushHeader
      rw [if_pos hm]
    rw [hp, ih (fun x hx => h x (List.mem_cons_of_mem _ hx)) { m with bodyHeaders := m.bodyHeaders ++ [lineHeader l] } hm ht]
    simp

theorem flat_nil (ls : List (List Byte)) : flat ls = [] ↔ ls = [] := by
  cases ls with
  | nil => exact ⟨fun _ => rfl, fun _ => rfl⟩
  | cons l t => simp [flat, crlf]

theorem appendBody_ok (mv : Moves) (m : Msg) (a c : Option Header) (hm : Recv m a (some (nv CT TP)) c) (bs : List (List Byte)) (hne : bs ≠ [])
    (h : ∀ l ∈ bs, Clean l ∧ ∀ c ∈ l, c ≠ 13 ∧ c ≠ 10) :
    appendBody mv m (flat bs) = some (0, { m with bodyHeaders := m.bodyHeaders ++ bs.map lineHeader }) := by
  obtain ⟨q, h1, h2⟩ := hm.ctype
  have hct : contentType m = some (some TP) := by
    unfold contentType
    rw [h1]
    simp only
    rw [if_pos (hm.live.ctype q h1).1, h2]
    rfl
  unfold appendBody
  rw [if_neg (fun x => hne ((flat_nil bs).mp x)), hct]
  simp only [Option.bind_eq_bind, Option.bind_some]
  rw [if_neg (fun x => x rfl)]
  have ho : openBody m = (0, { m with iterBody := true }) := by
    unfold openBody
    rw [if_neg hm.open_.type, if_neg (by rw [hm.open_.notSealed]; decide), if_neg (by rw [hm.open_.iterHeader, hm.open_.iterBody]; decide)]
  rw [ho]
  simp only
  rw [if_neg (Int.lt_irrefl 0), bodyLines_flat bs (fun l hl => ⟨(h l hl).1.ne, (h l hl).2⟩),
    appendBodyLines_ok mv bs (fun l hl => (h l hl).1) { m with iterBody := true } rfl hm.open_.type]
  simp only
  rw [if_neg (Int.lt_irrefl 0)]
  unfold closeBody
  rw [if_neg (show ¬ m.type = .data from hm.open_.type), if_neg (show ¬ m.isSealed = true from by rw [hm.open_.notSealed]; decide),
    if_neg (show ¬ true = false from by decide), if_neg (show ¬ (m.iterHeader ≠ none) from by rw [hm.open_.iterHeader]; simp)]
  have := hm.open_.iterBody
  congr 2
  rw [← this]

/-! ### The sender -/

/-- The special header lines of a message with body lines `bs` and CSeq `n`. -/
def specials (bs : List (List Byte)) (n : Nat) : List (List Byte) :=
  (if bs = [] then [] else [nvText CL (dec (flat bs).length), nvText CT TP]) ++ [nvText CS (dec n)]

theorem linesAre_nv (a v : List Byte) : LinesAre [nv a v] [nvText a v] := rfl

theorem send_serialize (mv : Moves) (m : Msg) (ho : Open m) (h1 : m.clen = none) (h2 : m.ctype = none) (h3 : m.cseq = none) (hb : m.body = none)
    (head : List Byte) (hh : headLine m = some (head ++ crlf)) (ls bs : List (List Byte)) (hl : LinesAre m.headers ls) (hbl : LinesAre m.bodyHeaders bs)
    (hsz : (flat bs).length < W32) :
    ∃ m', serializeCommon mv m = some (0, m') ∧ m'.raw = some (wire head (ls ++ specials bs (local_ m.cookie)) (flat bs)) ∧
      LinesAre m'.headers (ls ++ specials bs (local_ m.cookie)) ∧ m'.body = some (flat bs) ∧ m'.cookie = m.cookie ∧
      m'.bodyHeaders = m.bodyHeaders ∧ m'.headers.length = m.headers.length + (specials bs (local_ m.cookie)).length ∧ m'.type = m.type := by
  have hbn : m.bodyHeaders = [] ↔ bs = [] := by
    have := congrArg List.length hbl
    simp only [List.length_map] at this
    rw [← List.length_eq_zero_iff, ← List.length_eq_zero_iff, this]
  have hbt : bodyText m = some (flat bs) := by
    unfold bodyText; rw [hb]; exact lines_are _ _ hbl
  unfold serializeCommon
  rw [hh]
  simp only [Option.bind_eq_bind, Option.bind_some]
  rw [hbt]
  simp only [Option.bind_some]
  have last : ∀ (m2 : Msg) (ls2 : List (List Byte)), Open m2 → m2.cseq = none → LinesAre m2.headers ls2 → m2.cookie = m.cookie → m2.bodyHeaders = m.bodyHeaders →
      m2.type = m.type →
      ∃ m', ((special mv m2 m2.cseq (bytes "CSeq") (.str (dec (local_ m2.cookie))) (dec (local_ m2.cookie))).bind fun r =>
        if r.1 < 0 then some r else (lines r.2.headers).bind fun hs =>
          some ((0 : Int), { r.2 with raw := some (head ++ crlf ++ hs ++ [13, 10] ++ flat bs), body := some (flat bs) })) = some (0, m') ∧
        m'.raw = some (wire head (ls2 ++ [nvText CS (dec (local_ m.cookie))]) (flat bs)) ∧
        LinesAre m'.headers (ls2 ++ [nvText CS (dec (local_ m.cookie))]) ∧ m'.body = some (flat bs) ∧ m'.cookie = m.cookie ∧ m'.bodyHeaders = m.bodyHeaders ∧
        m'.headers.length = m2.headers.length + 1 ∧ m'.type = m.type := by
    intro m2 ls2 ho2 hc2 hl2 hk hbh hty
    rw [hc2, special_none mv m2 ho2 (bytes "CSeq") (by decide) (.str (dec (local_ m2.cookie))) (dec (local_ m2.cookie)) rfl]
    simp only [Option.bind_some]
    rw [if_neg (Int.lt_irrefl 0), mkLine_dec]
    have ph := push_headers mv m2 (nv (bytes "CSeq") (dec (local_ m2.cookie))) ho2.iterBody
    obtain ⟨e1, e2, _, _, _, _, e7, _⟩ := push_same mv m2 (nv (bytes "CSeq") (dec (local_ m2.cookie))) ho2.iterBody
    have hl3 : LinesAre (pushHeader mv m2 (nv (bytes "CSeq") (dec (local_ m2.cookie)))).headers (ls2 ++ [nvText CS (dec (local_ m.cookie))]) := by
      rw [ph, hk]
      exact hl2.append (linesAre_nv CS (dec (local_ m.cookie)))
    rw [lines_are _ _ hl3]
    refine ⟨_, rfl, ?_, hl3, rfl, ?_, ?_, ?_, ?_⟩
    · show some (head ++ crlf ++ flat _ ++ [13, 10] ++ flat bs) = _
      rfl
    · exact e2.trans hk
    · exact e7.trans hbh
    · show (pushHeader mv m2 _).headers.length = _
      rw [ph]; simp
    · exact e1.trans hty
  by_cases hbs : bs = []
  · have hcb : flat bs = [] := (flat_nil bs).mpr hbs
    rw [if_neg (fun h => h.elim (fun h => h h1) (fun h => h hcb))]
    simp only [Option.bind_some]
    rw [if_neg (Int.lt_irrefl 0), if_neg (fun h => h (hbn.mpr hbs))]
    simp only [Option.bind_some]
    rw [if_neg (Int.lt_irrefl 0)]
    obtain ⟨m', q⟩ := last m ls ho h3 hl rfl rfl rfl
    have hsp : specials bs (local_ m.cookie) = [nvText CS (dec (local_ m.cookie))] := by unfold specials; rw [if_pos hbs]; rfl
    rw [hsp]
    exact ⟨m', q⟩
  · have hcb : flat bs ≠ [] := fun h => hbs ((flat_nil bs).mp h)
    rw [if_pos (Or.inr hcb), h1, special_none mv m ho (bytes "Content-Length") (by decide) (.u32 ((flat bs).length % W32)) (dec ((flat bs).length % W32)) rfl]
    simp only [Option.bind_some]
    rw [if_neg (Int.lt_irrefl 0), mkLine_dec, Nat.mod_eq_of_lt hsz]
    generalize hM : pushHeader mv m (nv (bytes "Content-Length") (dec (flat bs).length)) = M
    have oM : Open M := by rw [← hM]; exact ho.push mv _
    obtain ⟨e1, e2, _, _, _, _, e7, _⟩ := push_same mv m (nv (bytes "Content-Length") (dec (flat bs).length)) ho.iterBody
    obtain ⟨_, _, _, p4, p5⟩ := push_parts mv m (nv (bytes "Content-Length") (dec (flat bs).length)) ho.iterBody
    have ph := push_headers mv m (nv (bytes "Content-Length") (dec (flat bs).length)) ho.iterBody
    rw [hM] at e1 e2 e7 p4 p5 ph
    have hkey : (nv (bytes "Content-Length") (dec (flat bs).length)).key = CL := rfl
    rw [hkey] at p4 p5
    rw [if_neg (show ¬ caseEq CL (bytes "Content-Type") = true by decide +kernel)] at p4 p5
    rw [if_neg (show ¬ caseEq CL (bytes "CSeq") = true by decide +kernel)] at p5
    rw [h2] at p4
    rw [h3] at p5
    rw [if_pos (by rw [e7]; exact fun h => hbs (hbn.mp h)), p4,
      special_none mv M oM (bytes "Content-Type") (by decide) (.str (bytes "text/parameters")) (bytes "text/parameters") rfl]
    simp only [Option.bind_some]
    rw [if_neg (Int.lt_irrefl 0), mkLine_ct]
    generalize hN : pushHeader mv M (nv (bytes "Content-Type") (bytes "text/parameters")) = N
    have oN : Open N := by rw [← hN]; exact oM.push mv _
    obtain ⟨f1, f2, _, _, _, _, f7, _⟩ := push_same mv M (nv (bytes "Content-Type") (bytes "text/parameters")) oM.iterBody
    obtain ⟨_, _, _, q4, q5⟩ := push_parts mv M (nv (bytes "Content-Type") (bytes "text/parameters")) oM.iterBody
    have qh := push_headers mv M (nv (bytes "Content-Type") (bytes "text/parameters")) oM.iterBody
    rw [hN] at f1 f2 f7 q4 q5 qh
    rw [if_pos (show caseEq (nv (bytes "Content-Type") (bytes "text/parameters")).key (bytes "Content-Type") = true by decide +kernel)] at q5
    have lN : LinesAre N.headers (ls ++ [nvText CL (dec (flat bs).length), nvText CT TP]) := by
      rw [qh, ph]
      have := (hl.append (linesAre_nv CL (dec (flat bs).length))).append (linesAre_nv CT TP)
      rw [List.append_assoc ls] at this
      exact this
    obtain ⟨m', q1, q2, q3, q4, q5, q6, q7, q8⟩ := last N _ oN (by rw [q5, p5]) lN (by rw [f2, e2]) (by rw [f7, e7]) (by rw [f1, e1])
    have hsp : ls ++ specials bs (local_ m.cookie) = ls ++ [nvText CL (dec (flat bs).length), nvText CT TP] ++ [nvText CS (dec (local_ m.cookie))] := by
      unfold specials; rw [if_neg hbs]; simp
    rw [hsp]
    refine ⟨m', q1, q2, q3, q4, q5, q6, ?_, q8⟩
    rw [q7, qh, ph]
    unfold specials
    rw [if_neg hbs]
    simp

/-! ### The receiver -/

theorem chain_specials (env : Env) (m : Msg) (hm : Recv m none none none) (bs : List (List Byte)) (n : Nat) (hn : n < REMOTE)
    (hsz : (flat bs).length < W32) (hr : Roomy env.mv (m.headers.length + 3)) :
    ∃ m' a b, Chain env (some m) 0 (specials bs n) (some m') (flat bs).length ∧ Recv m' a b (some (nv CS (dec n))) ∧
      ((a = none ∧ bs = []) ∨ a = some (nv CL (dec (flat bs).length))) ∧ (bs = [] ∨ b = some (nv CT TP)) ∧
      m'.headers = m.headers ++ (specials bs n).map lineHeader ∧ Same m m' ∧ m'.cookie = remote n := by
  have roomy : ∀ k, k ≤ 3 → Roomy env.mv (m.headers.length + k) := by
    intro k hk
    rcases hr with h | h
    · exact Or.inl (by omega)
    · exact Or.inr h
  have last : ∀ (m2 : Msg) (a b : Option Header) (r : Nat), Recv m2 a b none → Roomy env.mv (m2.headers.length + 1) →
      Chain env (some m2) r [nvText CS (dec n)] (some { pushHeader env.mv m2 (nv CS (dec n)) with cookie := remote n }) r ∧
      Recv { pushHeader env.mv m2 (nv CS (dec n)) with cookie := remote n } a b (some (nv CS (dec n))) ∧
      Same m2 { pushHeader env.mv m2 (nv CS (dec n)) with cookie := remote n } := by
    intro m2 a b r h2 hr2
    have hp := h2.push (nv CS (dec n)) hr2
    rw [show (nv CS (dec n)).key = CS from rfl, if_neg (show ¬ caseEq CS CL = true by decide +kernel), if_neg (show ¬ caseEq CS CT = true by decide +kernel),
      if_neg (show ¬ caseEq CS CT = true by decide +kernel), if_pos (show caseEq CS CS = true by decide +kernel)] at hp
    have hs := same_push env.mv m2 (nv CS (dec n)) h2.open_.iterBody
    refine ⟨⟨clean_cs n, _, _, fin_cseq env m2 a b none h2 r n hn, rfl, rfl⟩, ?_, ?_⟩
    · obtain ⟨⟨o1, o2, o3, o4⟩, ⟨l1, l2, l3, l4, l5⟩, c1, c2, c3⟩ := hp
      exact ⟨⟨o1, o2, o3, o4⟩, ⟨l1, l2, l3, l4, l5⟩, c1, c2, c3⟩
    · obtain ⟨s1, s2, s3, s4, s5, s6, s7, s8, s9, s10⟩ := hs
      exact ⟨s1, s2, s3, s4, s5, s6, s7, s8, s9, s10⟩
  by_cases hbs : bs = []
  · have hcb : flat bs = [] := (flat_nil bs).mpr hbs
    have hsp : specials bs n = [nvText CS (dec n)] := by unfold specials; rw [if_pos hbs]; rfl
    obtain ⟨l1, l2, l3⟩ := last m none none 0 hm (roomy 1 (by omega))
    refine ⟨_, none, none, ?_, l2, Or.inl ⟨rfl, hbs⟩, Or.inl hbs, ?_, l3, rfl⟩
    · rw [hsp, hcb]; exact l1
    · rw [hsp]
      show (pushHeader env.mv m (nv CS (dec n))).headers = _
      rw [push_headers _ _ _ hm.open_.iterBody, List.map_singleton, lh_cs]
  · have hsp : specials bs n = [nvText CL (dec (flat bs).length), nvText CT TP] ++ [nvText CS (dec n)] := by unfold specials; rw [if_neg hbs]
    have r1 := hm.push (nv CL (dec (flat bs).length)) (roomy 1 (by omega))
    rw [show (nv CL (dec (flat bs).length)).key = CL from rfl, if_pos (show caseEq CL CL = true by decide +kernel), if_neg (show ¬ caseEq CL CT = true by decide +kernel),
      if_neg (show ¬ caseEq CL CT = true by decide +kernel), if_neg (show ¬ caseEq CL CS = true by decide +kernel)] at r1
    have h1 := push_headers env.mv m (nv CL (dec (flat bs).length)) hm.open_.iterBody
    generalize hM : pushHeader env.mv m (nv CL (dec (flat bs).length)) = M at r1 h1
    have hlen1 : M.headers.length = m.headers.length + 1 := by rw [h1]; simp
    have r2 := r1.push (nv CT TP) (by rw [hlen1]; exact roomy 2 (by omega))
    rw [show (nv CT TP).key = CT from rfl, if_neg (show ¬ caseEq CT CL = true by decide +kernel), if_pos (show caseEq CT CT = true by decide +kernel),
      if_pos (show caseEq CT CT = true by decide +kernel)] at r2
    have h2 := push_headers env.mv M (nv CT TP) r1.open_.iterBody
    have fct := fin_plain env M _ _ _ r1 (flat bs).length (nvText CT TP) clean_ct (by decide +kernel)
    rw [lh_ct] at fct
    generalize hN : pushHeader env.mv M (nv CT TP) = N at r2 h2 fct
    have hlen2 : N.headers.length = m.headers.length + 2 := by rw [h2, List.length_append, hlen1]; rfl
    obtain ⟨l1, l2, l3⟩ := last N _ _ (flat bs).length r2 (by rw [hlen2]; exact roomy 3 (by omega))
    have w : W32 = 4294967296 := rfl
    have w' : W64 = 18446744073709551616 := rfl
    have fcl := fin_clen env m none none none hm 0 (flat bs).length (by omega)
    rw [hM] at fcl
    refine ⟨_, _, _, ?_, l2, Or.inr rfl, Or.inr rfl, ?_, ?_, rfl⟩
    · rw [hsp]
      exact Chain.append ⟨clean_cl _, _, _, fcl, clean_ct, _, _, fct, rfl, rfl⟩ l1
    · rw [hsp]
      show (pushHeader env.mv N (nv CS (dec n))).headers = _
      rw [push_headers _ _ _ r2.open_.iterBody, h2, h1]
      simp only [List.map_append, List.map_cons, List.map_nil, lh_cl, lh_ct, lh_cs, List.append_assoc]
      rfl
    · have s1 := same_push env.mv m (nv CL (dec (flat bs).length)) hm.open_.iterBody
      rw [hM] at s1
      have s2 := same_push env.mv M (nv CT TP) r1.open_.iterBody
      rw [hN] at s2
      exact (s1.trans s2).trans l3

/-- A message begun with this first line. -/
structure Begun (m m0 : Msg) (head : List Byte) : Prop where
  clean : Clean head
  start : HeadStart head
  from_ : fromHead head = some m0
  recv : Recv m0 none none none
  headers : m0.headers = []
  bodyHeaders : m0.bodyHeaders = []
  body : m0.body = none
  line : headLine m0 = some (head ++ crlf)
  type : m0.type = m.type
  method : m0.method = m.method
  uri : m0.uri = m.uri
  code : m0.code = m.code
  phrase : m0.phrase = m.phrase
  major : m0.major = m.major
  minor : m0.minor = m.minor

theorem headLine_same {m m' : Msg} (h : Same m m') (ht : m.type = .request ∨ m.type = .reply) : headLine m' = headLine m := by
  obtain ⟨s1, s2, s3, s4, s5, s6, s7, s8, s9, s10⟩ := h
  unfold headLine
  rcases ht with ht | ht <;> simp only [s1, s5, s6, s7, s8, s9, s10, ht]

theorem round_frame (env : Env) (ha : Accepts env) (m m0 : Msg) (head : List Byte) (hb : Begun m m0 head)
    (ht : m.type = .request ∨ m.type = .reply) (ls bs : List (List Byte))
    (hl : ∀ l ∈ ls, Clean l ∧ Plain (keyOf l)) (hbl : ∀ l ∈ bs, Clean l ∧ ∀ c ∈ l, c ≠ 13 ∧ c ≠ 10)
    (hsz : (flat bs).length < W32) (hr : Roomy env.mv (ls.length + 3)) (n : Nat) (hn : n < REMOTE) :
    Frame env (wire head (ls ++ specials bs n) (flat bs)) (fun x =>
      x.type = m.type ∧ x.method = m.method ∧ x.uri = m.uri ∧ x.code = m.code ∧ x.phrase = m.phrase ∧ x.major = m.major ∧ x.minor = m.minor ∧
      x.raw = some (wire head (ls ++ specials bs n) (flat bs)) ∧ x.body = some (flat bs) ∧
      x.headers = (ls ++ specials bs n).map lineHeader ∧ x.bodyHeaders = bs.map lineHeader ∧ x.cookie = remote n ∧
      x.isSealed = true ∧ x.isUsed = true ∧ x.iterBody = false ∧ x.iterHeader = none) := by
  have hlen0 : m0.headers.length = 0 := by rw [hb.headers]; rfl
  obtain ⟨c1, r1, h1, s1⟩ := chain_users env ls m0 0 none none none hb.recv hl (by
    rw [hlen0, Nat.zero_add]
    rcases hr with h | h
    · exact Or.inl (by omega)
    · exact Or.inr h)
  generalize pushAll env.mv m0 ls = M at c1 r1 h1 s1
  rw [hb.headers, List.nil_append] at h1
  obtain ⟨m', a, b, c2, r2, ha', hb', h2, s2, k2⟩ := chain_specials env M r1 bs n hn hsz (by rw [h1, List.length_map]; exact hr)
  have hhead : Fin env none 0 head m0 0 := by
    intro d d1 d2 d3
    unfold finishHeaderLine
    rw [d3]
    simp only [Option.bind_eq_bind, Option.bind_some]
    rw [text_crlf hb.clean, d1]
    simp only
    rw [hb.from_, ← d2]
  have hch : Chain env none 0 (head :: (ls ++ specials bs n)) (some m') (flat bs).length :=
    ⟨hb.clean, m0, 0, hhead, c1.append c2⟩
  have s := s1.trans s2
  have hheaders : m'.headers = (ls ++ specials bs n).map lineHeader := by rw [h2, h1, List.map_append]
  have hbh : m'.bodyHeaders = [] := by rw [s.bodyHeaders]; exact hb.bodyHeaders
  have hbody : m'.body = none := by rw [s.body]; exact hb.body
  -- the body
  have hap : appendBody env.mv m' (flat bs) = some (0, { m' with bodyHeaders := bs.map lineHeader }) := by
    by_cases hbs : bs = []
    · have hcb : flat bs = [] := (flat_nil bs).mpr hbs
      unfold appendBody
      rw [if_pos hcb, hbs, List.map_nil, ← hbh]
    · rcases hb' with h | h
      · exact absurd h hbs
      · rw [h] at r2
        have := appendBody_ok env.mv m' a _ r2 bs hbs hbl
        rw [hbh, List.nil_append] at this
        exact this
  -- sealing
  have hr3 : Recv { m' with bodyHeaders := bs.map lineHeader } a b (some (nv CS (dec n))) := by
    obtain ⟨⟨o1, o2, o3, o4⟩, ⟨l1, l2, l3, l4, l5⟩, q1, q2, q3⟩ := r2
    exact ⟨⟨o1, o2, o3, o4⟩, ⟨l1, l2, l3, l4, l5⟩, q1, q2, q3⟩
  have hser := recv_serialize env.mv { m' with bodyHeaders := bs.map lineHeader } a b (some (nv CS (dec n))) hr3 (head ++ crlf)
    (flat (ls ++ specials bs n)) (flat bs)
    (by
      show headLine m' = _
      rw [headLine_same s (by rw [hb.type]; exact ht)]; exact hb.line)
    (by
      unfold bodyText
      rw [show ({ m' with bodyHeaders := bs.map lineHeader } : Msg).body = none from hbody]
      exact lines_are _ _ (linesAre_map bs))
    (by
      show lines m'.headers = _
      rw [hheaders]; exact lines_are _ _ (linesAre_map _))
    (by
      rcases ha' with ⟨h, hh⟩ | h
      · exact Or.inl ⟨h, (flat_nil bs).mpr hh⟩
      · exact Or.inr h)
    (by
      rcases hb' with h | h
      · left; show bs.map lineHeader = []; rw [h]; rfl
      · exact Or.inr h)
    (by
      show _ = some (nv CS (dec (local_ m'.cookie)))
      rw [k2, local_remote n hn])
  have hseal := recv_seals env.mv { m' with bodyHeaders := bs.map lineHeader } _ n hr3.open_ k2 hser
  intro bus hbus
  obtain ⟨bus', x, e1, e2, e3, e4⟩ := message_frame env ha head _ (flat bs) m' _ _ hb.start hch hap hseal bus hbus
  refine ⟨bus', x, e1, e2, e3, ?_⟩
  rw [e4]
  exact ⟨by show m'.type = _; rw [s.type, hb.type], by show m'.method = _; rw [s.method, hb.method], by show m'.uri = _; rw [s.uri, hb.uri],
    by show m'.code = _; rw [s.code, hb.code], by show m'.phrase = _; rw [s.phrase, hb.phrase], by show m'.major = _; rw [s.major, hb.major],
    by show m'.minor = _; rw [s.minor, hb.minor], rfl, rfl, hheaders, rfl, k2, rfl, rfl, hr3.open_.iterBody, hr3.open_.iterHeader⟩

end Verif.Rtsp
