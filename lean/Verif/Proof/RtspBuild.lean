import Verif.Proof.RtspRound
import Verif.Spec.RtspWire
/-! Building messages through the API: helper lemmas. -/
namespace Verif.Rtsp
open Verif.C
open Sanitize.Spec (text endMode)
open Spec (Hdr Item hdrArgs hdrsArgs Word TokenOk HdrOk HdrsOk)

/-! ### Clean lines -/

/-- A word that closes its quotes. -/
structure Closed (w : List Byte) : Prop where
  ok : Sanitize.WordOk .plain w
  closed : endMode .plain w = .plain
  ne : w ≠ []

theorem Closed.clean {w : List Byte} (h : Closed w) : Clean w := by
  refine ⟨?_, h.closed, h.ne⟩
  have hg : Sanitize.Good [w] := ⟨fun x hx => by rw [List.mem_singleton.mp hx]; exact ⟨h.ok, h.ne⟩, fun x hx => by cases hx⟩
  unfold Sanitize.Spec.text
  rw [show Sanitize.Spec.words .plain [] w = [w] from Sanitize.words_joined [w] hg]
  rfl

theorem clean_cons {w l : List Byte} (h : Closed w) (hl : Clean l) : Clean (w ++ ch ' ' :: l) := by
  refine ⟨?_, ?_, by simp⟩
  · have e : Sanitize.Spec.words .plain [] (w ++ ch ' ' :: l) = w :: Sanitize.Spec.words .plain [] l := by
      have := Sanitize.words_word w .plain [] (ch ' ' :: l) h.ok
      rw [List.nil_append, h.closed] at this
      rw [this]
      show (if Sanitize.Spec.Mode.plain = .plain ∧ Sanitize.Spec.white (ch ' ') = true then _ else _) = _
      rw [if_pos ⟨rfl, by decide⟩, if_neg h.ne]
      rfl
    have ht := hl.text
    unfold Sanitize.Spec.text at ht ⊢
    rw [e]
    cases hw : Sanitize.Spec.words .plain [] l with
    | nil => rw [hw] at ht; exact absurd ht.symm hl.ne
    | cons x t =>
      rw [hw] at ht
      show w ++ ch ' ' :: Sanitize.Spec.joined (x :: t) = _
      rw [ht]
  · rw [Sanitize.endMode_append, h.closed]
    show endMode (Sanitize.Spec.next .plain (ch ' ')) l = _
    rw [next_plain (by decide)]
    exact hl.closed

theorem Spec.Word.closed {w : List Byte} (h : Word w) : Closed w := by
  have := wordOk_plain w (fun c hc => by
    obtain ⟨h0, h1, h2, h3, h4, h5⟩ := h.2 c hc
    exact ⟨h0, by simp [Sanitize.Spec.white, h1, h2, h3, h4], h5⟩)
  exact ⟨this.1, this.2, h.1⟩

theorem dec_word (n : Nat) : Closed (dec n) := ⟨(wordOk_plain _ (dec_plain n)).1, (wordOk_plain _ (dec_plain n)).2, dec_ne_nil n⟩

theorem version_word (a b : Nat) : Closed (bytes "RTSP/" ++ dec a ++ [ch '.'] ++ dec b) := by
  have := wordOk_plain (bytes "RTSP/" ++ dec a ++ [ch '.'] ++ dec b) (by
    intro c hc
    simp only [List.mem_append] at hc
    rcases hc with ((hc | hc) | hc) | hc
    · revert c; decide +kernel
    · exact dec_plain a c hc
    · revert c; decide +kernel
    · exact dec_plain b c hc)
  exact ⟨this.1, this.2, by simp⟩

/-! ### Tokens -/

theorem quoted_body (t : List Byte) (h : (0 : Byte) ∉ t) : Sanitize.WordOk .quoted (Qstr.body t) ∧ endMode .quoted (Qstr.body t) = .quoted := by
  induction t with
  | nil => exact ⟨trivial, rfl⟩
  | cons c t ih =>
    have hc : c ≠ 0 := fun e => h (by rw [e]; exact List.mem_cons_self)
    obtain ⟨i1, i2⟩ := ih (fun hm => h (List.mem_cons_of_mem _ hm))
    rw [Qstr.body_cons]
    unfold Qstr.encC
    by_cases hq : c = ch '\\' ∨ c = ch '"'
    · rw [if_pos hq]
      show Sanitize.WordOk .quoted (ch '\\' :: c :: Qstr.body t) ∧ endMode (Sanitize.Spec.next (Sanitize.Spec.next .quoted (ch '\\')) c) (Qstr.body t) = _
      rw [next_esc rfl]
      refine ⟨⟨by decide, (fun x => by cases x), ?_⟩, i2⟩
      rw [next_esc rfl]
      exact ⟨hc, (fun x => by cases x), i1⟩
    · rw [if_neg hq]
      show Sanitize.WordOk .quoted (c :: Qstr.body t) ∧ endMode (Sanitize.Spec.next .quoted c) (Qstr.body t) = _
      rw [next_stay (fun e => hq (Or.inr e)) (fun e => hq (Or.inl e))]
      refine ⟨⟨hc, (fun x => by cases x), ?_⟩, i2⟩
      rw [next_stay (fun e => hq (Or.inr e)) (fun e => hq (Or.inl e))]
      exact i1

theorem body_mem (t : List Byte) (c : Byte) (h : c ∈ Qstr.body t) : c ∈ t ∨ c = ch '\\' := by
  unfold Qstr.body at h
  rw [List.mem_flatMap] at h
  obtain ⟨x, hx, hc⟩ := h
  unfold Qstr.encC at hc
  split at hc
  · rcases List.mem_cons.mp hc with e | hc
    · exact Or.inr e
    · rw [List.mem_singleton.mp hc]; exact Or.inl hx
  · rw [List.mem_singleton.mp hc]; exact Or.inl hx

theorem body_ne (t : List Byte) (h : t ≠ []) : Qstr.body t ≠ [] := by
  cases t with
  | nil => exact absurd rfl h
  | cons c t =>
    rw [Qstr.body_cons]
    unfold Qstr.encC
    split <;> simp

theorem needQuote_false {t : List Byte} (h : Qstr.needQuote t = false) : ∀ c ∈ t, c ≠ ch ' ' ∧ c ≠ 9 ∧ c ≠ 10 ∧ c ≠ 11 := by
  intro c hc
  unfold Qstr.needQuote at h
  rw [List.any_eq_false] at h
  have := h c hc
  simp only [Bool.or_eq_true, decide_eq_true_eq, not_or] at this
  exact ⟨this.1.1.1, this.1.1.2, this.1.2, this.2⟩

theorem Spec.TokenOk.closed {t : List Byte} (h : TokenOk t) : Closed (Qstr.enc t) := by
  obtain ⟨h1, h2, h3⟩ := h
  unfold Qstr.enc
  by_cases hq : Qstr.needQuote t = true
  · rw [if_pos hq]
    obtain ⟨i1, i2⟩ := quoted_body t h2
    refine ⟨?_, ?_, by simp⟩
    · rw [Sanitize.wordOk_append]
      refine ⟨⟨by decide, fun _ => by decide, ?_⟩, ?_⟩
      · exact i1
      · show Sanitize.WordOk (endMode .quoted (Qstr.body t)) [ch '"']
        rw [i2]
        exact ⟨by decide, (fun x => by cases x), trivial⟩
    · rw [Sanitize.endMode_append]
      show endMode (endMode .quoted (Qstr.body t)) [ch '"'] = .plain
      rw [i2]; rfl
  · have hq' : Qstr.needQuote t = false := by simpa using hq
    rw [if_neg hq]
    have hn := needQuote_false hq'
    have h3' := h3 hn
    have := wordOk_plain (Qstr.body t) (by
      intro c hc
      rcases body_mem t c hc with hc | hc
      · obtain ⟨a1, a2, a3, _⟩ := hn c hc
        obtain ⟨b1, b2, _⟩ := h3' c hc
        exact ⟨fun e => h2 (e ▸ hc), by simp [Sanitize.Spec.white, a1, a2, a3, b1], b2⟩
      · rw [hc]; decide)
    exact ⟨this.1, this.2, body_ne t h1⟩

theorem Spec.TokenOk.good {t : List Byte} (h : TokenOk t) : Qstr.Good t := by
  obtain ⟨h1, h2, h3⟩ := h
  refine ⟨h1, h2, fun hm => ?_⟩
  by_cases hq : Qstr.needQuote t = true
  · exact hq
  · exact absurd rfl (h3 (needQuote_false (by simpa using hq)) _ hm).2.2

theorem lineF_app (ts : List (List Byte)) : ∀ x d : List Byte, d ≠ [] → Qstr.lineF (x ++ d) ts = x ++ Qstr.lineF d ts := by
  induction ts with
  | nil => intro x d _; rfl
  | cons t ts ih =>
    intro x d hd
    show Qstr.lineF ((if x ++ d = [] then [] else x ++ d ++ [ch ' ']) ++ Qstr.enc t) ts = x ++ Qstr.lineF ((if d = [] then [] else d ++ [ch ' ']) ++ Qstr.enc t) ts
    rw [if_neg (by simp [hd]), if_neg hd, ← ih x _ (by simp)]
    simp

theorem lineF_two (t u : List Byte) (ts : List (List Byte)) (ht : Qstr.enc t ≠ []) (hu : Qstr.enc u ≠ []) :
    Qstr.lineF [] (t :: u :: ts) = Qstr.enc t ++ ch ' ' :: Qstr.lineF [] (u :: ts) := by
  show Qstr.lineF ((if Qstr.enc t = [] then [] else Qstr.enc t ++ [ch ' ']) ++ Qstr.enc u) ts = Qstr.enc t ++ ch ' ' :: Qstr.lineF (Qstr.enc u) ts
  rw [if_neg ht, lineF_app ts _ _ hu]
  simp

theorem line_clean (ts : List (List Byte)) (hne : ts ≠ []) (h : ∀ t ∈ ts, TokenOk t) : Clean (Qstr.lineF [] ts) := by
  induction ts with
  | nil => exact absurd rfl hne
  | cons t ts ih =>
    have ht := (h t List.mem_cons_self).closed
    cases ts with
    | nil => exact ht.clean
    | cons u ts =>
      rw [lineF_two t u ts ht.ne (h u (by simp)).closed.ne]
      exact clean_cons ht (ih (by simp) (fun x hx => h x (List.mem_cons_of_mem _ hx)))

theorem wordOk_head {w : List Byte} (h : Sanitize.WordOk .plain w) : w.head? ≠ some (ch ' ') := by
  cases w with
  | nil => simp
  | cons c t =>
    intro e
    have e : c = ch ' ' := by simpa using e
    rw [e] at h
    exact absurd (h.2.1 rfl) (by decide)

theorem line_edge (ts : List (List Byte)) (hne : ts ≠ []) (h : ∀ t ∈ ts, TokenOk t) :
    (Qstr.lineF [] ts).head? ≠ some (ch ' ') ∧ (Qstr.lineF [] ts).getLast? ≠ some (ch ' ') := by
  induction ts with
  | nil => exact absurd rfl hne
  | cons t ts ih =>
    have ht := (h t List.mem_cons_self).closed
    cases ts with
    | nil => exact ⟨wordOk_head ht.ok, Sanitize.wordOk_last _ _ ht.ok ht.closed ht.ne⟩
    | cons u ts =>
      rw [lineF_two t u ts ht.ne (h u (by simp)).closed.ne]
      have i := (ih (by simp) (fun x hx => h x (List.mem_cons_of_mem _ hx))).2
      have hc := line_clean (u :: ts) (by simp) (fun x hx => h x (List.mem_cons_of_mem _ hx))
      constructor
      · cases he : Qstr.enc t with
        | nil => exact absurd he ht.ne
        | cons c r =>
          have := wordOk_head ht.ok
          rw [he] at this
          exact this
      · rw [List.getLast?_append]
        cases hl : Qstr.lineF [] (u :: ts) with
        | nil => exact absurd hl hc.ne
        | cons c r =>
          rw [hl] at i
          rw [List.getLast?_cons_cons]
          rw [List.getLast?_eq_some_getLast (by simp)] at i ⊢
          exact i

/-! ### Headers -/

/-- The text of a header line. -/
def hdrText (h : Hdr) : List Byte := nvText h.1 (Qstr.lineF [] h.2)
/-- The header the builder makes. -/
def full (h : Hdr) : Header := ⟨h.1, some (Qstr.lineF [] h.2), h.2, some (hdrText h ++ crlf)⟩

theorem Spec.HdrOk.clean {h : Hdr} (hh : HdrOk h) : Clean (hdrText h) := by
  obtain ⟨h1, h2, h3, h4⟩ := hh
  have hc := clean_cons (w := h.1 ++ [ch ':']) (l := Qstr.lineF [] h.2) (by
    have := wordOk_plain (h.1 ++ [ch ':']) (by
      intro c hc
      rw [List.mem_append] at hc
      rcases hc with hc | hc
      · obtain ⟨a0, a1, a2, a3, a4, a5⟩ := h1.2 c hc
        exact ⟨a0, by simp [Sanitize.Spec.white, a1, a2, a3, a4], a5⟩
      · rw [List.mem_singleton.mp hc]; decide)
    exact ⟨this.1, this.2, by simp⟩) (line_clean h.2 h3 h4)
  rw [show h.1 ++ [ch ':'] ++ ch ' ' :: Qstr.lineF [] h.2 = hdrText h from by
    unfold hdrText nvText; rw [show bytes ": " = [ch ':', ch ' '] from rfl]; simp] at hc
  exact hc

theorem Spec.HdrOk.read {h : Hdr} (hh : HdrOk h) : lineHeader (hdrText h) = full h := by
  obtain ⟨h1, h2, h3, h4⟩ := hh
  have he := line_edge h.2 h3 h4
  have := lineHeader_nv h.1 (Qstr.lineF [] h.2) h2 (by
    intro e
    exact absurd rfl (h1.2 _ (List.mem_of_getLast? e)).2.1) (line_clean h.2 h3 h4).ne he.1 he.2
  unfold hdrText nvText
  rw [this]
  unfold nv full hdrText nvText
  rw [Qstr.tokens_line h.2 (fun t ht => (h4 t ht).good)]

theorem Spec.HdrOk.key {h : Hdr} (hh : HdrOk h) : keyOf (hdrText h) = h.1 := by
  rw [← lineHeader_key, hh.read]; rfl

/-! ### The calls -/

theorem append_step (mv : Moves) (m m1 : Msg) (a : Arg) (t : List Arg) (h : appendBasic mv m a = some (0, m1)) (ht : m1.type ≠ .data)
    (hs : m1.isSealed = false) : append mv m (a :: t) = append mv m1 t := by
  show (appendBasic mv m a).bind _ = _
  rw [h]
  simp only [Option.bind_some]
  rw [if_neg (Int.lt_irrefl 0)]
  by_cases hn : t = []
  · rw [if_pos hn, hn]
    unfold append
    rw [if_neg ht, if_neg (by rw [hs]; decide)]
  · rw [if_neg hn]

/-- A message with an opened header `h`. -/
def opened (mv : Moves) (m : Msg) (h : Header) : Msg :=
  { pushHeader mv m h with iterHeader := some (m.iterBody, if m.iterBody then m.bodyHeaders.length else m.headers.length) }

theorem push_gen (mv : Moves) (m : Msg) (h : Header) : (pushHeader mv m h).type = m.type ∧ (pushHeader mv m h).isSealed = m.isSealed ∧
    (pushHeader mv m h).iterBody = m.iterBody ∧ (pushHeader mv m h).iterHeader = m.iterHeader := by
  unfold pushHeader grow
  split
  · exact ⟨rfl, rfl, rfl, rfl⟩
  · split <;> exact ⟨rfl, rfl, rfl, rfl⟩

theorem opened_get (mv : Moves) (m : Msg) (h : Header) : getIter (opened mv m h) = some h := by
  unfold getIter opened
  simp only
  by_cases hb : m.iterBody = true
  · unfold pushHeader
    rw [hb]
    simp
  · have hb' : m.iterBody = false := by simpa using hb
    rw [hb']
    simp only [Bool.false_eq_true, if_false]
    rw [push_headers mv m h hb']
    simp

theorem opened_set (mv : Moves) (m : Msg) (h h' : Header) (hk : h'.key = h.key) : setIter (opened mv m h) h' = opened mv m h' := by
  unfold setIter opened
  simp only
  by_cases hb : m.iterBody = true
  · rw [hb]
    unfold pushHeader
    rw [hb]
    simp
  · have hb' : m.iterBody = false := by simpa using hb
    rw [hb']
    simp only [Bool.false_eq_true, if_false]
    rw [push_headers mv m h hb', List.set_append_right _ _ (Nat.le_refl _), Nat.sub_self]
    rw [← push_last mv m h h' hb' hk]
    rfl

theorem opened_close (mv : Moves) (m : Msg) (h : Header) (hi : m.iterHeader = none) :
    { opened mv m h with iterHeader := none } = pushHeader mv m h := by
  have := (push_gen mv m h).2.2.2
  rw [hi] at this
  unfold opened
  rw [← this]

theorem toks_step (mv : Moves) (m : Msg) (name : List Byte) (ht : m.type ≠ .data) (hs : m.isSealed = false) (rest : List Arg) (ts : List (List Byte)) :
    ∀ done : List (List Byte), append mv (opened mv m ⟨name, none, done, none⟩) (ts.map .str ++ rest) =
      append mv (opened mv m ⟨name, none, done ++ ts, none⟩) rest := by
  induction ts with
  | nil => intro done; simp
  | cons t ts ih =>
    intro done
    have ht' : ∀ h, (opened mv m h).type ≠ .data := fun h => by show (pushHeader mv m h).type ≠ _; rw [(push_gen mv m h).1]; exact ht
    have hs' : ∀ h, (opened mv m h).isSealed = false := fun h => by show (pushHeader mv m h).isSealed = _; rw [(push_gen mv m h).2.1]; exact hs
    rw [List.map_cons, List.cons_append, append_step mv _ (opened mv m ⟨name, none, done ++ [t], none⟩) _ _ ?_ (ht' _) (hs' _), ih]
    · simp
    · rw [append_tok mv _ (.str t) t rfl (ht' _) (hs' _)]
      unfold appendTok
      rw [if_neg (by unfold opened; simp), opened_get]
      simp only [Option.bind_eq_bind, Option.bind_some, appendToken]
      rw [if_neg (by simp)]
      simp only
      rw [opened_set mv m _ _ (by rfl)]

theorem hdr_step (mv : Moves) (m : Msg) (h : Hdr) (hne : h.1 ≠ []) (ht : m.type ≠ .data) (hs : m.isSealed = false) (hi : m.iterHeader = none)
    (rest : List Arg) : append mv m (hdrArgs h ++ rest) = append mv (pushHeader mv m (full h)) rest := by
  have ht' : ∀ h, (opened mv m h).type ≠ .data := fun h => by show (pushHeader mv m h).type ≠ _; rw [(push_gen mv m h).1]; exact ht
  have hs' : ∀ h, (opened mv m h).isSealed = false := fun h => by show (pushHeader mv m h).isSealed = _; rw [(push_gen mv m h).2.1]; exact hs
  have hho : appendHeader mv m h.1 [] 0 none = (0, pushHeader mv m ⟨h.1, none, [], none⟩) := by
    unfold appendHeader mkHeader
    rw [if_neg ht]
    rfl
  have e1 : appendBasic mv m (.headerStart h.1) = some (0, opened mv m ⟨h.1, none, [], none⟩) := by
    unfold appendBasic
    rw [if_neg ht, if_neg (by rw [hs]; decide)]
    simp only
    unfold openHeader
    rw [if_neg (fun x => x.elim hne ht), if_neg (by rw [hs]; decide), if_neg (by rw [hi]; simp)]
    simp only
    rw [hho]
    rfl
  have e2 : appendBasic mv (opened mv m ⟨h.1, none, h.2, none⟩) .headerEnd = some (0, pushHeader mv m (full h)) := by
    unfold appendBasic
    rw [if_neg (ht' _), if_neg (by rw [hs']; decide)]
    simp only
    unfold closeHeader
    rw [if_neg (ht' _), if_neg (by rw [hs']; decide), if_neg (by unfold opened; simp), opened_get]
    simp only [Option.bind_eq_bind, Option.bind_some]
    have : serializeHeader ⟨h.1, none, h.2, none⟩ = full h := by
      simp [serializeHeader, full, hdrText, nvText, crlf]
    rw [this, opened_set mv m ⟨h.1, none, h.2, none⟩ (full h) rfl, opened_close mv m _ hi]
  unfold hdrArgs
  rw [List.append_assoc, List.append_assoc, List.singleton_append, append_step mv _ _ _ _ e1 (ht' _) (hs' _), toks_step mv m h.1 ht hs _ h.2 [], List.nil_append,
    List.singleton_append, append_step mv _ _ _ _ e2]
  · rw [(push_gen mv m _).1]; exact ht
  · rw [(push_gen mv m _).2.1]; exact hs

/-- All headers pushed. -/
def pushFull (mv : Moves) (m : Msg) (hs : List Hdr) : Msg := hs.foldl (fun m h => pushHeader mv m (full h)) m

theorem pushFull_gen (mv : Moves) (hs : List Hdr) : ∀ m : Msg, (pushFull mv m hs).type = m.type ∧ (pushFull mv m hs).isSealed = m.isSealed ∧
    (pushFull mv m hs).iterBody = m.iterBody ∧ (pushFull mv m hs).iterHeader = m.iterHeader := by
  induction hs with
  | nil => intro m; exact ⟨rfl, rfl, rfl, rfl⟩
  | cons h t ih =>
    intro m
    obtain ⟨a, b, c, d⟩ := ih (pushHeader mv m (full h))
    obtain ⟨a', b', c', d'⟩ := push_gen mv m (full h)
    exact ⟨a.trans a', b.trans b', c.trans c', d.trans d'⟩

theorem hdrs_step (mv : Moves) (hs : List Hdr) (hne : ∀ h ∈ hs, h.1 ≠ []) (rest : List Arg) : ∀ m : Msg, m.type ≠ .data → m.isSealed = false → m.iterHeader = none →
    append mv m (hs.flatMap hdrArgs ++ rest) = append mv (pushFull mv m hs) rest := by
  induction hs with
  | nil => intro m _ _ _; rfl
  | cons h t ih =>
    intro m ht hs hi
    obtain ⟨a', b', c', d'⟩ := push_gen mv m (full h)
    rw [List.flatMap_cons, List.append_assoc, hdr_step mv m h (hne h List.mem_cons_self) ht hs hi,
      ih (fun x hx => hne x (List.mem_cons_of_mem _ hx)) _ (a' ▸ ht) (b'.trans hs) (d'.trans hi)]
    rfl

theorem pushFull_head (mv : Moves) (hs : List Hdr) (hp : ∀ h ∈ hs, Plain h.1) : ∀ m : Msg, m.iterBody = false →
    (pushFull mv m hs).headers = m.headers ++ hs.map full ∧ Same m (pushFull mv m hs) ∧ (pushFull mv m hs).cookie = m.cookie ∧
    (pushFull mv m hs).clen = m.clen ∧ (pushFull mv m hs).ctype = m.ctype ∧ (pushFull mv m hs).cseq = m.cseq := by
  induction hs with
  | nil => intro m _; exact ⟨by simp [pushFull], ⟨rfl, rfl, rfl, rfl, rfl, rfl, rfl, rfl, rfl, rfl⟩, rfl, rfl, rfl, rfl⟩
  | cons h t ih =>
    intro m hb
    obtain ⟨p1, p2, p3⟩ := hp h List.mem_cons_self
    obtain ⟨_, _, q3, q4, q5⟩ := push_parts mv m (full h) hb
    have e2 := (push_same mv m (full h) hb).2.1
    rw [if_neg (show ¬ caseEq (full h).key (bytes "Content-Length") = true from by rw [show caseEq (full h).key (bytes "Content-Length") = false from p1]; decide)] at q3
    rw [if_neg (show ¬ caseEq (full h).key (bytes "Content-Type") = true from by rw [show caseEq (full h).key (bytes "Content-Type") = false from p2]; decide)] at q4
    rw [if_neg (show ¬ caseEq (full h).key (bytes "Content-Type") = true from by rw [show caseEq (full h).key (bytes "Content-Type") = false from p2]; decide),
      if_neg (show ¬ caseEq (full h).key (bytes "CSeq") = true from by rw [show caseEq (full h).key (bytes "CSeq") = false from p3]; decide)] at q5
    obtain ⟨i1, i2, i3, i4, i5, i6⟩ := ih (fun x hx => hp x (List.mem_cons_of_mem _ hx)) (pushHeader mv m (full h)) ((push_gen mv m (full h)).2.2.1.trans hb)
    refine ⟨?_, (same_push mv m (full h) hb).trans i2, i3.trans e2, i4.trans q3, i5.trans q4, i6.trans q5⟩
    show (pushFull mv (pushHeader mv m (full h)) t).headers = _
    rw [i1, push_headers mv m _ hb]
    simp

theorem pushFull_body (mv : Moves) (hs : List Hdr) : ∀ m : Msg, m.iterBody = true →
    pushFull mv m hs = { m with bodyHeaders := m.bodyHeaders ++ hs.map full } := by
  induction hs with
  | nil => intro m _; simp [pushFull]
  | cons h t ih =>
    intro m hb
    have hp : pushHeader mv m (full h) = { m with bodyHeaders := m.bodyHeaders ++ [full h] } := by
      unfold pushHeader
      rw [if_pos hb]
    show pushFull mv (pushHeader mv m (full h)) t = _
    rw [hp, ih { m with bodyHeaders := m.bodyHeaders ++ [full h] } hb]
    simp

theorem append_all (mv : Moves) (m : Msg) (hs bs : List Hdr) (h1 : ∀ h ∈ hs, h.1 ≠ []) (h2 : ∀ h ∈ bs, h.1 ≠ []) (ho : Open m) :
    append mv m (hdrsArgs hs bs) = some (0, { pushFull mv m hs with bodyHeaders := (pushFull mv m hs).bodyHeaders ++ bs.map full }) := by
  obtain ⟨a, b, c, d⟩ := pushFull_gen mv hs m
  have nil : ∀ x : Msg, x.type ≠ .data → x.isSealed = false → append mv x [] = some (0, x) := by
    intro x hx hx'
    unfold append
    rw [if_neg hx, if_neg (by rw [hx']; decide)]
  unfold hdrsArgs
  rw [hdrs_step mv hs h1 _ m ho.type ho.notSealed ho.iterHeader]
  generalize pushFull mv m hs = M at a b c d
  have Mt : M.type ≠ .data := a ▸ ho.type
  have Ms : M.isSealed = false := b.trans ho.notSealed
  have Mb : M.iterBody = false := c.trans ho.iterBody
  have Mi : M.iterHeader = none := d.trans ho.iterHeader
  by_cases hb : bs = []
  · rw [if_pos hb, nil M Mt Ms, hb]
    simp
  · rw [if_neg hb, List.append_assoc, List.singleton_append]
    have e1 : appendBasic mv M .bodyStart = some (0, { M with iterBody := true }) := by
      unfold appendBasic
      rw [if_neg Mt, if_neg (by rw [Ms]; decide)]
      simp only
      unfold openBody
      rw [if_neg Mt, if_neg (by rw [Ms]; decide), if_neg (by rw [Mi, Mb]; decide)]
    rw [append_step mv M _ _ _ e1 Mt Ms, hdrs_step mv bs h2 _ { M with iterBody := true } Mt Ms Mi, pushFull_body mv bs { M with iterBody := true } rfl]
    have e2 : appendBasic mv { M with iterBody := true, bodyHeaders := M.bodyHeaders ++ bs.map full } .bodyEnd =
        some (0, { M with bodyHeaders := M.bodyHeaders ++ bs.map full }) := by
      unfold appendBasic
      rw [if_neg (show ¬ M.type = .data from Mt), if_neg (show ¬ M.isSealed = true from by rw [Ms]; decide)]
      simp only
      unfold closeBody
      rw [if_neg (show ¬ M.type = .data from Mt), if_neg (show ¬ M.isSealed = true from by rw [Ms]; decide), if_neg (show ¬ true = false by decide),
        if_neg (show ¬ M.iterHeader ≠ none from by rw [Mi]; simp)]
      rw [← Mb]
    rw [append_step mv _ _ _ _ e2 Mt Ms, nil { M with bodyHeaders := M.bodyHeaders ++ bs.map full } Mt Ms]

end Verif.Rtsp
