import Verif.Proof.RtspCodes
/-! What sealing does to a message under construction: helper lemmas. -/
namespace Verif.Rtsp
open Verif.C

/-- A message the parser may hold, or one being built with nothing open. -/
structure Open (m : Msg) : Prop where
  type : m.type ≠ .data
  iterBody : m.iterBody = false
  iterHeader : m.iterHeader = none
  notSealed : m.isSealed = false

/-- Every header has its line. -/
def Lined (hs : List Header) : Prop := ∀ h ∈ hs, h.line ≠ none

/-- The header array has its size and the cached pointers were taken from the present array. -/
structure Live (m : Msg) : Prop where
  cap : m.headers.length ≤ m.hcap
  cap0 : m.hcap = 0 ∨ 64 ≤ m.hcap
  clen : ∀ p, m.clen = some p → p.gen = m.gen ∧ p.idx < m.headers.length
  ctype : ∀ p, m.ctype = some p → p.gen = m.gen ∧ p.idx < m.headers.length
  cseq : ∀ p, m.cseq = some p → p.gen = m.gen ∧ p.idx < m.headers.length

/-- The only way to lose `Live`: a 65th header was added and the allocator moved the array. -/
def Moved (mv : Moves) (m : Msg) : Prop := 65 ≤ m.headers.length ∧ ∃ c, 64 ≤ c ∧ mv c = true

theorem push_headers (mv : Moves) (m : Msg) (h : Header) (hb : m.iterBody = false) :
    (pushHeader mv m h).headers = m.headers ++ [h] := by
  unfold pushHeader
  rw [if_neg (by rw [hb]; decide)]
  show (grow mv m).headers ++ [h] = _
  unfold grow
  split <;> rfl

/-- The fields `pushHeader` leaves alone outside of the body. -/
theorem push_same (mv : Moves) (m : Msg) (h : Header) (hb : m.iterBody = false) :
    (pushHeader mv m h).type = m.type ∧ (pushHeader mv m h).cookie = m.cookie ∧ (pushHeader mv m h).iterBody = m.iterBody ∧
    (pushHeader mv m h).iterHeader = m.iterHeader ∧ (pushHeader mv m h).isSealed = m.isSealed ∧
    (pushHeader mv m h).body = m.body ∧ (pushHeader mv m h).bodyHeaders = m.bodyHeaders ∧ (pushHeader mv m h).raw = m.raw ∧
    (pushHeader mv m h).head = m.head ∧ (pushHeader mv m h).method = m.method ∧ (pushHeader mv m h).uri = m.uri ∧
    (pushHeader mv m h).code = m.code ∧ (pushHeader mv m h).phrase = m.phrase ∧ (pushHeader mv m h).major = m.major ∧
    (pushHeader mv m h).minor = m.minor ∧ (pushHeader mv m h).isUsed = m.isUsed := by
  unfold pushHeader
  rw [if_neg (by rw [hb]; decide)]
  simp only
  unfold grow
  split <;> exact ⟨rfl, rfl, rfl, rfl, rfl, rfl, rfl, rfl, rfl, rfl, rfl, rfl, rfl, rfl, rfl, rfl⟩

theorem Open.push (mv : Moves) {m : Msg} (h : Header) (hm : Open m) : Open (pushHeader mv m h) := by
  obtain ⟨h1, h2, h3, h4, h5, _⟩ := push_same mv m h hm.iterBody
  exact ⟨h1 ▸ hm.type, h3 ▸ hm.iterBody, h4 ▸ hm.iterHeader, h5 ▸ hm.notSealed⟩

theorem grow_gen (mv : Moves) (m : Msg) (hl : Live m) :
    ((grow mv m).gen = m.gen ∨ m.headers = [] ∨ (64 ≤ m.headers.length ∧ ∃ c, 64 ≤ c ∧ mv c = true)) ∧
    m.headers.length + 1 ≤ (grow mv m).hcap ∧ 64 ≤ (grow mv m).hcap := by
  have hc := hl.cap
  have hc0 := hl.cap0
  unfold grow
  split
  · exact ⟨Or.inl rfl, by omega, by omega⟩
  · rename_i hgt
    simp only
    rcases hc0 with h0 | h0
    · refine ⟨Or.inr (Or.inl ?_), ?_, ?_⟩
      · exact List.length_eq_zero_iff.mp (by omega)
      · rw [if_pos h0]; omega
      · rw [if_pos h0]; omega
    · refine ⟨?_, ?_, ?_⟩
      · cases hm : mv m.hcap with
        | true => exact Or.inr (Or.inr ⟨by omega, m.hcap, h0, hm⟩)
        | false => exact Or.inl (by simp)
      · rw [if_neg (by omega)]; omega
      · rw [if_neg (by omega)]; omega

theorem grow_same (mv : Moves) (m : Msg) : (grow mv m).headers = m.headers ∧ (grow mv m).clen = m.clen ∧
    (grow mv m).ctype = m.ctype ∧ (grow mv m).cseq = m.cseq := by
  unfold grow; split <;> exact ⟨rfl, rfl, rfl, rfl⟩

/-- The parts of `pushHeader` outside of the body, by name. -/
theorem push_parts (mv : Moves) (m : Msg) (h : Header) (hb : m.iterBody = false) :
    (pushHeader mv m h).hcap = (grow mv m).hcap ∧ (pushHeader mv m h).gen = (grow mv m).gen ∧
    (pushHeader mv m h).clen = (if caseEq h.key (bytes "Content-Length") then some ⟨(grow mv m).gen, m.headers.length⟩ else m.clen) ∧
    (pushHeader mv m h).ctype = (if caseEq h.key (bytes "Content-Type") then some ⟨(grow mv m).gen, m.headers.length⟩ else m.ctype) ∧
    (pushHeader mv m h).cseq = (if caseEq h.key (bytes "Content-Type") then m.cseq
      else if caseEq h.key (bytes "CSeq") then some ⟨(grow mv m).gen, m.headers.length⟩ else m.cseq) := by
  obtain ⟨g1, g2, g3, g4⟩ := grow_same mv m
  unfold pushHeader
  rw [if_neg (by rw [hb]; decide), ← g1, ← g2, ← g3, ← g4]
  exact ⟨rfl, rfl, rfl, rfl, rfl⟩

theorem Live.push (mv : Moves) {m : Msg} (h : Header) (hb : m.iterBody = false) (hl : Live m) :
    Live (pushHeader mv m h) ∨ Moved mv (pushHeader mv m h) := by
  obtain ⟨e1, e2, e3, e4, e5⟩ := push_parts mv m h hb
  have hh := push_headers mv m h hb
  obtain ⟨g1, g2, g3⟩ := grow_gen mv m hl
  have hlen : (pushHeader mv m h).headers.length = m.headers.length + 1 := by rw [hh, List.length_append]; rfl
  by_cases hmv : 64 ≤ m.headers.length ∧ ∃ c, 64 ≤ c ∧ mv c = true
  · exact Or.inr ⟨by omega, hmv.2⟩
  · left
    have old : ∀ p : Ptr, p.gen = m.gen ∧ p.idx < m.headers.length → p.gen = (grow mv m).gen ∧ p.idx < m.headers.length + 1 := by
      intro p ⟨hp1, hp2⟩
      rcases g1 with g1 | g1 | g1
      · exact ⟨by rw [g1]; exact hp1, by omega⟩
      · rw [g1] at hp2; exact absurd hp2 (by simp)
      · exact absurd g1 hmv
    refine ⟨by rw [hlen, e1]; exact g2, by rw [e1]; exact Or.inr g3, ?_, ?_, ?_⟩
    · intro p hp
      rw [e3] at hp
      rw [e2, hlen]
      split at hp
      · cases hp; exact ⟨rfl, by simp⟩
      · exact old p (hl.clen p hp)
    · intro p hp
      rw [e4] at hp
      rw [e2, hlen]
      split at hp
      · cases hp; exact ⟨rfl, by simp⟩
      · exact old p (hl.ctype p hp)
    · intro p hp
      rw [e5] at hp
      rw [e2, hlen]
      split at hp
      · exact old p (hl.cseq p hp)
      · split at hp
        · cases hp; exact ⟨rfl, by simp⟩
        · exact old p (hl.cseq p hp)

theorem Moved.push (mv : Moves) {m : Msg} (h : Header) (hb : m.iterBody = false) (hl : Moved mv m) : Moved mv (pushHeader mv m h) :=
  ⟨by rw [push_headers mv m h hb, List.length_append]; have := hl.1; simp; omega, hl.2⟩

theorem Lined.push (mv : Moves) {m : Msg} (h : Header) (hb : m.iterBody = false) (hl : Lined m.headers) (hh : h.line ≠ none) :
    Lined (pushHeader mv m h).headers := by
  rw [push_headers mv m h hb]
  intro x hx
  rcases List.mem_append.mp hx with hx | hx
  · exact hl x hx
  · rw [List.mem_singleton.mp hx]; exact hh

/-- The line a fresh special header gets. -/
def mkLine (name t : List Byte) : Header :=
  ⟨name, some (Qstr.lineF [] [t]), [t], some (name ++ bytes ": " ++ Qstr.lineF [] [t] ++ [13, 10])⟩

/-- The token an argument stands for. -/
def argTok : Arg → Option (List Byte)
  | .str s => some s
  | .i32 i => some (decInt i)
  | .u32 n => some (dec n)
  | _ => none

theorem push_last (mv : Moves) (m : Msg) (h h' : Header) (hb : m.iterBody = false) (hk : h'.key = h.key) :
    { pushHeader mv m h with headers := m.headers ++ [h'] } = pushHeader mv m h' := by
  unfold pushHeader
  rw [if_neg (by rw [hb]; decide), if_neg (by rw [hb]; decide), hk]
  unfold grow
  split <;> rfl

theorem append_tok (mv : Moves) (m : Msg) (a : Arg) (t : List Byte) (ha : argTok a = some t) (ht : m.type ≠ .data)
    (hs : m.isSealed = false) : appendBasic mv m a = appendTok m t := by
  unfold appendBasic
  rw [if_neg ht, if_neg (by rw [hs]; decide)]
  cases a <;> simp only [argTok, Option.some.injEq, reduceCtorEq] at ha <;> simp only [ha]

theorem special_none (mv : Moves) (m : Msg) (hm : Open m) (name : List Byte) (hn : name ≠ []) (a : Arg) (t : List Byte)
    (ha : argTok a = some t) (text : List Byte) :
    special mv m none name a text = some (0, pushHeader mv m (mkLine name t)) := by
  have hc : closeHeader m = some (-EINVAL, m) := by
    unfold closeHeader
    rw [if_neg hm.type, if_neg (by rw [hm.notSealed]; decide), if_pos hm.iterHeader]
  have hcb : closeBody m = (-EINVAL, m) := by
    unfold closeBody
    rw [if_neg hm.type, if_neg (by rw [hm.notSealed]; decide), if_pos hm.iterBody]
  have hho : appendHeader mv m name [] 0 none = (0, pushHeader mv m ⟨name, none, [], none⟩) := by
    unfold appendHeader mkHeader
    rw [if_neg hm.type]
    rfl
  have hop : openHeader mv m name = (0, { pushHeader mv m ⟨name, none, [], none⟩ with iterHeader := some (false, m.headers.length) }) := by
    unfold openHeader
    rw [if_neg (by intro h; exact h.elim hn hm.type), if_neg (by rw [hm.notSealed]; decide), if_neg (by rw [hm.iterHeader]; decide)]
    simp only
    rw [hho, hm.iterBody]
    rfl
  have e := push_same mv m ⟨name, none, [], none⟩ hm.iterBody
  have eh := push_headers mv m ⟨name, none, [], none⟩ hm.iterBody
  have e1 : appendBasic mv m (.headerStart name) = some (openHeader mv m name) := by
    unfold appendBasic
    rw [if_neg hm.type, if_neg (by rw [hm.notSealed]; decide)]
  generalize hM : ({ pushHeader mv m ⟨name, none, [], none⟩ with iterHeader := some (false, m.headers.length) } : Msg) = M at hop
  have Mt : M.type ≠ .data := by rw [← hM]; show (pushHeader mv m _).type ≠ _; rw [e.1]; exact hm.type
  have Ms : M.isSealed = false := by rw [← hM]; show (pushHeader mv m _).isSealed = _; rw [e.2.2.2.2.1]; exact hm.notSealed
  have Mi : M.iterHeader = some (false, m.headers.length) := by rw [← hM]
  have Mh : M.headers = m.headers ++ [⟨name, none, [], none⟩] := by rw [← hM]; exact eh
  have Mg : getIter M = some ⟨name, none, [], none⟩ := by
    unfold getIter; rw [Mi]; simp only
    rw [if_neg (by decide), Mh]; simp
  have e2 : appendBasic mv M a = some (0, { M with headers := m.headers ++ [⟨name, none, [t], none⟩] }) := by
    rw [append_tok mv M a t ha Mt Ms]
    unfold appendTok
    rw [if_neg (by rw [Mi]; simp), Mg]
    unfold setIter
    rw [Mi]
    simp only [appendToken, Option.bind_eq_bind, Option.bind_some]
    simp [Mh]
  have e3 : appendBasic mv { M with headers := m.headers ++ [⟨name, none, [t], none⟩] } .headerEnd =
      some (0, { M with headers := m.headers ++ [mkLine name t], iterHeader := none }) := by
    unfold appendBasic
    rw [if_neg (show M.type ≠ .data from Mt), if_neg (show ¬ M.isSealed = true from by rw [Ms]; decide)]
    simp only
    unfold closeHeader
    rw [if_neg (show M.type ≠ .data from Mt), if_neg (show ¬ M.isSealed = true from by rw [Ms]; decide),
      if_neg (show ¬ M.iterHeader = none from by rw [Mi]; simp)]
    unfold getIter setIter
    simp only [Mi]
    simp [serializeHeader, mkLine]
  unfold special
  simp only
  rw [hc]
  simp only [Option.bind_eq_bind, Option.bind_some]
  rw [hcb]
  unfold append
  rw [e1, hop]
  simp only [Option.bind_eq_bind, Option.bind_some]
  rw [if_neg (by decide), if_neg (by simp)]
  unfold append
  rw [e2]
  simp only [Option.bind_eq_bind, Option.bind_some]
  rw [if_neg (by decide), if_neg (by simp)]
  unfold append
  rw [e3]
  simp only [Option.bind_eq_bind, Option.bind_some]
  rw [if_neg (by decide), if_pos trivial]
  congr 2
  rw [← push_last mv m ⟨name, none, [], none⟩ (mkLine name t) hm.iterBody rfl, ← hM]
  have hi : (pushHeader mv m ⟨name, none, [], none⟩).iterHeader = none := by rw [e.2.2.2.1]; exact hm.iterHeader
  rw [← hi]

/-- What adding a special header leaves alone and keeps. -/
structure Step (mv : Moves) (m m' : Msg) : Prop where
  open_ : Open m'
  lined : Lined m'.headers
  live : Live m' ∨ Moved mv m'
  len : m'.headers.length ≤ m.headers.length + 1
  type : m'.type = m.type
  body : m'.body = m.body
  bodyHeaders : m'.bodyHeaders = m.bodyHeaders
  cookie : m'.cookie = m.cookie

theorem dec_ne (n : Nat) : dec n ≠ [] := dec_ne_nil n

theorem special_step (mv : Moves) (m : Msg) (p : Option Ptr) (name : List Byte) (a : Arg) (t text : List Byte) (hm : Open m) (hl : Live m)
    (hli : Lined m.headers) (hp : ∀ q, p = some q → q.gen = m.gen ∧ q.idx < m.headers.length) (hn : name ≠ [])
    (ha : argTok a = some t) : ∃ m', special mv m p name a text = some (0, m') ∧ Step mv m m' := by
  cases p with
  | none =>
    refine ⟨_, special_none mv m hm name hn a t ha text, ?_⟩
    have e := push_same mv m (mkLine name t) hm.iterBody
    exact ⟨hm.push mv _, hli.push mv _ hm.iterBody (by simp [mkLine]), hl.push mv _ hm.iterBody,
      by rw [push_headers mv m _ hm.iterBody]; simp, e.1, e.2.2.2.2.2.1, e.2.2.2.2.2.2.1, e.2.1⟩
  | some q =>
    obtain ⟨hq1, hq2⟩ := hp q rfl
    have hg : m.headers[q.idx]? = some m.headers[q.idx] := List.getElem?_eq_getElem hq2
    unfold special rewrite
    simp only
    rw [if_pos hq1, hg]
    simp only [Option.bind_eq_bind, Option.bind_some, Option.map_some]
    refine ⟨_, rfl, ?_⟩
    refine ⟨⟨hm.type, hm.iterBody, hm.iterHeader, hm.notSealed⟩, ?_, ?_, ?_, rfl, rfl, rfl, rfl⟩
    · intro x hx
      rcases List.mem_or_eq_of_mem_set hx with h | h
      · exact hli x h
      · rw [h]; unfold serializeHeader; split
        · assumption
        · simp
    · left
      have hlen : ∀ y, (m.headers.set q.idx y).length = m.headers.length := fun y => List.length_set
      exact ⟨by show (m.headers.set _ _).length ≤ _; rw [hlen]; exact hl.cap, hl.cap0,
        fun r hr => by show _ ∧ _ < (m.headers.set _ _).length; rw [hlen]; exact hl.clen r hr,
        fun r hr => by show _ ∧ _ < (m.headers.set _ _).length; rw [hlen]; exact hl.ctype r hr,
        fun r hr => by show _ ∧ _ < (m.headers.set _ _).length; rw [hlen]; exact hl.cseq r hr⟩
    · show (m.headers.set _ _).length ≤ _
      rw [List.length_set]; omega

theorem lines_def (hs : List Header) (h : Lined hs) : ∃ l, lines hs = some l := by
  induction hs with
  | nil => exact ⟨[], rfl⟩
  | cons x t ih =>
    obtain ⟨r, hr⟩ := ih (fun y hy => h y (List.mem_cons_of_mem _ hy))
    obtain ⟨l, hl⟩ := Option.ne_none_iff_exists'.mp (h x List.mem_cons_self)
    exact ⟨l ++ r, by unfold lines; rw [hl, hr]; rfl⟩

theorem headLine_def (m : Msg) (h : m.type ≠ .data) : ∃ l, headLine m = some l := by
  unfold headLine
  cases hm : m.type with
  | data => exact absurd hm h
  | unknown => exact ⟨_, rfl⟩
  | request => exact ⟨_, rfl⟩
  | reply => exact ⟨_, rfl⟩

/-- Sealing is defined unless the array of headers moved, which takes 63 headers. -/
theorem serialize_def (mv : Moves) (m : Msg) (hm : Open m) (hl : Live m) (hli : Lined m.headers) (hb : Lined m.bodyHeaders) :
    (∃ m', serializeCommon mv m = some (0, m')) ∨ (63 ≤ m.headers.length ∧ ∃ c, 64 ≤ c ∧ mv c = true) := by
  obtain ⟨head, hh⟩ := headLine_def m hm.type
  have hcb : ∃ cb, bodyText m = some cb := by
    unfold bodyText
    cases m.body with
    | some b => exact ⟨b, rfl⟩
    | none => exact lines_def _ hb
  obtain ⟨cb, hcb⟩ := hcb
  unfold serializeCommon
  rw [hh]
  simp only [Option.bind_eq_bind, Option.bind_some]
  rw [hcb]
  simp only [Option.bind_some]
  -- content length
  have s1 : ∃ m1, (if m.clen ≠ none ∨ cb ≠ [] then
      special mv m m.clen (bytes "Content-Length") (.u32 (cb.length % W32)) (dec cb.length) else some (0, m)) = some (0, m1) ∧ Step mv m m1 := by
    split
    · exact special_step mv m m.clen _ _ _ _ hm hl hli hl.clen (by decide) rfl
    · exact ⟨m, rfl, hm, hli, Or.inl hl, by omega, rfl, rfl, rfl, rfl⟩
  obtain ⟨m1, e1, t1⟩ := s1
  rw [e1]
  simp only [Option.bind_some]
  rw [if_neg (by decide)]
  rcases t1.live.symm with l1 | l1
  · exact Or.inr ⟨by have := l1.1; have := t1.len; omega, l1.2⟩
  have s2 : ∃ m2, (if m1.bodyHeaders ≠ [] then
      special mv m1 m1.ctype (bytes "Content-Type") (.str (bytes "text/parameters")) (bytes "text/parameters") else some (0, m1)) = some (0, m2) ∧
      Step mv m1 m2 := by
    split
    · exact special_step mv m1 m1.ctype _ _ _ _ t1.open_ l1 t1.lined l1.ctype (by decide) rfl
    · exact ⟨m1, rfl, t1.open_, t1.lined, Or.inl l1, by omega, rfl, rfl, rfl, rfl⟩
  obtain ⟨m2, e2, t2⟩ := s2
  rw [e2]
  simp only [Option.bind_some]
  rw [if_neg (by decide)]
  rcases t2.live.symm with l2 | l2
  · exact Or.inr ⟨by have := l2.1; have := t2.len; have := t1.len; omega, l2.2⟩
  obtain ⟨m3, e3, t3⟩ := special_step mv m2 m2.cseq (bytes "CSeq") (.str (dec (local_ m2.cookie))) _ (dec (local_ m2.cookie)) t2.open_ l2 t2.lined
    l2.cseq (by decide) rfl
  rw [e3]
  simp only [Option.bind_some]
  rw [if_neg (by decide)]
  obtain ⟨hs, h3⟩ := lines_def _ t3.lined
  rw [h3]
  exact Or.inl ⟨_, rfl⟩

end Verif.Rtsp
