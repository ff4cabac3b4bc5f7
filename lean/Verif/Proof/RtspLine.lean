import Verif.Proof.RtspFrame
import Verif.Proof.SanitizeWords
/-! Receiving a message line by line: helper lemmas. -/
namespace Verif.Rtsp
open Verif.C
open Sanitize.Spec (Mode text endMode words white next Tidy)

/-- CR LF. -/
def crlf : List Byte := [13, 10]

/-- A line that comes through `sanitize_line` as it is, with all quotes closed. -/
structure Clean (l : List Byte) : Prop where
  text : text l = l
  closed : endMode .plain l = .plain
  ne : l ≠ []

theorem next_plain {c : Byte} (h : c ≠ ch '"') : next .plain c = .plain := if_neg h
theorem next_quote {c : Byte} (h : c = ch '"') : next .plain c = .quoted := if_pos h
theorem next_close {c : Byte} (h : c = ch '"') : next .quoted c = .plain := if_pos h
theorem next_esc {c : Byte} (h : c = ch '\\') : next .quoted c = .escaped := by rw [h]; rfl
theorem next_stay {c : Byte} (h : c ≠ ch '"') (h' : c ≠ ch '\\') : next .quoted c = .quoted := by
  show (if c = ch '"' then Mode.plain else if c = ch '\\' then .escaped else .quoted) = _
  rw [if_neg h, if_neg h']

theorem words_crlf (l : List Byte) (m : Mode) (cur : List Byte) (h : endMode m l = .plain) :
    words m cur (l ++ crlf) = words m cur l := by
  induction l generalizing m cur with
  | nil =>
    have : m = .plain := h
    subst this
    rw [List.nil_append]
    show words .plain cur [13, 10] = _
    have h13 : white 13 = true := by decide
    have h10 : white 10 = true := by decide
    rw [Sanitize.words_step, if_pos ⟨rfl, h13⟩]
    have : words .plain [] [10] = [] := by rw [Sanitize.words_step, if_pos ⟨rfl, h10⟩]; simp [words]
    rw [this]
    simp [words]
  | cons c t ih =>
    rw [List.cons_append, Sanitize.words_step, Sanitize.words_step]
    split
    · rename_i hc
      rw [ih]
      have : endMode (next m c) t = .plain := h
      rw [hc.1] at this ⊢
      have hq : c ≠ ch '"' := by
        intro e; rw [e] at hc; exact absurd hc.2 (by decide)
      rw [next_plain hq] at this
      exact this
    · exact ih _ _ h

theorem text_crlf {l : List Byte} (h : Clean l) : text (l ++ crlf) = l := by
  unfold Sanitize.Spec.text
  rw [words_crlf l .plain [] h.closed]
  exact h.text

theorem Clean.tidy {l : List Byte} (h : Clean l) : Tidy .plain true l := by
  have := Sanitize.tidy_joined _ (Sanitize.words_good l .plain [] trivial rfl)
  have ht := h.text
  unfold Sanitize.Spec.text at ht
  rw [ht] at this
  exact this

/-- In the middle of a line of which `cur` was read, ending in the given mode. -/
structure InLine (b : Bus) (cur : List Byte) (mode : Mode) : Prop where
  ring : b.dec.ring = cur
  buflen : b.dec.buflen = cur.length
  state : b.dec.state = if mode = .plain then .header else .headerQuote
  esc : mode ≠ .plain → (mode = .escaped ↔ b.dec.lastChr = ch '\\' ∧ b.dec.quoted = false)
  nl : mode = .plain → b.dec.lastChr ≠ 13 ∧ b.dec.lastChr ≠ 10

/-- What reading a line leaves alone. -/
structure Keeps (b b' : Bus) : Prop where
  log : b'.log = b.log
  m : b'.dec.m = b.dec.m
  remaining : b'.dec.remaining = b.dec.remaining

theorem Keeps.trans {a b c : Bus} (h : Keeps a b) (h' : Keeps b c) : Keeps a c :=
  ⟨h'.log.trans h.log, h'.m.trans h.m, h'.remaining.trans h.remaining⟩

theorem fh_cr (env : Env) (b : Bus) (h : b.dec.lastChr ≠ 13) (h' : b.dec.lastChr ≠ 10) :
    feedHeader env b 13 = some (0, b.put b.dec.inc) := by
  unfold feedHeader
  show (if (13 : Byte) = 13 then _ else _) = _
  rw [if_pos rfl, if_neg (fun x => x.elim h h')]

theorem fh_end (env : Env) (b : Bus) (h : b.dec.lastChr = 10) :
    feedHeader env b 13 = headerEnd env b (b.dec.goto .headerNl) .headerNl .headerNl := by
  unfold feedHeader
  show (if (13 : Byte) = 13 then _ else _) = _
  rw [if_pos rfl, if_pos (Or.inr h)]

theorem fh_lf (env : Env) (b : Bus) (h : b.dec.lastChr ≠ 10) : feedHeader env b 10 = some (0, b.put b.dec.inc) := by
  unfold feedHeader
  show (if (10 : Byte) = 13 then _ else if (10 : Byte) = 10 then _ else _) = _
  rw [if_neg (by decide), if_pos rfl, if_neg h]

theorem fh_blank (env : Env) (b : Bus) (c : Byte) (h : c = 9 ∨ c = ch ' ') : feedHeader env b c = some (0, b.put b.dec.inc) := by
  unfold feedHeader
  simp only
  rw [if_neg (by rcases h with rfl | rfl <;> decide), if_neg (by rcases h with rfl | rfl <;> decide), if_pos h]

theorem fh_char (env : Env) (b : Bus) (c : Byte) (h13 : c ≠ 13) (h10 : c ≠ 10) (hw : ¬ (c = 9 ∨ c = ch ' '))
    (h : b.dec.lastChr ≠ 13) (h' : b.dec.lastChr ≠ 10) : feedHeader env b c = some (0, b.put (headerChar b.dec c)) := by
  unfold feedHeader
  simp only
  rw [if_neg h13, if_neg h10, if_neg hw, if_neg (fun x => x.elim h h')]

theorem fh_next (env : Env) (b : Bus) (c : Byte) (d : Parser) (h13 : c ≠ 13) (h10 : c ≠ 10) (hw : ¬ (c = 9 ∨ c = ch ' '))
    (h : b.dec.lastChr = 10) (hf : finishHeaderLine env b.dec = some (0, d)) :
    feedHeader env b c = some (0, b.put (headerChar (pull d d.buflen 0) c)) := by
  unfold feedHeader
  simp only
  rw [if_neg h13, if_neg h10, if_neg hw, if_pos (Or.inr h), hf]
  rfl

theorem line_step (env : Env) (b : Bus) (cur : List Byte) (mode : Mode) (c : Byte) (hb : InLine b cur mode)
    (hc : mode = .plain → c ≠ 13 ∧ c ≠ 10) :
    ∃ b', feedChar env (b.ext [c]) c = some (0, b') ∧ InLine (b'.last c) (cur ++ [c]) (next mode c) ∧ Keeps b (b'.last c) := by
  have hr : (b.ext [c]).dec.ring = cur ++ [c] := by show b.dec.ring ++ [c] = _; rw [hb.ring]
  have hl : (b.ext [c]).dec.buflen + 1 = (cur ++ [c]).length := by show b.dec.buflen + 1 = _; rw [hb.buflen]; simp
  have hst := hb.state
  unfold feedChar
  rw [show (b.ext [c]).dec.state = b.dec.state from rfl, hst]
  by_cases hm : mode = .plain
  · subst hm
    obtain ⟨h13, h10⟩ := hc rfl
    obtain ⟨n13, n10⟩ := hb.nl rfl
    simp only [if_pos]
    by_cases hw : c = 9 ∨ c = ch ' '
    · rw [fh_blank env _ c hw]
      refine ⟨_, rfl, ⟨hr, hl, ?_, ?_, fun _ => ⟨h13, h10⟩⟩, ⟨rfl, rfl, rfl⟩⟩
      · have : next .plain c = .plain := 
          next_plain (by rcases hw with rfl | rfl <;> decide)
        rw [this]; exact hst
      · intro hn
        have : next .plain c = .plain := 
          next_plain (by rcases hw with rfl | rfl <;> decide)
        exact absurd this hn
    · rw [fh_char env (b.ext [c]) c h13 h10 hw n13 n10]
      unfold headerChar
      by_cases hq : c = ch '"'
      · rw [if_pos hq]
        have hn : next .plain c = .quoted := next_quote hq
        rw [hn]
        refine ⟨_, rfl, ⟨hr, hl, rfl, fun _ => ?_, fun h => by cases h⟩, ⟨rfl, rfl, rfl⟩⟩
        refine ⟨fun h => (by cases h), fun h => ?_⟩
        have h1 : c = ch '\\' := h.1
        rw [hq] at h1
        exact absurd h1 (by decide)
      · rw [if_neg hq]
        have hn : next .plain c = .plain := next_plain hq
        rw [hn]
        exact ⟨_, rfl, ⟨hr, hl, hst, fun h => absurd rfl h, fun _ => ⟨h13, h10⟩⟩, ⟨rfl, rfl, rfl⟩⟩
  · rw [if_neg hm]
    simp only
    have he := hb.esc hm
    unfold feedQuote
    by_cases hesc : mode = .escaped
    · rw [if_pos (show (b.ext [c]).dec.lastChr = _ ∧ (b.ext [c]).dec.quoted = _ from he.mp hesc)]
      subst hesc
      refine ⟨_, rfl, ⟨hr, hl, hst, fun _ => ⟨fun h => (by cases h), fun h => ?_⟩, fun h => by cases h⟩, ⟨rfl, rfl, rfl⟩⟩
      have : true = false := h.2
      cases this
    · rw [if_neg (show ¬ ((b.ext [c]).dec.lastChr = _ ∧ (b.ext [c]).dec.quoted = _) from fun h => hesc (he.mpr h))]
      have hmq : mode = .quoted := by cases mode <;> simp_all
      subst hmq
      by_cases hq : c = ch '"'
      · rw [if_pos hq]
        have hn : next .quoted c = .plain := next_close hq
        rw [hn]
        refine ⟨_, rfl, ⟨hr, hl, rfl, fun h => absurd rfl h, fun _ => ?_⟩, ⟨rfl, rfl, rfl⟩⟩
        show c ≠ 13 ∧ c ≠ 10
        rw [hq]; decide
      · rw [if_neg hq]
        by_cases hbs : c = ch '\\'
        · have hn : next .quoted c = .escaped := next_esc hbs
          rw [hn]
          exact ⟨_, rfl, ⟨hr, hl, hst, fun _ => ⟨fun _ => ⟨hbs, rfl⟩, fun _ => rfl⟩, fun h => by cases h⟩, ⟨rfl, rfl, rfl⟩⟩
        · have hn : next .quoted c = .quoted := next_stay hq hbs
          rw [hn]
          exact ⟨_, rfl, ⟨hr, hl, hst, fun _ => ⟨fun h => (by cases h), fun h => absurd h.1 hbs⟩, fun h => by cases h⟩, ⟨rfl, rfl, rfl⟩⟩

theorem line_run (env : Env) (s : List Byte) : ∀ (b : Bus) (cur : List Byte) (mode : Mode) (x : Bool), InLine b cur mode → Tidy mode x s →
    ∃ b', run env b s = some (0, b') ∧ InLine b' (cur ++ s) (endMode mode s) ∧ Keeps b b' := by
  induction s with
  | nil => intro b cur mode x h _; exact ⟨b, rfl, by simpa [endMode] using h, rfl, rfl, rfl⟩
  | cons c t ih =>
    intro b cur mode x h ht
    obtain ⟨b1, e1, i1, k1⟩ := line_step env b cur mode c h (fun hm => ⟨(ht.1 hm).1, (ht.1 hm).2.1⟩)
    obtain ⟨b2, e2, i2, k2⟩ := ih (b1.last c) (cur ++ [c]) (next mode c) _ i1 ht.2
    refine ⟨b2, by rw [run_step t e1]; exact e2, ?_, k1.trans k2⟩
    rw [show cur ++ c :: t = cur ++ [c] ++ t from by simp]
    exact i2

/-- Behind the CR LF of a line. -/
structure AtEol (b : Bus) (l : List Byte) (m : Option Msg) (rem : Nat) : Prop where
  ring : b.dec.ring = l ++ crlf
  buflen : b.dec.buflen = (l ++ crlf).length
  state : b.dec.state = .header
  last : b.dec.lastChr = 10
  m : b.dec.m = m
  remaining : b.dec.remaining = rem

theorem crlf_run (env : Env) (b : Bus) (l : List Byte) (hb : InLine b l .plain) :
    ∃ b', run env b crlf = some (0, b') ∧ AtEol b' l b.dec.m b.dec.remaining ∧ b'.log = b.log := by
  obtain ⟨n13, n10⟩ := hb.nl rfl
  have hst : b.dec.state = .header := hb.state
  have e1 : feedChar env (b.ext [13]) 13 = some (0, (b.ext [13]).put (b.ext [13]).dec.inc) := by
    unfold feedChar
    rw [show (b.ext [13]).dec.state = b.dec.state from rfl, hst]
    exact fh_cr env _ n13 n10
  unfold crlf
  rw [run_step _ e1]
  generalize hb1 : ((b.ext [13]).put (b.ext [13]).dec.inc).last 13 = b1
  have s1 : b1.dec.state = .header := by rw [← hb1]; exact hst
  have r1 : b1.dec.ring = l ++ [13] := by rw [← hb1]; show b.dec.ring ++ [13] = _; rw [hb.ring]
  have l1 : b1.dec.buflen = l.length + 1 := by rw [← hb1]; show b.dec.buflen + 1 = _; rw [hb.buflen]
  have c1 : b1.dec.lastChr = 13 := by rw [← hb1]; rfl
  have e2 : feedChar env (b1.ext [10]) 10 = some (0, (b1.ext [10]).put (b1.ext [10]).dec.inc) := by
    unfold feedChar
    rw [show (b1.ext [10]).dec.state = b1.dec.state from rfl, s1]
    exact fh_lf env _ (show ¬ b1.dec.lastChr = 10 from by rw [c1]; decide)
  rw [run_step _ e2]
  refine ⟨_, rfl, ⟨?_, ?_, s1, rfl, ?_, ?_⟩, ?_⟩
  · show b1.dec.ring ++ [10] = _; rw [r1]; simp [crlf]
  · show b1.dec.buflen + 1 = _; rw [l1]; simp [crlf]
  · show b1.dec.m = _; rw [← hb1]; rfl
  · show b1.dec.remaining = _; rw [← hb1]; rfl
  · show b1.log = _; rw [← hb1]; rfl

/-- Finishing the line `l` takes the parser from message `m` and body length `rem` to `m'` and `rem'`. -/
def Fin (env : Env) (m : Option Msg) (rem : Nat) (l : List Byte) (m' : Msg) (rem' : Nat) : Prop :=
  ∀ d : Parser, d.m = m → d.remaining = rem → copyOut d d.buflen = some (l ++ crlf) →
    finishHeaderLine env d = some (0, { d with m := some m', remaining := rem' })

/-- Characters of the next line start with the line before finished. -/
theorem next_line (env : Env) (b : Bus) (l n : List Byte) (m : Option Msg) (rem : Nat) (m' : Msg) (rem' : Nat) (hb : AtEol b l m rem)
    (hf : Fin env m rem l m' rem') (hn : Clean n) :
    ∃ b', run env b (n ++ crlf) = some (0, b') ∧ AtEol b' n (some m') rem' ∧ b'.log = b.log := by
  obtain ⟨c, t, rfl⟩ := List.exists_cons_of_ne_nil hn.ne
  have ht := hn.tidy
  have hc := ht.1 rfl
  have hsp : c ≠ ch ' ' := by intro e; have := hc.2.2.2 e; cases this
  have hco : copyOut (b.ext [c]).dec (b.ext [c]).dec.buflen = some (l ++ crlf) := by
    unfold copyOut
    rw [show (b.ext [c]).dec.buflen = b.dec.buflen from rfl, show (b.ext [c]).dec.ring = b.dec.ring ++ [c] from rfl, hb.buflen, hb.ring,
      if_pos (by simp), List.take_left' rfl]
  have hfin := hf (b.ext [c]).dec hb.m hb.remaining hco
  have e1 : feedChar env (b.ext [c]) c = some (0, (b.ext [c]).put (headerChar (pull { (b.ext [c]).dec with m := some m', remaining := rem' }
      (b.ext [c]).dec.buflen 0) c)) := by
    unfold feedChar
    rw [show (b.ext [c]).dec.state = b.dec.state from rfl, hb.state]
    exact fh_next env _ c _ hc.1 hc.2.1 (fun h => h.elim hc.2.2.1 hsp) hb.last hfin
  have hring : (b.ext [c]).dec.ring.drop (b.ext [c]).dec.buflen = [c] := by
    rw [show (b.ext [c]).dec.buflen = b.dec.buflen from rfl, show (b.ext [c]).dec.ring = b.dec.ring ++ [c] from rfl, hb.buflen, hb.ring]
    exact List.drop_left' rfl
  generalize hb1 : ((b.ext [c]).put (headerChar (pull { (b.ext [c]).dec with m := some m', remaining := rem' }
      (b.ext [c]).dec.buflen 0) c)).last c = b1
  have hin : InLine b1 [c] (next .plain c) ∧ b1.dec.m = some m' ∧ b1.dec.remaining = rem' ∧ b1.log = b.log := by
    rw [← hb1]
    unfold headerChar
    by_cases hq : c = ch '"'
    · rw [if_pos hq]
      have hnx : next .plain c = .quoted := next_quote hq
      rw [hnx]
      refine ⟨⟨hring, rfl, rfl, fun _ => ⟨fun h => (by cases h), fun h => ?_⟩, fun h => by cases h⟩, rfl, rfl, rfl⟩
      have h1 : c = ch '\\' := h.1
      rw [hq] at h1
      exact absurd h1 (by decide)
    · rw [if_neg hq]
      have hnx : next .plain c = .plain := next_plain hq
      rw [hnx]
      exact ⟨⟨hring, rfl, hb.state, fun h => absurd rfl h, fun _ => ⟨hc.1, hc.2.1⟩⟩, rfl, rfl, rfl⟩
  obtain ⟨hi, hm1, hrm1, hl1⟩ := hin
  obtain ⟨b2, e2, i2, k2⟩ := line_run env t b1 [c] (next .plain c) _ hi ht.2
  have hend : endMode (next .plain c) t = .plain := hn.closed
  rw [hend] at i2
  obtain ⟨b3, e3, a3, g3⟩ := crlf_run env b2 _ i2
  refine ⟨b3, ?_, ?_, by rw [g3, k2.log, hl1]⟩
  · rw [List.cons_append, run_step _ e1, hb1, run_trans _ e2]; exact e3
  · rw [k2.m, k2.remaining, hm1, hrm1] at a3; exact a3

/-- The first line of a message may start like this. -/
def HeadStart (l : List Byte) : Prop := l.head? ≠ some (ch '$') ∧ l.head? ≠ some (ch '"')

theorem first_line (env : Env) (b : Bus) (hb : Idle b) (n : List Byte) (hn : Clean n) (hs : HeadStart n) :
    ∃ b', run env b (n ++ crlf) = some (0, b') ∧ AtEol b' n none 0 ∧ b'.log = b.log := by
  obtain ⟨c, t, rfl⟩ := List.exists_cons_of_ne_nil hn.ne
  have ht := hn.tidy
  have hc := ht.1 rfl
  have hsp : c ≠ ch ' ' := by intro e; have := hc.2.2.2 e; cases this
  have hd : c ≠ ch '$' := fun e => hs.1 (by rw [e]; rfl)
  have hq : c ≠ ch '"' := fun e => hs.2 (by rw [e]; rfl)
  have e1 : feedChar env (b.ext [c]) c = some (0, (b.ext [c]).put (pull { (b.ext [c]).dec.goto .header with remaining := 0 } (b.ext [c]).dec.buflen 1)) := by
    rw [idle_new env b hb]
    unfold feedNew
    rw [if_neg (by intro h; rcases h with h | h | h | h
                   · exact hc.1 h
                   · exact hc.2.1 h
                   · exact hc.2.2.1 h
                   · exact hsp h), if_neg hd]
  have hring : (b.ext [c]).dec.ring.drop (b.ext [c]).dec.buflen = [c] := by
    have := hb.sync
    rw [show (b.ext [c]).dec.buflen = b.dec.buflen from rfl, show (b.ext [c]).dec.ring = b.dec.ring ++ [c] from rfl, this]
    exact List.drop_left' rfl
  generalize hb1 : ((b.ext [c]).put (pull { (b.ext [c]).dec.goto .header with remaining := 0 } (b.ext [c]).dec.buflen 1)).last c = b1
  have hnx : next .plain c = .plain := next_plain hq
  have hin : InLine b1 [c] .plain ∧ b1.dec.m = none ∧ b1.dec.remaining = 0 ∧ b1.log = b.log := by
    rw [← hb1]
    exact ⟨⟨hring, rfl, rfl, fun h => absurd rfl h, fun _ => ⟨hc.1, hc.2.1⟩⟩, hb.m, rfl, rfl⟩
  obtain ⟨hi, hm1, hrm1, hl1⟩ := hin
  have ht2 := ht.2
  have hend : endMode (next .plain c) t = .plain := hn.closed
  rw [hnx] at hend ht2
  obtain ⟨b2, e2, i2, k2⟩ := line_run env t b1 [c] .plain _ hi ht2
  rw [hend] at i2
  obtain ⟨b3, e3, a3, g3⟩ := crlf_run env b2 _ i2
  refine ⟨b3, ?_, ?_, by rw [g3, k2.log, hl1]⟩
  · rw [List.cons_append, run_step _ e1, hb1, run_trans _ e2]; exact e3
  · rw [k2.m, k2.remaining, hm1, hrm1] at a3; exact a3

/-- A sequence of clean lines takes the parser from `m`, `r` to `m'`, `r'`. -/
def Chain (env : Env) : Option Msg → Nat → List (List Byte) → Option Msg → Nat → Prop
  | m, r, [], m', r' => m = m' ∧ r = r'
  | m, r, l :: t, m', r' => Clean l ∧ ∃ m1 r1, Fin env m r l m1 r1 ∧ Chain env (some m1) r1 t m' r'

theorem Chain.append {env : Env} {x y : List (List Byte)} {m : Option Msg} {r : Nat} {m' : Option Msg} {r' : Nat} {m'' : Option Msg} {r'' : Nat}
    (h : Chain env m r x m' r') (h' : Chain env m' r' y m'' r'') : Chain env m r (x ++ y) m'' r'' := by
  induction x generalizing m r with
  | nil => obtain ⟨rfl, rfl⟩ := h; exact h'
  | cons l t ih =>
    obtain ⟨hc, m1, r1, hf, ht⟩ := h
    exact ⟨hc, m1, r1, hf, ih ht⟩

theorem lines_run (env : Env) (ls : List (List Byte)) : ∀ (b : Bus) (l : List Byte) (m : Option Msg) (r : Nat) (m' : Msg) (r' : Nat),
    AtEol b l m r → Chain env m r (l :: ls) (some m') r' →
    ∃ b' l' m0 r0, run env b (ls.map (· ++ crlf)).flatten = some (0, b') ∧ AtEol b' l' m0 r0 ∧ Fin env m0 r0 l' m' r' ∧ b'.log = b.log := by
  induction ls with
  | nil =>
    intro b l m r m' r' hb hc
    obtain ⟨_, m1, r1, hf, h1, h2⟩ := hc
    cases h1; subst h2
    exact ⟨b, l, m, r, rfl, hb, hf, rfl⟩
  | cons n t ih =>
    intro b l m r m' r' hb hc
    obtain ⟨_, m1, r1, hf, hn⟩ := hc
    obtain ⟨b1, e1, a1, g1⟩ := next_line env b l n m r m1 r1 hb hf hn.1
    obtain ⟨b2, l', m0, r0, e2, a2, f2, g2⟩ := ih b1 n (some m1) r1 m' r' a1 hn
    exact ⟨b2, l', m0, r0, by rw [List.map_cons, List.flatten_cons, run_trans _ e1]; exact e2, a2, f2, by rw [g2, g1]⟩

/-- Sealing `m` gives `x`, whatever the counter of cookies. -/
def Seals (mv : Moves) (m x : Msg) : Prop := ∀ ck, ∃ ck', sealMsg mv ck m = some (0, ck', x)

theorem submit_ok (env : Env) (ha : Accepts env) (b : Bus) (m x : Msg) (hm : b.dec.m = some m) (hx : Seals env.mv m x) :
    ∃ b', submit env b = some (0, b') ∧ b'.dec = b.dec.setM none ∧ b'.log = b.log ++ [{ x with isUsed := true }] := by
  obtain ⟨ck, h⟩ := hx b.cookies
  unfold submit
  rw [hm]
  simp only [Option.bind_eq_bind]
  rw [h]
  simp only [Option.bind_some]
  rw [if_neg (Int.lt_irrefl 0)]
  unfold incoming
  simp only
  rw [if_neg (Int.not_lt.mpr (ha _ _))]
  exact ⟨_, rfl, rfl, rfl⟩

/-- The end of a message without body. -/
theorem end_nobody (env : Env) (ha : Accepts env) (b : Bus) (l : List Byte) (m : Option Msg) (r : Nat) (m' x : Msg) (hb : AtEol b l m r)
    (hf : Fin env m r l m' 0) (hx : Seals env.mv m' x) :
    ∃ b', run env b crlf = some (0, b') ∧ Idle b' ∧ b'.log = b.log ++ [{ x with isUsed := true }] := by
  have hco : copyOut ((b.ext [13]).dec.goto .headerNl) ((b.ext [13]).dec.goto .headerNl).buflen = some (l ++ crlf) := by
    unfold copyOut
    rw [show ((b.ext [13]).dec.goto .headerNl).buflen = b.dec.buflen from rfl,
      show ((b.ext [13]).dec.goto .headerNl).ring = b.dec.ring ++ [13] from rfl, hb.buflen, hb.ring,
      if_pos (by simp), List.take_left' rfl]
  have hfin := hf ((b.ext [13]).dec.goto .headerNl) hb.m hb.remaining hco
  generalize hd : ({ (b.ext [13]).dec.goto .headerNl with m := some m', remaining := 0 } : Parser) = d at hfin
  have hring : (pull d (d.buflen + 1) 0).ring = [] := by
    rw [← hd]
    show List.drop (b.dec.buflen + 1) (b.dec.ring ++ [13]) = []
    rw [List.drop_eq_nil_iff, hb.buflen, hb.ring, List.length_append]; simp
  obtain ⟨b1, s1, d1, g1⟩ := submit_ok env ha ((b.ext [13]).put ((pull d (d.buflen + 1) 0).goto .headerNl)) m' x
    (by rw [← hd]; rfl) hx
  have e1 : feedChar env (b.ext [13]) 13 = some (0, b1) := by
    unfold feedChar
    rw [show (b.ext [13]).dec.state = b.dec.state from rfl, hb.state]
    simp only
    rw [fh_end env (b.ext [13]) hb.last]
    unfold headerEnd
    rw [hfin]
    simp only [Option.bind_eq_bind, Option.bind_some]
    rw [if_neg (Int.lt_irrefl 0), if_pos (by rw [← hd]; rfl)]
    exact s1
  unfold crlf
  rw [run_step _ e1]
  have hst : (b1.last 13).dec.state = .headerNl := by show b1.dec.state = _; rw [d1]; rfl
  have hrem : (b1.last 13).dec.remaining = 0 := by show b1.dec.remaining = _; rw [d1, ← hd]; rfl
  have hr1 : (b1.last 13).dec.ring = [] := by show b1.dec.ring = _; rw [d1]; exact hring
  have hl1 : (b1.last 13).dec.buflen = 0 := by show b1.dec.buflen = _; rw [d1]; rfl
  have hm1 : (b1.last 13).dec.m = none := by show b1.dec.m = _; rw [d1]; rfl
  generalize hb2 : b1.last 13 = b2 at *
  have e2 : feedChar env (b2.ext [10]) 10 = some (0, (b2.ext [10]).put ((pull (b2.ext [10]).dec ((b2.ext [10]).dec.buflen + 1) 0).goto .new)) := by
    unfold feedChar
    rw [show (b2.ext [10]).dec.state = b2.dec.state from rfl, hst]
    simp only
    unfold feedNl
    rw [if_pos rfl, if_pos (show (b2.ext [10]).dec.remaining = 0 from hrem)]
  rw [run_step _ e2]
  refine ⟨_, rfl, ⟨rfl, hm1, ?_, rfl⟩, ?_⟩
  · show 0 = (List.drop (b2.dec.buflen + 1) (b2.dec.ring ++ [10])).length
    rw [hl1, hr1]; rfl
  · show b2.log = _
    rw [← hb2]
    show b1.log = _
    rw [g1]; rfl

/-- In the body. -/
structure InBody (b : Bus) (m : Msg) (done : List Byte) (rem : Nat) : Prop where
  state : b.dec.state = .body
  m : b.dec.m = some m
  ring : b.dec.ring = done
  buflen : b.dec.buflen = done.length
  remaining : b.dec.remaining = rem

/-- The end of the head of a message with body. -/
theorem end_head (env : Env) (b : Bus) (l : List Byte) (m : Option Msg) (r : Nat) (m' : Msg) (r' : Nat) (hb : AtEol b l m r)
    (hf : Fin env m r l m' r') (hr' : r' ≠ 0) :
    ∃ b', run env b crlf = some (0, b') ∧ InBody b' m' [] r' ∧ b'.log = b.log := by
  have hco : copyOut ((b.ext [13]).dec.goto .headerNl) ((b.ext [13]).dec.goto .headerNl).buflen = some (l ++ crlf) := by
    unfold copyOut
    rw [show ((b.ext [13]).dec.goto .headerNl).buflen = b.dec.buflen from rfl,
      show ((b.ext [13]).dec.goto .headerNl).ring = b.dec.ring ++ [13] from rfl, hb.buflen, hb.ring,
      if_pos (by simp), List.take_left' rfl]
  have hfin := hf ((b.ext [13]).dec.goto .headerNl) hb.m hb.remaining hco
  generalize hd : ({ (b.ext [13]).dec.goto .headerNl with m := some m', remaining := r' } : Parser) = d at hfin
  have hring : (pull d (d.buflen + 1) 0).ring = [] := by
    rw [← hd]
    show List.drop (b.dec.buflen + 1) (b.dec.ring ++ [13]) = []
    rw [List.drop_eq_nil_iff, hb.buflen, hb.ring, List.length_append]; simp
  have e1 : feedChar env (b.ext [13]) 13 = some (0, (b.ext [13]).put ((pull d (d.buflen + 1) 0).goto .headerNl)) := by
    unfold feedChar
    rw [show (b.ext [13]).dec.state = b.dec.state from rfl, hb.state]
    simp only
    rw [fh_end env (b.ext [13]) hb.last]
    unfold headerEnd
    rw [hfin]
    simp only [Option.bind_eq_bind, Option.bind_some]
    rw [if_neg (Int.lt_irrefl 0), if_neg (by rw [← hd]; exact hr')]
  unfold crlf
  rw [run_step _ e1]
  generalize hb2 : ((b.ext [13]).put ((pull d (d.buflen + 1) 0).goto .headerNl)).last 13 = b2
  have hst : b2.dec.state = .headerNl := by rw [← hb2]; rfl
  have hrem : b2.dec.remaining = r' := by rw [← hb2, ← hd]; rfl
  have hr1 : b2.dec.ring = [] := by rw [← hb2]; exact hring
  have hl1 : b2.dec.buflen = 0 := by rw [← hb2]; rfl
  have hm1 : b2.dec.m = some m' := by rw [← hb2, ← hd]; rfl
  have e2 : feedChar env (b2.ext [10]) 10 = some (0, (b2.ext [10]).put ((pull (b2.ext [10]).dec ((b2.ext [10]).dec.buflen + 1) 0).goto .body)) := by
    unfold feedChar
    rw [show (b2.ext [10]).dec.state = b2.dec.state from rfl, hst]
    simp only
    unfold feedNl
    rw [if_pos rfl, if_neg (show ¬ (b2.ext [10]).dec.remaining = 0 from by show ¬ b2.dec.remaining = 0; rw [hrem]; exact hr')]
  rw [run_step _ e2]
  refine ⟨_, rfl, ⟨rfl, hm1, ?_, rfl, hrem⟩, ?_⟩
  · show List.drop (b2.dec.buflen + 1) (b2.dec.ring ++ [10]) = []
    rw [hl1, hr1]; rfl
  · show b2.log = _
    rw [← hb2]; rfl

theorem body_run (env : Env) (ha : Accepts env) (m m' x : Msg) (hx : Seals env.mv m' x) (rest : List Byte) : rest ≠ [] →
    ∀ (b : Bus) (done : List Byte), InBody b m done rest.length → appendBody env.mv m (done ++ rest) = some (0, m') →
    ∃ b', run env b rest = some (0, b') ∧ Idle b' ∧ b'.log = b.log ++ [{ x with isUsed := true }] := by
  induction rest with
  | nil => intro h; exact absurd rfl h
  | cons c t ih =>
    intro _ b done hb hap
    have hfeed : feedChar env (b.ext [c]) c = feedBody env (b.ext [c]) c := by
      unfold feedChar
      rw [show (b.ext [c]).dec.state = b.dec.state from rfl, hb.state]
    generalize hd : ({ (b.ext [c]).dec.inc with remaining := (b.ext [c]).dec.remaining - 1 } : Parser) = d
    have hr : d.ring = done ++ [c] := by rw [← hd]; show b.dec.ring ++ [c] = _; rw [hb.ring]
    have hl : d.buflen = done.length + 1 := by rw [← hd]; show b.dec.buflen + 1 = _; rw [hb.buflen]
    have hrem : d.remaining = t.length := by rw [← hd]; show b.dec.remaining - 1 = _; rw [hb.remaining]; simp
    have hdm : d.m = some m := by rw [← hd]; exact hb.m
    have hds : d.state = .body := by rw [← hd]; exact hb.state
    have hne : ¬ (b.ext [c]).dec.remaining = 0 := by show ¬ b.dec.remaining = 0; rw [hb.remaining]; simp
    by_cases ht : t = []
    · subst ht
      have hco : copyOut d d.buflen = some (done ++ [c]) := by
        unfold copyOut
        rw [hl, hr, if_pos (by simp), List.take_of_length_le (by simp)]
      obtain ⟨b1, s1, d1, g1⟩ := submit_ok env ha (((b.ext [c]).put d).put (((b.ext [c]).put d).dec.setM (some m'))) m' x rfl hx
      have e1 : feedChar env (b.ext [c]) c = some (reset (0, b1)) := by
        rw [hfeed]
        unfold feedBody
        rw [if_neg hne]
        simp only
        rw [hd, if_neg (show ¬ (b.ext [c]).dec.remaining - 1 ≠ 0 from by show ¬ b.dec.remaining - 1 ≠ 0; rw [hb.remaining]; simp)]
        unfold bodyDone
        rw [show ((b.ext [c]).put d).dec.m = some m from hdm]
        simp only [Option.bind_eq_bind]
        rw [show ((b.ext [c]).put d).dec = d from rfl, hco]
        simp only [Option.bind_some]
        rw [hap]
        simp only [Option.bind_some]
        rw [if_pos (Int.le_refl 0)]
        rw [show (((b.ext [c]).put d).put (((b.ext [c]).put d).dec.setM (some m'))) = ((b.ext [c]).put d).put (d.setM (some m')) from rfl] at s1
        rw [s1]
        rfl
      have hb1r : b1.dec.ring = done ++ [c] := by rw [d1]; exact hr
      have hb1l : b1.dec.buflen = done.length + 1 := by rw [d1]; exact hl
      have e1' : feedChar env (b.ext [c]) c = some (0, (reset (0, b1)).2) := e1
      rw [run_step _ e1']
      refine ⟨_, rfl, ⟨rfl, ?_, ?_, rfl⟩, ?_⟩
      · show b1.dec.m = none; rw [d1]; rfl
      · show 0 = (List.drop b1.dec.buflen b1.dec.ring).length
        rw [hb1r, hb1l]; simp
      · show b1.log = _; rw [g1]; rfl
    · have hrn : d.remaining ≠ 0 := by rw [hrem]; exact fun h => ht (List.length_eq_zero_iff.mp h)
      have e1 : feedChar env (b.ext [c]) c = some (0, (b.ext [c]).put d) := by
        rw [hfeed]
        unfold feedBody
        rw [if_neg hne]
        simp only
        rw [hd, if_pos (show (b.ext [c]).dec.remaining - 1 ≠ 0 from by show b.dec.remaining - 1 ≠ 0; rw [hb.remaining]; simpa using ht)]
      rw [run_step _ e1]
      obtain ⟨b', e2, i2, g2⟩ := ih ht (((b.ext [c]).put d).last c) (done ++ [c])
        ⟨hds, hdm, hr, by show d.buflen = _; rw [hl]; simp, hrem⟩ (by rw [show done ++ [c] ++ t = done ++ c :: t from by simp]; exact hap)
      exact ⟨b', e2, i2, g2⟩

/-- A message with a head line, header lines and a body, as bytes. -/
def wire (head : List Byte) (ls : List (List Byte)) (body : List Byte) : List Byte :=
  head ++ crlf ++ (ls.map (· ++ crlf)).flatten ++ crlf ++ body

theorem message_frame (env : Env) (ha : Accepts env) (head : List Byte) (ls : List (List Byte)) (body : List Byte) (m m' x : Msg)
    (hh : HeadStart head) (hc : Chain env none 0 (head :: ls) (some m) body.length)
    (hbody : appendBody env.mv m body = some (0, m')) (hx : Seals env.mv m' x) :
    Frame env (wire head ls body) (fun y => y = { x with isUsed := true }) := by
  intro b hb
  obtain ⟨b1, e1, a1, g1⟩ := first_line env b hb head hc.1 hh
  obtain ⟨b2, l', m0, r0, e2, a2, f2, g2⟩ := lines_run env ls b1 head none 0 m _ a1 hc
  unfold wire
  by_cases hbd : body = []
  · subst hbd
    have hmm : m' = m := by
      unfold appendBody at hbody
      rw [if_pos rfl] at hbody
      cases hbody; rfl
    subst hmm
    obtain ⟨b3, e3, i3, g3⟩ := end_nobody env ha b2 l' m0 r0 m' x a2 f2 hx
    refine ⟨b3, _, ?_, i3, ?_, rfl⟩
    · rw [List.append_nil, List.append_assoc, List.append_assoc, ← List.append_assoc head, run_trans _ e1, run_trans _ e2]; exact e3
    · rw [g3, g2, g1]
  · obtain ⟨b3, e3, i3, g3⟩ := end_head env b2 l' m0 r0 m body.length a2 f2 (fun h => hbd (List.length_eq_zero_iff.mp h))
    obtain ⟨b4, e4, i4, g4⟩ := body_run env ha m m' x hx body hbd b3 [] i3 hbody
    refine ⟨b4, _, ?_, i4, ?_, rfl⟩
    · rw [List.append_assoc, List.append_assoc, run_trans _ e1, run_trans _ e2, run_trans _ e3]; exact e4
    · rw [g4, g3, g2, g1]

end Verif.Rtsp
