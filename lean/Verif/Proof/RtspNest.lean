import Verif.Spec.RtspBuild
import Verif.Proof.RtspSame
import Verif.Proof.RtspDef
/-! Building a message call by call: helper lemmas. -/
namespace Verif.Rtsp
open Verif.C
open Spec (Doc Field Draft Holds shows Build)

/-- What is kept while a message is built. -/
structure Building (mv : Moves) (d : Doc) (m : Msg) : Prop where
  type : m.type ≠ .data
  holds : Holds d m
  live : Live m ∨ Moved mv m

theorem Live.of {m n : Msg} (h : Live m) (h1 : n.headers.length = m.headers.length) (h2 : n.hcap = m.hcap) (h3 : n.gen = m.gen)
    (h4 : n.clen = m.clen) (h5 : n.ctype = m.ctype) (h6 : n.cseq = m.cseq) : Live n := by
  obtain ⟨a, b, c, d, e⟩ := h
  refine ⟨by rw [h1, h2]; exact a, by rw [h2]; exact b, ?_, ?_, ?_⟩
  · intro p hp; rw [h3, h1]; exact c p (h4 ▸ hp)
  · intro p hp; rw [h3, h1]; exact d p (h5 ▸ hp)
  · intro p hp; rw [h3, h1]; exact e p (h6 ▸ hp)

/-- The array of headers keeps its length and its place. -/
structure Kept (m n : Msg) : Prop where
  type : n.type = m.type
  len : n.headers.length = m.headers.length
  hcap : n.hcap = m.hcap
  gen : n.gen = m.gen
  clen : n.clen = m.clen
  ctype : n.ctype = m.ctype
  cseq : n.cseq = m.cseq

theorem Kept.live {mv : Moves} {m n : Msg} (h : Kept m n) (hl : Live m ∨ Moved mv m) : Live n ∨ Moved mv n := by
  rcases hl with hl | hl
  · exact Or.inl (hl.of h.len h.hcap h.gen h.clen h.ctype h.cseq)
  · exact Or.inr ⟨by rw [h.len]; exact hl.1, hl.2⟩

theorem push_live (mv : Moves) (m : Msg) (h : Header) (hl : Live m ∨ Moved mv m) :
    Live (pushHeader mv m h) ∨ Moved mv (pushHeader mv m h) := by
  by_cases hb : m.iterBody = true
  · have : pushHeader mv m h = { m with bodyHeaders := m.bodyHeaders ++ [h] } := by unfold pushHeader; rw [if_pos hb]
    rw [this]
    exact Kept.live (m := m) ⟨rfl, rfl, rfl, rfl, rfl, rfl, rfl⟩ hl
  · have hb : m.iterBody = false := by simpa using hb
    rcases hl with hl | hl
    · exact hl.push mv h hb
    · exact Or.inr (hl.push mv h hb)

theorem push_in (mv : Moves) (m : Msg) (h : Header) (hb : m.iterBody = true) :
    pushHeader mv m h = { m with bodyHeaders := m.bodyHeaders ++ [h] } := by unfold pushHeader; rw [if_pos hb]

theorem push_type (mv : Moves) (m : Msg) (h : Header) : (pushHeader mv m h).type = m.type := by
  have := push_fixed mv m h
  exact congrArg (fun x => x.1) this

/-- A finished header is added. -/
theorem push_done (mv : Moves) (d : Doc) (m : Msg) (h : Header) (hd : Building mv d m) (h0 : d.draft = none) (hl : h.line ≠ none) :
    Building mv (d.add (shows h)) (pushHeader mv m h) := by
  obtain ⟨ht, ⟨h1, h2, h3, h4, hs, bs, e1, e2, e3, e4⟩, hlive⟩ := hd
  rw [h0] at e4
  obtain ⟨e4, e5, e6⟩ := e4
  refine ⟨by rw [push_type]; exact ht, ?_, push_live mv m h hlive⟩
  cases hb : d.inBody with
  | true =>
    rw [hb] at h4
    rw [push_in mv m h h4]
    have ea : d.add (shows h) = { d with body := d.body ++ [shows h] } := by unfold Doc.add; rw [hb]; rfl
    rw [ea]
    refine ⟨h1, h2, h3, by rw [h4, ← hb], hs, bs ++ [h], e1, by rw [List.map_append, e2]; rfl, ?_, ?_⟩
    · intro x hx
      rw [← List.append_assoc] at hx
      rcases List.mem_append.mp hx with hx | hx
      · exact e3 x hx
      · rw [List.mem_singleton.mp hx]; exact hl
    · show (match d.draft with | none => _ | some f => _)
      rw [h0]
      exact ⟨e4, e5, by show m.bodyHeaders ++ [h] = _; rw [e6]⟩
  | false =>
    rw [hb] at h4
    have ea : d.add (shows h) = { d with heads := d.heads ++ [shows h] } := by unfold Doc.add; rw [hb]; rfl
    rw [ea]
    obtain ⟨p1, p2, p3, p4, p5, p6, p7, p8, _⟩ := push_same mv m h h4
    refine ⟨by rw [p5]; exact h1, by rw [p8]; exact h2, by rw [p6]; exact h3, by rw [p3, h4, ← hb], hs ++ [h], bs, by rw [List.map_append, e1]; rfl, e2, ?_, ?_⟩
    · intro x hx
      rcases List.mem_append.mp hx with hx | hx
      · rcases List.mem_append.mp hx with hx | hx
        · exact e3 x (List.mem_append_left _ hx)
        · rw [List.mem_singleton.mp hx]; exact hl
      · exact e3 x (List.mem_append_right _ hx)
    · show (match d.draft with | none => _ | some f => _)
      rw [h0]
      exact ⟨by rw [p4]; exact e4, by rw [push_headers mv m h h4, e5], by rw [p7]; exact e6⟩

/-- A header is opened. -/
theorem push_open (mv : Moves) (d : Doc) (m : Msg) (f : Draft) (hd : Building mv d m) (h0 : d.draft = none) :
    Building mv { d with draft := some f }
      { pushHeader mv m f.shown with iterHeader := some (m.iterBody, if m.iterBody then m.bodyHeaders.length else m.headers.length) } := by
  obtain ⟨ht, ⟨h1, h2, h3, h4, hs, bs, e1, e2, e3, e4⟩, hlive⟩ := hd
  rw [h0] at e4
  obtain ⟨e4, e5, e6⟩ := e4
  refine ⟨by show (pushHeader mv m f.shown).type ≠ _; rw [push_type]; exact ht, ?_, ?_⟩
  · cases hb : d.inBody with
    | true =>
      rw [hb] at h4
      rw [push_in mv m _ h4]
      refine ⟨h1, h2, h3, h4, hs, bs, e1, e2, e3, ?_⟩
      simp only [h4, hb, if_true]
      exact ⟨by rw [e6], e5, by rw [e6]⟩
    | false =>
      rw [hb] at h4
      obtain ⟨p1, p2, p3, p4, p5, p6, p7, p8, _⟩ := push_same mv m f.shown h4
      refine ⟨by show (pushHeader mv m f.shown).isSealed = _; rw [p5]; exact h1, by show (pushHeader mv m f.shown).raw = _; rw [p8]; exact h2,
        by show (pushHeader mv m f.shown).body = _; rw [p6]; exact h3, by show (pushHeader mv m f.shown).iterBody = _; rw [p3, h4], hs, bs, e1, e2, e3, ?_⟩
      simp only [h4, hb, Bool.false_eq_true, if_false]
      exact ⟨by rw [e5], by rw [push_headers mv m _ h4, e5], by rw [p7, e6]⟩
  · exact Kept.live (m := pushHeader mv m f.shown) ⟨rfl, rfl, rfl, rfl, rfl, rfl, rfl⟩ (push_live mv m _ hlive)

theorem getIter_draft {d : Doc} {m : Msg} {f : Draft} (hd : Holds d m) (h0 : d.draft = some f) : getIter m = some f.shown := by
  obtain ⟨h1, h2, h3, h4, hs, bs, e1, e2, e3, e4⟩ := hd
  rw [h0] at e4
  simp only at e4
  split at e4
  · obtain ⟨a, b, c⟩ := e4
    unfold getIter
    rw [a, c]
    simp
  · obtain ⟨a, b, c⟩ := e4
    unfold getIter
    rw [a, b]
    simp

theorem iter_some {d : Doc} {m : Msg} {f : Draft} (hd : Holds d m) (h0 : d.draft = some f) : m.iterHeader ≠ none := by
  obtain ⟨h1, h2, h3, h4, hs, bs, e1, e2, e3, e4⟩ := hd
  rw [h0] at e4
  simp only at e4
  split at e4
  all_goals rw [e4.1]; simp

theorem iter_none {d : Doc} {m : Msg} (hd : Holds d m) (h0 : d.draft = none) : m.iterHeader = none := by
  obtain ⟨h1, h2, h3, h4, hs, bs, e1, e2, e3, e4⟩ := hd
  rw [h0] at e4
  exact e4.1

/-- The open header is replaced. -/
theorem set_draft (mv : Moves) (d : Doc) (m : Msg) (f g : Draft) (hd : Building mv d m) (h0 : d.draft = some f) :
    Building mv { d with draft := some g } (setIter m g.shown) := by
  obtain ⟨ht, ⟨h1, h2, h3, h4, hs, bs, e1, e2, e3, e4⟩, hlive⟩ := hd
  rw [h0] at e4
  simp only at e4
  split at e4
  · rename_i hb
    obtain ⟨a, b, c⟩ := e4
    have es : setIter m g.shown = { m with bodyHeaders := bs ++ [g.shown] } := by
      unfold setIter; rw [a, c]; simp
    rw [es]
    refine ⟨ht, ⟨h1, h2, h3, h4, hs, bs, e1, e2, e3, ?_⟩, Kept.live (m := m) ⟨rfl, rfl, rfl, rfl, rfl, rfl, rfl⟩ hlive⟩
    simp only [hb, if_true]
    exact ⟨a, b, trivial⟩
  · rename_i hb
    obtain ⟨a, b, c⟩ := e4
    have es : setIter m g.shown = { m with headers := hs ++ [g.shown] } := by
      unfold setIter; rw [a, b]; simp
    rw [es]
    refine ⟨ht, ⟨h1, h2, h3, h4, hs, bs, e1, e2, e3, ?_⟩, Kept.live (m := m) ⟨rfl, by rw [b]; simp, rfl, rfl, rfl, rfl, rfl⟩ hlive⟩
    simp only [hb]
    exact ⟨a, trivial, c⟩

/-- The open header is closed. -/
theorem close_draft (mv : Moves) (d : Doc) (m : Msg) (f : Draft) (hd : Building mv d m) (h0 : d.draft = some f) :
    Building mv (Doc.add { d with draft := none } f.finish) { setIter m (serializeHeader f.shown) with iterHeader := none } := by
  obtain ⟨ht, ⟨h1, h2, h3, h4, hs, bs, e1, e2, e3, e4⟩, hlive⟩ := hd
  have hsh : shows (serializeHeader f.shown) = f.finish := by
    unfold serializeHeader Draft.shown
    cases hr : f.raw <;> simp [shows, Draft.finish, hr]
  have hli : (serializeHeader f.shown).line ≠ none := by
    unfold serializeHeader Draft.shown
    simp
  have hall : ∀ x ∈ hs ++ bs ++ [serializeHeader f.shown], x.line ≠ none := by
    intro x hx
    rcases List.mem_append.mp hx with hx | hx
    · exact e3 x hx
    · rw [List.mem_singleton.mp hx]; exact hli
  rw [h0] at e4
  simp only at e4
  split at e4
  · rename_i hb
    obtain ⟨a, b, c⟩ := e4
    have es : setIter m (serializeHeader f.shown) = { m with bodyHeaders := bs ++ [serializeHeader f.shown] } := by
      unfold setIter; rw [a, c]; simp
    rw [es]
    have ea : Doc.add { d with draft := none } f.finish = { d with draft := none, body := d.body ++ [f.finish] } := by
      unfold Doc.add; rw [if_pos hb]
    rw [ea]
    refine ⟨ht, ⟨h1, h2, h3, h4, hs, bs ++ [serializeHeader f.shown], e1, by rw [List.map_append, e2, ← hsh]; rfl, by rw [← List.append_assoc]; exact hall, ?_⟩,
      Kept.live (m := m) ⟨rfl, rfl, rfl, rfl, rfl, rfl, rfl⟩ hlive⟩
    exact ⟨rfl, b, rfl⟩
  · rename_i hb
    obtain ⟨a, b, c⟩ := e4
    have es : setIter m (serializeHeader f.shown) = { m with headers := hs ++ [serializeHeader f.shown] } := by
      unfold setIter; rw [a, b]; simp
    rw [es]
    have ea : Doc.add { d with draft := none } f.finish = { d with draft := none, heads := d.heads ++ [f.finish] } := by
      unfold Doc.add; rw [if_neg hb]
    rw [ea]
    refine ⟨ht, ⟨h1, h2, h3, h4, hs ++ [serializeHeader f.shown], bs, by rw [List.map_append, e1, ← hsh]; rfl, e2, ?_, ?_⟩,
      Kept.live (m := m) ⟨rfl, by rw [b]; simp, rfl, rfl, rfl, rfl, rfl⟩ hlive⟩
    · intro x hx
      apply hall
      simp only [List.mem_append, List.mem_singleton] at hx ⊢
      rcases hx with (hx | hx) | hx
      · exact Or.inl (Or.inl hx)
      · exact Or.inr hx
      · exact Or.inl (Or.inr hx)
    · exact ⟨rfl, rfl, c⟩

/-! ### Header lines -/

theorem words_blanks (v : List Byte) : Qstr.Spec.words none [] (v.dropWhile (· = ch ' ')) = Qstr.Spec.words none [] v := by
  induction v with
  | nil => rfl
  | cons c t ih =>
    by_cases h : c = ch ' '
    · rw [List.dropWhile_cons_of_pos (by simp [h]), ih]
      rw [h]
      rw [Qstr.Spec.words.eq_def none [] (ch ' ' :: t)]
      simp only
      rw [if_neg (by decide), if_neg (by decide), if_neg (by decide), if_pos ⟨trivial, trivial⟩, if_pos trivial]
    · rw [List.dropWhile_cons_of_neg (by simp [h])]

theorem drop_takeWhile {α : Type} (p : α → Bool) (v : List α) : v.drop (v.takeWhile p).length = v.dropWhile p := by
  induction v with
  | nil => rfl
  | cons c t ih =>
    by_cases h : p c = true
    · rw [List.takeWhile_cons_of_pos h, List.dropWhile_cons_of_pos h]; exact ih
    · rw [List.takeWhile_cons_of_neg h, List.dropWhile_cons_of_neg h]; rfl

theorem dropWhile_nil {α : Type} (p : α → Bool) (v : List α) : v.dropWhile p = [] ↔ ∀ x ∈ v, p x = true := by
  induction v with
  | nil => simp
  | cons c t ih =>
    by_cases h : p c = true
    · rw [List.dropWhile_cons_of_pos h, ih]; simp [h]
    · rw [List.dropWhile_cons_of_neg h]; simp [h]

theorem rtrim_zero (v : List Byte) (h : rtrimLen v = 0) : v.dropWhile (· = ch ' ') = [] := by
  unfold rtrimLen at h
  have h := List.length_eq_zero_iff.mp h
  rw [dropWhile_nil] at h ⊢
  intro x hx
  exact h x (List.mem_reverse.mpr hx)

theorem rtrim_take (v : List Byte) : v.take (rtrimLen v) = (v.reverse.dropWhile (· = ch ' ')).reverse := by
  unfold rtrimLen
  have h := List.takeWhile_append_dropWhile (p := fun c => decide (c = ch ' ')) (l := v.reverse)
  have h2 : v = (v.reverse.dropWhile (· = ch ' ')).reverse ++ (v.reverse.takeWhile (· = ch ' ')).reverse := by
    rw [← List.reverse_append, h, List.reverse_reverse]
  conv => lhs; arg 2; rw [h2]
  rw [List.take_append_of_le_length (by simp), List.take_of_length_le (by simp)]

/-- If something is left after trimming, it is more than the leading blanks. -/
theorem rtrim_lead (v : List Byte) (h : rtrimLen v ≠ 0) : (v.takeWhile (· = ch ' ')).length < rtrimLen v ∧ v.dropWhile (· = ch ' ') ≠ [] := by
  have hne : v.dropWhile (· = ch ' ') ≠ [] := by
    intro e
    apply h
    unfold rtrimLen
    rw [List.length_eq_zero_iff]
    rw [dropWhile_nil] at e ⊢
    intro x hx
    exact e x (List.mem_reverse.mp hx)
  refine ⟨?_, hne⟩
  unfold rtrimLen
  have e := List.takeWhile_append_dropWhile (p := fun c => decide (c = ch ' ')) (l := v)
  have e2 : v.reverse = (v.dropWhile (· = ch ' ')).reverse ++ (v.takeWhile (· = ch ' ')).reverse := by rw [← List.reverse_append, e]
  rw [e2]
  have hd : ((v.dropWhile (· = ch ' ')).reverse).dropWhile (· = ch ' ') ≠ [] := by
    intro x
    rw [dropWhile_nil] at x
    have hh := List.head_dropWhile_not (fun c => decide (c = ch ' ')) hne
    have := x _ (List.mem_reverse.mpr (List.head_mem hne))
    rw [hh] at this
    cases this
  rw [List.dropWhile_append, if_neg (by simpa using hd)]
  have : 0 < (((v.dropWhile (· = ch ' ')).reverse).dropWhile (· = ch ' ')).length := List.length_pos_iff.mpr hd
  simp only [List.length_append, List.length_reverse]
  omega

/-- A whole header line is taken as specified and cannot fail. -/
theorem headerLine_ex (mv : Moves) (m : Msg) (s : List Byte) (ht : m.type ≠ .data) :
    ∃ h : Header, h.line ≠ none ∧ shows h = Spec.lineField s ∧ appendHeaderLine mv m s = (0, pushHeader mv m h) := by
  unfold appendHeaderLine
  simp only
  generalize hv : (s.dropWhile (· ≠ ch ':')).drop 1 = v
  have hk := rtrim_take (s.takeWhile (· ≠ ch ':'))
  unfold appendHeader
  rw [if_neg ht]
  by_cases h0 : rtrimLen v = 0
  · simp only [h0, if_true, Nat.sub_zero, List.drop_zero]
    have em : mkHeader ((s.takeWhile (· ≠ ch ':')).take (rtrimLen (s.takeWhile (· ≠ ch ':')))) v 0 =
      (0, ⟨(s.takeWhile (· ≠ ch ':')).take (rtrimLen (s.takeWhile (· ≠ ch ':'))), none, [], none⟩) := rfl
    rw [em]
    refine ⟨_, ?_, ?_, if_neg (Int.lt_irrefl 0)⟩
    · simp
    · unfold shows Spec.lineField
      simp only [hk, hv, Option.getD_some]
      congr 1
      unfold Qstr.Spec.tokens
      rw [← words_blanks, rtrim_zero v h0]
      rfl
  · obtain ⟨h1, h2⟩ := rtrim_lead v h0
    simp only [h0, if_false]
    rw [drop_takeWhile]
    have em : ∀ k, mkHeader k (v.dropWhile (· = ch ' ')) (rtrimLen v - (v.takeWhile (· = ch ' ')).length) =
      (0, ⟨k, some ((v.dropWhile (· = ch ' ')).take (rtrimLen v - (v.takeWhile (· = ch ' ')).length)), Qstr.Spec.tokens (v.dropWhile (· = ch ' ')), none⟩) := by
      intro k
      unfold mkHeader setValue
      have hn : rtrimLen v - (v.takeWhile (· = ch ' ')).length ≠ 0 := by omega
      rw [if_pos hn, if_neg (by simp only [not_or]; exact ⟨hn, h2⟩), if_neg (by simp)]
    rw [em]
    refine ⟨_, ?_, ?_, if_neg (Int.lt_irrefl 0)⟩
    · simp
    · unfold shows Spec.lineField
      simp only [hk, hv, Option.getD_some]
      congr 1
      unfold Qstr.Spec.tokens
      rw [words_blanks]

/-! ### Single calls -/

/-- A call behaved as specified: it wrote what it should, or was refused without any effect. -/
def Did (mv : Moves) (d : Doc) (m : Msg) (e : Option Doc) (r : Int × Msg) : Prop :=
  match e with
  | some d' => r.1 = 0 ∧ Building mv d' r.2
  | none => r = (-EINVAL, m)

theorem nest_line_step (mv : Moves) (d : Doc) (m : Msg) (s : List Byte) (hd : Building mv d m) :
    Did mv d m (if d.draft = none then some (d.add (Spec.lineField s)) else none) (appendLine mv m s) := by
  have hns : ¬ m.isSealed = true := by rw [hd.holds.1]; decide
  unfold appendLine
  rw [if_neg hd.type, if_neg hns]
  cases h0 : d.draft with
  | none =>
    have hi : ¬ m.iterHeader ≠ none := by rw [iter_none hd.holds h0]; simp
    rw [if_neg hi, if_pos rfl]
    obtain ⟨h, h1, h2, h3⟩ := headerLine_ex mv m s hd.type
    rw [h3]
    exact ⟨rfl, by rw [← h2]; exact push_done mv d m h hd h0 h1⟩
  | some f =>
    rw [if_pos (iter_some hd.holds h0), if_neg (fun e => Option.some_ne_none f e)]
    rfl

theorem open_step (mv : Moves) (d : Doc) (m : Msg) (n : List Byte) (hd : Building mv d m) :
    Did mv d m (Spec.start d n) (openHeader mv m n) := by
  unfold openHeader Spec.start
  by_cases hn : n = []
  · rw [if_pos (Or.inl hn), if_neg (by simp [hn])]; rfl
  · have hns : ¬ m.isSealed = true := by rw [hd.holds.1]; decide
    have hnt : ¬ (n = [] ∨ m.type = .data) := fun h => h.elim hn hd.type
    rw [if_neg hnt, if_neg hns]
    cases h0 : d.draft with
    | some f => rw [if_pos (iter_some hd.holds h0), if_neg (fun e => Option.some_ne_none f e.2)]; rfl
    | none =>
      have hi : ¬ m.iterHeader ≠ none := by rw [iter_none hd.holds h0]; simp
      rw [if_neg hi, if_pos ⟨hn, rfl⟩]
      have : appendHeader mv m n [] 0 none = (0, pushHeader mv m (Draft.shown ⟨n, [], none⟩)) := by
        unfold appendHeader
        rw [if_neg hd.type]
        have em : mkHeader n [] 0 = (0, ⟨n, none, [], none⟩) := rfl
        rw [em, if_neg (Int.lt_irrefl 0)]
        rfl
      rw [this]
      simp only
      rw [if_neg (by decide)]
      exact ⟨rfl, push_open mv d m ⟨n, [], none⟩ hd h0⟩

theorem close_step (mv : Moves) (d : Doc) (m : Msg) (hd : Building mv d m) :
    ∃ r, closeHeader m = some r ∧ Did mv d m (Spec.finishHeader d) r := by
  unfold closeHeader Spec.finishHeader
  rw [if_neg hd.type, if_neg (by rw [hd.holds.1]; decide)]
  cases h0 : d.draft with
  | none => rw [if_pos (iter_none hd.holds h0)]; exact ⟨_, rfl, rfl⟩
  | some f =>
    rw [if_neg (iter_some hd.holds h0), getIter_draft hd.holds h0]
    exact ⟨_, rfl, rfl, close_draft mv d m f hd h0⟩

theorem Building.body {mv : Moves} {d : Doc} {m : Msg} (b : Bool) (hd : Building mv d m) (h0 : d.draft = none) :
    Building mv { d with inBody := b, draft := none } { m with iterBody := b } := by
  obtain ⟨ht, ⟨h1, h2, h3, h4, hs, bs, e1, e2, e3, e4⟩, hlive⟩ := hd
  rw [h0] at e4
  refine ⟨ht, ⟨h1, h2, h3, rfl, hs, bs, e1, e2, e3, ?_⟩, Kept.live (m := m) ⟨rfl, rfl, rfl, rfl, rfl, rfl, rfl⟩ hlive⟩
  exact e4

theorem openBody_step (mv : Moves) (d : Doc) (m : Msg) (hd : Building mv d m) : Did mv d m (Spec.startBody d) (openBody m) := by
  have hns : ¬ m.isSealed = true := by rw [hd.holds.1]; decide
  unfold openBody Spec.startBody
  rw [if_neg hd.type, if_neg hns, hd.holds.2.2.2.1]
  cases h0 : d.draft with
  | some f => rw [if_pos (Or.inl (iter_some hd.holds h0)), if_neg (fun e => Option.some_ne_none f e.1)]; rfl
  | none =>
    cases hb : d.inBody with
    | true => rw [if_pos (Or.inr rfl), if_neg (fun e => Bool.noConfusion e.2)]; rfl
    | false =>
      have hi : ¬ (m.iterHeader ≠ none ∨ false = true) := by rw [iter_none hd.holds h0]; simp
      rw [if_neg hi, if_pos ⟨rfl, rfl⟩]
      exact ⟨rfl, hd.body true h0⟩

theorem closeBody_step (mv : Moves) (d : Doc) (m : Msg) (hd : Building mv d m) : Did mv d m (Spec.finishBody d) (closeBody m) := by
  have hns : ¬ m.isSealed = true := by rw [hd.holds.1]; decide
  unfold closeBody Spec.finishBody
  rw [if_neg hd.type, if_neg hns, hd.holds.2.2.2.1]
  cases hb : d.inBody with
  | false => rw [if_pos rfl, if_neg (fun e => Bool.noConfusion e.2)]; rfl
  | true =>
    rw [if_neg (c := true = false) (by decide)]
    cases h0 : d.draft with
    | some f => rw [if_pos (iter_some hd.holds h0), if_neg (fun e => Option.some_ne_none f e.1)]; rfl
    | none =>
      have hi : ¬ m.iterHeader ≠ none := by rw [iter_none hd.holds h0]; simp
      rw [if_neg hi, if_pos ⟨rfl, rfl⟩]
      exact ⟨rfl, hd.body false h0⟩

theorem setIter_same {d : Doc} {m : Msg} {f : Draft} (hd : Holds d m) (h0 : d.draft = some f) : setIter m f.shown = m := by
  have hg := getIter_draft hd h0
  unfold getIter at hg
  unfold setIter
  split
  · rfl
  · rename_i b i hi
    rw [hi] at hg
    simp only at hg
    split
    · rw [if_pos ‹_›] at hg
      have : m.bodyHeaders.set i f.shown = m.bodyHeaders := by
        rw [List.getElem?_eq_some_iff] at hg
        obtain ⟨hl, hg⟩ := hg
        rw [← hg]; exact List.set_getElem_self hl
      rw [this]
    · rw [if_neg ‹_›] at hg
      have : m.headers.set i f.shown = m.headers := by
        rw [List.getElem?_eq_some_iff] at hg
        obtain ⟨hl, hg⟩ := hg
        rw [← hg]; exact List.set_getElem_self hl
      rw [this]

theorem tok_step (mv : Moves) (d : Doc) (m : Msg) (t : List Byte) (hd : Building mv d m) :
    ∃ r, appendTok m t = some r ∧ Did mv d m (Spec.addToken d t) r := by
  unfold appendTok Spec.addToken
  cases h0 : d.draft with
  | none => rw [if_pos (iter_none hd.holds h0)]; exact ⟨_, rfl, rfl⟩
  | some f =>
    rw [if_neg (iter_some hd.holds h0), getIter_draft hd.holds h0]
    refine ⟨_, rfl, ?_⟩
    unfold appendToken
    simp only
    by_cases hr : f.raw = none
    · rw [if_pos hr, if_neg (by simp [Draft.shown, hr])]
      exact ⟨rfl, set_draft mv d m f { f with tokens := f.tokens ++ [t] } hd h0⟩
    · have hv : f.shown.line ≠ none ∨ f.shown.value ≠ none := Or.inr hr
      rw [if_neg hr, if_pos hv]
      show ((-EINVAL, setIter m f.shown) : Int × Msg) = _
      rw [setIter_same hd.holds h0]

theorem basic_step (mv : Moves) (d : Doc) (m : Msg) (a : Arg) (hd : Building mv d m) :
    ∃ r, appendBasic mv m a = some r ∧ Did mv d m (Spec.write d a) r := by
  unfold appendBasic
  rw [if_neg hd.type, if_neg (by rw [hd.holds.1]; decide)]
  cases a with
  | raw s =>
    simp only [Spec.write, Spec.addRaw]
    cases h0 : d.draft with
    | none =>
      rw [if_neg (by rw [iter_none hd.holds h0]; simp)]
      have := nest_line_step mv d m s hd
      rw [if_pos h0] at this
      exact ⟨_, rfl, this⟩
    | some f =>
      rw [if_pos (iter_some hd.holds h0), getIter_draft hd.holds h0]
      refine ⟨_, rfl, ?_⟩
      unfold setValue
      simp only
      by_cases hs : s = []
      · subst hs
        rw [if_neg (fun e => e.1 rfl)]
        have hv : ([] : List Byte).length = 0 ∨ ([] : List Byte) = [] := Or.inl rfl
        rw [if_pos hv]
        show ((-EINVAL, setIter m f.shown) : Int × Msg) = _
        rw [setIter_same hd.holds h0]
      · have hl : ¬ (s.length = 0 ∨ s = []) := by simp [hs]
        rw [if_neg hl]
        by_cases hf : f.raw = none ∧ f.tokens = []
        · rw [if_pos ⟨hs, hf⟩, if_neg (by simp [Draft.shown, hf.1, hf.2]), List.take_length]
          exact ⟨rfl, set_draft mv d m f { f with raw := some s, tokens := Qstr.Spec.tokens s } hd h0⟩
        · rw [if_neg (fun h => hf h.2), if_pos ⟨trivial, by
            simp only [Draft.shown]
            by_cases h1 : f.raw = none
            · exact Or.inr (Or.inl (fun h2 => hf ⟨h1, h2⟩))
            · exact Or.inl h1⟩]
          show ((-EINVAL, setIter m f.shown) : Int × Msg) = _
          rw [setIter_same hd.holds h0]
  | str s => exact tok_step mv d m s hd
  | i32 i => exact tok_step mv d m _ hd
  | u32 n => exact tok_step mv d m _ hd
  | headerStart n => exact ⟨_, rfl, open_step mv d m n hd⟩
  | headerEnd => exact close_step mv d m hd
  | bodyStart => exact ⟨_, rfl, openBody_step mv d m hd⟩
  | bodyEnd => exact ⟨_, rfl, closeBody_step mv d m hd⟩
  | other => exact ⟨_, rfl, rfl⟩

theorem nest_append_step (mv : Moves) (as : List Arg) : ∀ (d : Doc) (m : Msg), Building mv d m →
    ∃ r, append mv m as = some r ∧ r.1 = (if (Spec.writeAll d as).1 then 0 else -EINVAL) ∧ Building mv (Spec.writeAll d as).2 r.2 := by
  induction as with
  | nil =>
    intro d m hd
    unfold append
    rw [if_neg hd.type, if_neg (by rw [hd.holds.1]; decide)]
    exact ⟨_, rfl, rfl, hd⟩
  | cons a t ih =>
    intro d m hd
    obtain ⟨r, hr, hD⟩ := basic_step mv d m a hd
    unfold append Spec.writeAll
    rw [hr]
    simp only [Option.bind_eq_bind, Option.bind_some]
    cases hw : Spec.write d a with
    | none =>
      rw [hw] at hD
      have hD : r = (-EINVAL, m) := hD
      have hlt : ((-EINVAL, m) : Int × Msg).1 < 0 := by show -EINVAL < 0; decide
      rw [hD, if_pos hlt]
      exact ⟨_, rfl, rfl, hd⟩
    | some d' =>
      rw [hw] at hD
      obtain ⟨h0, hb⟩ : r.1 = 0 ∧ Building mv d' r.2 := hD
      rw [h0, if_neg (by decide)]
      simp only
      by_cases ht : t = []
      · subst ht
        rw [if_pos rfl]
        exact ⟨_, rfl, rfl, hb⟩
      · rw [if_neg ht]
        exact ih d' r.2 hb

/-! ### Sealing -/

/-- Too many headers, and an allocator that moves big arrays. -/
def Crowded (mv : Moves) (m : Msg) : Prop := 63 ≤ m.headers.length ∧ ∃ c, 64 ≤ c ∧ mv c = true

theorem Building.cookie {mv : Moves} {d : Doc} {m : Msg} (c : Nat) (hd : Building mv d m) : Building mv d { m with cookie := c } :=
  ⟨hd.type, hd.holds, Kept.live (m := m) ⟨rfl, rfl, rfl, rfl, rfl, rfl, rfl⟩ hd.live⟩

theorem special_zero (mv : Moves) (m : Msg) (p : Option Ptr) (name : List Byte) (a : Arg) (t text : List Byte) (hm : Open m) (hn : name ≠ [])
    (ha : argTok a = some t) (r : Int × Msg) (h : special mv m p name a text = some r) : r.1 = 0 ∧ Open r.2 := by
  cases p with
  | none =>
    rw [special_none mv m hm name hn a t ha text] at h
    cases h
    exact ⟨rfl, hm.push mv _⟩
  | some q =>
    unfold special at h
    simp only [Option.map_eq_some_iff] at h
    obtain ⟨x, hx, h⟩ := h
    cases h
    unfold rewrite at hx
    split at hx
    · simp only [Option.bind_eq_bind, Option.bind_eq_some_iff] at hx
      obtain ⟨y, _, hx⟩ := hx
      cases hx
      exact ⟨rfl, hm.type, hm.iterBody, hm.iterHeader, hm.notSealed⟩
    · cases hx

theorem ite_open {c : Prop} [Decidable c] {x : Option (Int × Msg)} {m : Msg} {r : Int × Msg} (hm : Open m)
    (hx : ∀ r, x = some r → r.1 = 0 ∧ Open r.2) (h : (if c then x else some (0, m)) = some r) : r.1 = 0 ∧ Open r.2 := by
  split at h
  · exact hx r h
  · cases h; exact ⟨rfl, hm⟩

/-- Serialising is an error only by being undefined. -/
theorem serialize_zero (mv : Moves) (m : Msg) (hm : Open m) (r : Int × Msg) (h : serializeCommon mv m = some r) : r.1 = 0 := by
  unfold serializeCommon at h
  simp only [Option.bind_eq_bind, Option.bind_eq_some_iff] at h
  obtain ⟨head, _, cb, _, r1, h1, h⟩ := h
  obtain ⟨z1, o1⟩ := ite_open hm (fun r hr => special_zero mv m _ _ _ _ _ hm (by decide) rfl r hr) h1
  rw [z1, if_neg (by decide)] at h
  simp only [Option.bind_eq_some_iff] at h
  obtain ⟨r2, h2, h⟩ := h
  obtain ⟨z2, o2⟩ := ite_open o1 (fun r hr => special_zero mv r1.2 _ _ _ _ _ o1 (by decide) rfl r hr) h2
  rw [z2, if_neg (by decide)] at h
  simp only [Option.bind_eq_some_iff] at h
  obtain ⟨r3, h3, h⟩ := h
  obtain ⟨z3, o3⟩ := special_zero mv r2.2 _ _ _ _ _ o2 (by decide) rfl r3 h3
  rw [z3, if_neg (by decide)] at h
  simp only [Option.bind_eq_some_iff] at h
  obtain ⟨hs, _, h⟩ := h
  cases h
  rfl

theorem seal_step (mv : Moves) (ck : Nat) (d : Doc) (m : Msg) (hd : Building mv d m) :
    (if d.draft = none ∧ d.inBody = false then
      (∃ ck' m', sealMsg mv ck m = some (0, ck', m') ∧ m'.isSealed = true ∧ m'.type = m.type) ∨ (Crowded mv m ∧ sealMsg mv ck m = none)
    else sealMsg mv ck m = some (-EINVAL, ck, m)) := by
  have hns : ¬ m.isSealed = true := by rw [hd.holds.1]; decide
  by_cases h0 : d.draft = none ∧ d.inBody = false
  · have hni : ¬ (m.iterBody = true ∨ m.iterHeader ≠ none) := by rw [hd.holds.2.2.2.1, iter_none hd.holds h0.1, h0.2]; simp
    rw [if_pos h0]
    unfold sealMsg
    rw [if_neg hns, if_neg hni]
    simp only [Option.bind_eq_bind]
    generalize hc : (if m.type = .reply then remote (if m.cookie = 0 then (if m.cookie = 0 then nextCookie ck else ck) else m.cookie)
      else (if m.cookie = 0 then (if m.cookie = 0 then nextCookie ck else ck) else m.cookie)) = c
    have hd' := hd.cookie c
    rw [if_neg hd'.type]
    obtain ⟨ht, hh, hlive⟩ := hd'
    have hopen : Open { m with cookie := c } := ⟨ht, by rw [hh.2.2.2.1, h0.2], iter_none hh h0.1, hh.1⟩
    obtain ⟨h1, h2, h3, h4, hs, bs, e1, e2, e3, e4⟩ := hh
    rw [h0.1] at e4
    obtain ⟨_, e5, e6⟩ := e4
    cases hser : serializeCommon mv { m with cookie := c } with
    | none =>
      right
      refine ⟨?_, by simp⟩
      rcases hlive with hl | hl
      · rcases serialize_def mv { m with cookie := c } hopen hl (by rw [e5]; exact fun x hx => e3 x (List.mem_append_left _ hx))
          (by rw [e6]; exact fun x hx => e3 x (List.mem_append_right _ hx)) with ⟨m', hm'⟩ | hcr
        · rw [hm'] at hser; cases hser
        · exact hcr
      · exact ⟨by have := hl.1; show 63 ≤ m.headers.length; have : 65 ≤ m.headers.length := this; omega, hl.2⟩
    | some r =>
      left
      have hz := serialize_zero mv _ hopen r hser
      simp only [Option.bind_some, hz]
      rw [if_neg (by decide)]
      exact ⟨_, _, rfl, rfl, (serialize_fixed mv _ _ hser).1⟩
  · rw [if_neg h0]
    unfold sealMsg
    rw [if_neg hns, if_pos]
    rw [hd.holds.2.2.2.1]
    cases hb : d.inBody with
    | true => exact Or.inl rfl
    | false =>
      right
      cases hf : d.draft with
      | none => exact absurd ⟨hf, hb⟩ h0
      | some f => exact iter_some hd.holds hf

end Verif.Rtsp
