import Verif.Proof.RtspWire
import Verif.Model.RtspRaw
import Verif.Spec.RtspRaw
/-! Messages from raw text: helper lemmas. -/
namespace Verif.Rtsp
open Verif.C
open Sanitize.Spec (text endMode)
open Spec (Hdr Item HdrOk HdrsOk finish make Sendable headerCount extra view)

/-! ### Lines -/

/-- Neither CR nor LF in it. -/
def OneL (l : List Byte) : Prop := ∀ c ∈ l, c ≠ 13 ∧ c ≠ 10

theorem oneL_in {l : List Byte} (h : OneL l) : ∀ c ∈ l, inLine c = true := by
  intro c hc
  unfold inLine
  exact decide_eq_true (h c hc)

theorem take_line {l : List Byte} (h : OneL l) (t : List Byte) : (l ++ 13 :: t).takeWhile inLine = l := by
  rw [List.takeWhile_append_of_pos (oneL_in h), List.takeWhile_cons_of_neg (by decide), List.append_nil]

theorem drop_line {l : List Byte} (h : OneL l) (t : List Byte) : (l ++ 13 :: t).dropWhile inLine = 13 :: t := by
  rw [List.dropWhile_append_of_pos (oneL_in h), List.dropWhile_cons_of_neg (by decide)]

theorem cut_crlf {l : List Byte} (h : OneL l) (t : List Byte) : cutLine (l ++ crlf ++ t) = (l, t) := by
  have e : l ++ crlf ++ t = l ++ 13 :: (10 :: t) := by simp [crlf]
  unfold cutLine
  rw [e, take_line h, drop_line h]
  rfl

/-! ### The body -/

theorem bodyLines_cut (d : List Byte) : ∀ cur, bodyLines cur d =
    (if cur ++ d.takeWhile inLine = [] then [] else [cur ++ d.takeWhile inLine]) ++ bodyLines [] ((d.dropWhile inLine).drop 1) := by
  induction d with
  | nil => intro cur; simp [bodyLines]
  | cons c t ih =>
    intro cur
    by_cases hc : c = 13 ∨ c = 10
    · have hn : ¬ inLine c = true := by
        unfold inLine
        intro h
        have := of_decide_eq_true h
        exact hc.elim this.1 this.2
      rw [List.takeWhile_cons_of_neg hn, List.dropWhile_cons_of_neg hn, List.append_nil]
      show (if c = 13 ∨ c = 10 then _ else _) = _
      rw [if_pos hc]
      rfl
    · have hn : inLine c = true := by
        unfold inLine
        exact decide_eq_true ⟨fun h => hc (Or.inl h), fun h => hc (Or.inr h)⟩
      rw [List.takeWhile_cons_of_pos hn, List.dropWhile_cons_of_pos hn]
      show (if c = 13 ∨ c = 10 then _ else bodyLines (cur ++ [c]) t) = _
      rw [if_neg hc, ih (cur ++ [c])]
      simp

theorem drop_shorter (d : List Byte) (h : d ≠ []) : ((d.dropWhile inLine).drop 1).length < d.length := by
  have h1 : (d.dropWhile inLine).length ≤ d.length := (List.dropWhile_sublist _).length_le
  have h2 : 0 < d.length := List.length_pos_iff.mpr h
  rw [List.length_drop]
  omega

/-- With a readable byte behind the text the loop does what the model of the parser takes it to do. -/
theorem rawBody_lines (mv : Moves) (f : Nat) : ∀ (m : Msg) (d : List Byte), d.length ≤ f →
    rawBody mv true f m d = some (appendBodyLines mv m (bodyLines [] d)) := by
  induction f with
  | zero =>
    intro m d h
    have : d = [] := List.length_eq_zero_iff.mp (Nat.le_zero.mp h)
    rw [this]; rfl
  | succ f ih =>
    intro m d h
    unfold rawBody
    by_cases hd : d = []
    · rw [if_pos hd, hd]; rfl
    · rw [if_neg hd]
      dsimp only
      rw [if_neg (fun x => by cases x.2), bodyLines_cut, List.nil_append]
      have hs := drop_shorter d hd
      split
      · rename_i he
        rw [ih _ _ (by omega), List.nil_append]
      · rename_i he
        rw [List.singleton_append]
        unfold appendBodyLines
        dsimp only
        split
        · rfl
        · rw [ih _ _ (by omega)]

theorem rawAppendBody_eq (mv : Moves) (m : Msg) (b : List Byte) : rawAppendBody mv true m b = appendBody mv m b := by
  unfold rawAppendBody appendBody
  by_cases hb : b = []
  · rw [if_pos hb, if_pos hb]
  · rw [if_neg hb, if_neg hb]
    simp only [rawBody_lines mv b.length _ b (Nat.le_refl _), Option.bind_eq_bind, Option.bind_some]

/-- Without it, a text that ends in a terminator is read past its end. -/
theorem rawBody_over (mv : Moves) (f : Nat) : ∀ (m : Msg) (ls : List (List Byte)), m.type ≠ .data → m.iterBody = true → ls ≠ [] →
    (∀ l ∈ ls, OneL l) → (flat ls).length ≤ f → rawBody mv false f m (flat ls) = none := by
  induction f with
  | zero =>
    intro m ls _ _ hne _ h
    exact absurd ((flat_nil ls).mp (List.length_eq_zero_iff.mp (Nat.le_zero.mp h))) hne
  | succ f ih =>
    intro m ls ht hb hne hl h
    cases ls with
    | nil => exact absurd rfl hne
    | cons l t =>
      have e : flat (l :: t) = l ++ 13 :: (10 :: flat t) := by simp [flat, crlf]
      have hlen : (flat (l :: t)).length = l.length + 2 + (flat t).length := by rw [e]; simp; omega
      have second : ∀ (m : Msg), m.type ≠ .data → m.iterBody = true → ∀ g, 1 + (flat t).length ≤ g → g ≤ f → rawBody mv false g m (10 :: flat t) = none := by
        intro m ht hb g hg hgf
        obtain ⟨g, rfl⟩ : ∃ k, g = k + 1 := ⟨g - 1, by omega⟩
        unfold rawBody
        rw [if_neg (by simp)]
        dsimp only
        rw [List.takeWhile_cons_of_neg (by decide), List.dropWhile_cons_of_neg (by decide)]
        by_cases htn : t = []
        · rw [if_pos ⟨by rw [htn]; rfl, rfl⟩]
        · rw [if_neg (fun x => htn ((flat_nil t).mp (by simpa using x.1))), if_pos rfl]
          show rawBody mv false g m (flat t) = none
          have hmono : ∀ (k : Nat) (m : Msg) (d : List Byte), d.length ≤ k → rawBody mv false (k + 1) m d = rawBody mv false k m d := by
            intro k
            induction k with
            | zero =>
              intro m d h
              have : d = [] := List.length_eq_zero_iff.mp (Nat.le_zero.mp h)
              rw [this]; rfl
            | succ k ihk =>
              intro m d h
              by_cases hd : d = []
              · rw [hd]; rfl
              · have hs := drop_shorter d hd
                rw [rawBody, if_neg hd, rawBody, if_neg hd]
                dsimp only
                split
                · rfl
                · split
                  · rw [ihk _ _ (by omega)]
                  · split
                    · rfl
                    · rw [ihk _ _ (by omega)]
          have up : ∀ (k : Nat) (m : Msg) (d : List Byte) (j : Nat), d.length ≤ k → rawBody mv false (k + j) m d = rawBody mv false k m d := by
            intro k m d j hk
            induction j with
            | zero => rfl
            | succ j ihj => rw [← Nat.add_assoc, hmono _ _ _ (by omega), ihj]
          have := ih m t ht hb htn (fun x hx => hl x (List.mem_cons_of_mem _ hx)) (by omega)
          rw [← this, show f = g + (f - g) by omega, up g m (flat t) _ (by omega)]
      unfold rawBody
      rw [if_neg (fun x => by rw [e] at x; simp at x)]
      dsimp only
      rw [e, take_line (hl l List.mem_cons_self), drop_line (hl l List.mem_cons_self), if_neg (fun x => by simp at x)]
      show (if l = [] then rawBody mv false f m (10 :: flat t) else _) = none
      split
      · exact second m ht hb f (by omega) (Nat.le_refl _)
      · rw [appendLine_ok mv m ht]
        dsimp only
        rw [if_neg (Int.lt_irrefl 0)]
        refine second _ ?_ ?_ f (by omega) (Nat.le_refl _)
        · unfold pushHeader; rw [if_pos hb]; exact ht
        · unfold pushHeader; rw [if_pos hb]; exact hb

/-! ### The head -/

theorem pushAll_type (mv : Moves) (m : Msg) (ls : List (List Byte)) (hb : m.iterBody = false) :
    (pushAll mv m ls).type = m.type ∧ (pushAll mv m ls).iterBody = false ∧ (pushAll mv m ls).cookie = m.cookie ∧ (pushAll mv m ls).isUsed = m.isUsed := by
  induction ls generalizing m with
  | nil => exact ⟨rfl, hb, rfl, rfl⟩
  | cons l t ih =>
    obtain ⟨e1, e2, e3, _, _, _, _, _, _, _, _, _, _, _, _, e16⟩ := push_same mv m (lineHeader l) hb
    obtain ⟨i1, i2, i3, i4⟩ := ih (pushHeader mv m (lineHeader l)) (e3.trans hb)
    exact ⟨i1.trans e1, i2, i3.trans e2, i4.trans e16⟩

theorem rawLoop_lines (mv : Moves) (behind : Bool) (t : List Byte) (k : Nat) (ls : List (List Byte)) : ∀ m : Msg, m.type ≠ .data → m.iterBody = false →
    (∀ l ∈ ls, Clean l ∧ OneL l) → rawLoop mv behind (ls.length + k) (some m) (flat ls ++ t) = rawLoop mv behind k (some (pushAll mv m ls)) t := by
  induction ls with
  | nil => intro m _ _ _; simp [flat, pushAll]
  | cons l r ih =>
    intro m ht hb hl
    obtain ⟨h1, h2⟩ := hl l List.mem_cons_self
    have e : flat (l :: r) ++ t = l ++ crlf ++ (flat r ++ t) := by simp [flat]
    rw [e, show (l :: r).length + k = (r.length + k) + 1 by simp; omega]
    rw [rawLoop, if_neg (by simp [crlf])]
    dsimp only
    rw [cut_crlf h2, if_neg h1.ne, h1.text, appendLine_ok mv m ht l]
    dsimp only
    rw [if_neg (Int.lt_irrefl 0)]
    obtain ⟨e1, _, e3, _⟩ := push_same mv m (lineHeader l) hb
    exact ih _ (by rw [e1]; exact ht) (e3.trans hb) (fun x hx => hl x (List.mem_cons_of_mem _ hx))

theorem rawLoop_wire (mv : Moves) (behind : Bool) (head : List Byte) (ls : List (List Byte)) (b : List Byte) (m0 : Msg)
    (hh : Clean head ∧ OneL head) (h0 : fromHead head = some m0) (ht : m0.type ≠ .data) (hb : m0.iterBody = false) (hl : ∀ l ∈ ls, Clean l ∧ OneL l) :
    rawLoop mv behind (wire head ls b).length none (wire head ls b) = (rawAppendBody mv behind (pushAll mv m0 ls) b).map fun r => (r.1, some r.2) := by
  have hlen : ∀ l : List (List Byte), l.length ≤ (flat l).length := by
    intro l
    induction l with
    | nil => exact Nat.le_refl _
    | cons x t ih =>
      have : flat (x :: t) = x ++ crlf ++ flat t := by simp [flat]
      rw [this]
      simp only [List.length_append, List.length_cons, crlf]
      omega
  have e : wire head ls b = head ++ crlf ++ (flat ls ++ ([] ++ crlf ++ b)) := by simp [wire, flat]
  obtain ⟨k, hk⟩ : ∃ k, (wire head ls b).length = (ls.length + (k + 1)) + 1 := by
    have := hlen ls
    refine ⟨(wire head ls b).length - ls.length - 2, ?_⟩
    rw [e]
    simp only [List.length_append, crlf, List.length_cons, List.length_nil]
    omega
  rw [hk, e]
  unfold rawLoop
  rw [if_neg (by simp [crlf])]
  dsimp only
  rw [cut_crlf hh.2, if_neg hh.1.ne, hh.1.text, h0]
  dsimp only
  rw [rawLoop_lines mv behind _ (k + 1) ls m0 ht hb hl]
  unfold rawLoop
  rw [if_neg (by simp [crlf])]
  dsimp only
  rw [cut_crlf (l := []) (fun c hc => by cases hc)]
  rw [if_pos rfl]

theorem fromHead_new {l : List Byte} {m : Msg} (h : fromHead l = some m) : m.cookie = 0 ∧ m.isUsed = false := by
  unfold fromHead at h
  split at h
  · unfold fromReply at h
    dsimp only at h
    split at h
    · unfold newRawReply at h
      split at h
      · cases h
      · cases h; exact ⟨rfl, rfl⟩
    · cases h; exact ⟨rfl, rfl⟩
  · unfold fromRequest at h
    dsimp only at h
    split at h
    · unfold newRequest at h
      split at h
      · cases h
      · cases h; exact ⟨rfl, rfl⟩
    · cases h; exact ⟨rfl, rfl⟩

theorem oneL_nv (a v : List Byte) (ha : OneL a) (hv : OneL v) : OneL (nvText a v) := by
  intro c hc
  unfold nvText at hc
  rw [List.mem_append, List.mem_append] at hc
  rcases hc with (hc | hc) | hc
  · exact ha c hc
  · revert c; decide +kernel
  · exact hv c hc

theorem specials_lines (bs : List (List Byte)) (n : Nat) : ∀ l ∈ specials bs n, Clean l ∧ OneL l := by
  have hd : ∀ k, OneL (dec k) := by
    intro k c hc
    have := dec_digits k c hc
    constructor
    · intro e; rw [e] at this; exact absurd this (by decide)
    · intro e; rw [e] at this; exact absurd this (by decide)
  have a1 : ∀ k, Clean (nvText CL (dec k)) ∧ OneL (nvText CL (dec k)) := fun k => ⟨clean_cl k, oneL_nv _ _ (by unfold OneL; decide +kernel) (hd k)⟩
  have a2 : Clean (nvText CT TP) ∧ OneL (nvText CT TP) := ⟨clean_ct, oneL_nv _ _ (by unfold OneL; decide +kernel) (by unfold OneL; decide +kernel)⟩
  have a3 : ∀ k, Clean (nvText CS (dec k)) ∧ OneL (nvText CS (dec k)) := fun k => ⟨clean_cs k, oneL_nv _ _ (by unfold OneL; decide +kernel) (hd k)⟩
  intro l hl
  unfold specials at hl
  rw [List.mem_append] at hl
  rcases hl with hl | hl
  · split at hl
    · cases hl
    · simp only [List.mem_cons, List.not_mem_nil, or_false] at hl
      rcases hl with rfl | rfl
      · exact a1 _
      · exact a2
  · rw [List.mem_singleton] at hl
    rw [hl]; exact a3 n

/-- The lines the serialiser adds, read again. -/
theorem push_specials (mv : Moves) (m : Msg) (hm : Recv m none none none) (bs : List (List Byte)) (n : Nat) (hr : Roomy mv (m.headers.length + 3)) :
    ∃ a b, Recv (pushAll mv m (specials bs n)) a b (some (nv CS (dec n))) ∧
      ((a = none ∧ bs = []) ∨ a = some (nv CL (dec (flat bs).length))) ∧ (bs = [] ∨ b = some (nv CT TP)) ∧
      (pushAll mv m (specials bs n)).headers = m.headers ++ (specials bs n).map lineHeader ∧ Same m (pushAll mv m (specials bs n)) := by
  have roomy : ∀ k, k ≤ 3 → Roomy mv (m.headers.length + k) := by
    intro k hk
    rcases hr with h | h
    · exact Or.inl (by omega)
    · exact Or.inr h
  have last : ∀ (m2 : Msg) (a b : Option Header), Recv m2 a b none → Roomy mv (m2.headers.length + 1) →
      Recv (pushHeader mv m2 (nv CS (dec n))) a b (some (nv CS (dec n))) := by
    intro m2 a b h2 hr2
    have hp := h2.push (nv CS (dec n)) hr2
    rw [show (nv CS (dec n)).key = CS from rfl, if_neg (show ¬ caseEq CS CL = true by decide +kernel), if_neg (show ¬ caseEq CS CT = true by decide +kernel),
      if_neg (show ¬ caseEq CS CT = true by decide +kernel), if_pos (show caseEq CS CS = true by decide +kernel)] at hp
    exact hp
  by_cases hbs : bs = []
  · have hsp : specials bs n = [nvText CS (dec n)] := by unfold specials; rw [if_pos hbs]; rfl
    have e : pushAll mv m (specials bs n) = pushHeader mv m (nv CS (dec n)) := by
      rw [hsp]; show pushHeader mv m (lineHeader _) = _; rw [lh_cs]
    refine ⟨none, none, ?_, Or.inl ⟨rfl, hbs⟩, Or.inl hbs, ?_, ?_⟩
    · rw [e]; exact last m none none hm (roomy 1 (by omega))
    · rw [e, hsp, push_headers _ _ _ hm.open_.iterBody, List.map_singleton, lh_cs]
    · rw [e]; exact same_push mv m _ hm.open_.iterBody
  · have hsp : specials bs n = [nvText CL (dec (flat bs).length), nvText CT TP] ++ [nvText CS (dec n)] := by unfold specials; rw [if_neg hbs]
    have e : pushAll mv m (specials bs n) = pushHeader mv (pushHeader mv (pushHeader mv m (nv CL (dec (flat bs).length))) (nv CT TP)) (nv CS (dec n)) := by
      rw [hsp]
      show pushHeader mv (pushHeader mv (pushHeader mv m (lineHeader _)) (lineHeader _)) (lineHeader _) = _
      rw [lh_cs, lh_ct, lh_cl]
    have r1 := hm.push (nv CL (dec (flat bs).length)) (roomy 1 (by omega))
    rw [show (nv CL (dec (flat bs).length)).key = CL from rfl, if_pos (show caseEq CL CL = true by decide +kernel), if_neg (show ¬ caseEq CL CT = true by decide +kernel),
      if_neg (show ¬ caseEq CL CT = true by decide +kernel), if_neg (show ¬ caseEq CL CS = true by decide +kernel)] at r1
    have h1 := push_headers mv m (nv CL (dec (flat bs).length)) hm.open_.iterBody
    have s1 := same_push mv m (nv CL (dec (flat bs).length)) hm.open_.iterBody
    rw [e, hsp]
    generalize pushHeader mv m (nv CL (dec (flat bs).length)) = M at r1 h1 s1
    have hlen1 : M.headers.length = m.headers.length + 1 := by rw [h1]; simp
    have r2 := r1.push (nv CT TP) (by rw [hlen1]; exact roomy 2 (by omega))
    rw [show (nv CT TP).key = CT from rfl, if_neg (show ¬ caseEq CT CL = true by decide +kernel), if_pos (show caseEq CT CT = true by decide +kernel),
      if_pos (show caseEq CT CT = true by decide +kernel)] at r2
    have h2 := push_headers mv M (nv CT TP) r1.open_.iterBody
    have s2 := same_push mv M (nv CT TP) r1.open_.iterBody
    generalize pushHeader mv M (nv CT TP) = N at r2 h2 s2
    have hlen2 : N.headers.length = m.headers.length + 2 := by rw [h2, List.length_append, hlen1]; rfl
    refine ⟨_, _, last N _ _ r2 (by rw [hlen2]; exact roomy 3 (by omega)), Or.inr rfl, Or.inr rfl, ?_, (s1.trans s2).trans (same_push mv N _ r2.open_.iterBody)⟩
    rw [push_headers _ _ _ r2.open_.iterBody, h2, h1]
    simp only [List.map_append, List.map_cons, List.map_nil, lh_cl, lh_ct, lh_cs, List.append_assoc]
    rfl

/-! ### Sealing with another number -/

theorem rewrite_nv (m : Msg) (q : Ptr) (name v w : List Byte) (hw : w ≠ []) (h : m.headers[q.idx]? = some (nv name v)) (hg : q.gen = m.gen) :
    rewrite m q w = some { m with headers := m.headers.set q.idx (nv name w) } := by
  unfold rewrite
  rw [if_pos hg, h]
  simp only [Option.bind_eq_bind, Option.bind_some]
  have hs : setValue (nv name v) w w.length true = (0, { nv name v with value := some w, tokens := Qstr.Spec.tokens w, line := none }) := by
    unfold setValue
    rw [if_neg (fun h => h.elim (fun h => hw (List.length_eq_zero_iff.mp h)) hw), if_neg (by simp), List.take_length]
  rw [hs]
  have hser : serializeHeader { nv name v with value := some w, tokens := Qstr.Spec.tokens w, line := none } = nv name w := by
    unfold serializeHeader
    simp only [ne_eq, not_true_eq_false, if_false]
    rfl
  simp only
  rw [hser]

/-- Sealing a message whose `CSeq` says another number. -/
theorem renumber_serialize (mv : Moves) (m : Msg) (a b : Option Header) (n : Nat) (hm : Recv m a b (some (nv CS (dec n)))) (hs : List Header)
    (hhs : m.headers = hs ++ [nv CS (dec n)]) (hk : ∀ h ∈ hs, h ≠ nv CS (dec n)) (head cbody : List Byte)
    (hh : headLine m = some head) (hb : bodyText m = some cbody) (ls : List (List Byte)) (hl : LinesAre hs ls)
    (ha : (a = none ∧ cbody = []) ∨ a = some (nv CL (dec cbody.length))) (hbb : m.bodyHeaders = [] ∨ b = some (nv CT TP)) :
    serializeCommon mv m = some (0, { m with
      headers := hs ++ [nv CS (dec (local_ m.cookie))],
      raw := some (head ++ flat (ls ++ [nvText CS (dec (local_ m.cookie))]) ++ crlf ++ cbody), body := some cbody }) := by
  unfold serializeCommon
  rw [hh]
  simp only [Option.bind_eq_bind, Option.bind_some]
  rw [hb]
  simp only [Option.bind_some]
  have s1 : (if m.clen ≠ none ∨ cbody ≠ [] then
      special mv m m.clen (bytes "Content-Length") (.u32 (cbody.length % W32)) (dec cbody.length) else some (0, m)) = some (0, m) := by
    rcases ha with ⟨ha, hcb⟩ | ha
    · have : m.clen = none := by have := hm.clen; rw [ha] at this; exact this
      rw [if_neg (fun h => h.elim (fun h => h this) (fun h => h hcb))]
    · have hc := hm.clen
      rw [ha] at hc
      obtain ⟨q, h1, h2⟩ := rewrite_id m m.clen CL (dec cbody.length) (dec_ne_nil _) hc hm.live.clen
      rw [if_pos (Or.inl (by rw [h1]; simp)), h1]
      unfold special
      simp only
      rw [h2]; rfl
  rw [s1]
  simp only [Option.bind_some]
  rw [if_neg (Int.lt_irrefl 0)]
  have s2 : (if m.bodyHeaders ≠ [] then
      special mv m m.ctype (bytes "Content-Type") (.str (bytes "text/parameters")) (bytes "text/parameters") else some (0, m)) = some (0, m) := by
    rcases hbb with h | hb2
    · rw [if_neg (fun x => x h)]
    · have hct := hm.ctype
      rw [hb2] at hct
      obtain ⟨q, h1, h2⟩ := rewrite_id m m.ctype CT TP (by decide) hct hm.live.ctype
      split
      · rw [h1]
        unfold special
        simp only
        unfold TP at h2
        rw [h2]; rfl
      · rfl
  rw [s2]
  simp only [Option.bind_some]
  rw [if_neg (Int.lt_irrefl 0)]
  obtain ⟨q, h1, h2⟩ := hm.cseq
  have hq : q.idx = hs.length := by
    have hlt := (List.getElem?_eq_some_iff.mp h2).1
    rw [hhs, List.length_append, List.length_singleton] at hlt
    rcases Nat.lt_or_ge q.idx hs.length with hx | hx
    · rw [hhs, List.getElem?_append_left hx] at h2
      exact absurd rfl (hk _ (List.mem_of_getElem? h2))
    · omega
  have s3 : special mv m m.cseq (bytes "CSeq") (.str (dec (local_ m.cookie))) (dec (local_ m.cookie)) =
      some (0, { m with headers := hs ++ [nv CS (dec (local_ m.cookie))] }) := by
    rw [h1]
    unfold special
    simp only
    rw [rewrite_nv m q CS (dec n) _ (dec_ne_nil _) h2 (hm.live.cseq q h1).1]
    have : m.headers.set q.idx (nv CS (dec (local_ m.cookie))) = hs ++ [nv CS (dec (local_ m.cookie))] := by
      rw [hhs, hq, List.set_append_right _ _ (Nat.le_refl _), Nat.sub_self]
      rfl
    rw [this, ← h1]
    rfl
  rw [s3]
  simp only [Option.bind_some]
  rw [if_neg (Int.lt_irrefl 0), lines_are _ _ (hl.append (linesAre_nv CS (dec (local_ m.cookie))))]
  rfl

/-! ### Items -/

/-- The text of an item. -/
theorem finish_raw (mvS : Moves) (ck : Nat) (ms : Msg) (head : List Byte)
    (ht : ms.type = .request ∨ ms.type = .reply) (ho : Open ms) (h1 : ms.clen = none) (h2 : ms.ctype = none) (h3 : ms.cseq = none)
    (hh0 : ms.headers = []) (hb0 : ms.bodyHeaders = []) (hbo : ms.body = none) (hl : headLine ms = some (head ++ crlf))
    (hs bs : List Hdr) (hok : HdrsOk hs bs) :
    ∃ ck' s, finish mvS ck hs bs ms = some (ck', s) ∧
      s.cookie = (if ms.type = .reply then remote (if ms.cookie = 0 then nextCookie ck else ms.cookie) else if ms.cookie = 0 then nextCookie ck else ms.cookie) ∧
      s.raw = some (wire head (hs.map hdrText ++ specials (bs.map hdrText) (local_ s.cookie)) (flat (bs.map hdrText))) := by
  obtain ⟨k1, k2, k3⟩ := hok
  have hplain : ∀ h ∈ hs, Plain h.1 := fun h hh =>
    ⟨(k1 h hh).2 _ (by simp [Spec.reserved, CL]), (k1 h hh).2 _ (by simp [Spec.reserved, CT]), (k1 h hh).2 _ (by simp [Spec.reserved, CS])⟩
  have happ := append_all mvS ms hs bs (fun h hh => (k1 h hh).1.1.1) (fun h hh => (k2 h hh).1.1.1) ho
  obtain ⟨p1, p2, p3, p4, p5, p6⟩ := pushFull_head mvS hs hplain ms ho.iterBody
  obtain ⟨g1, g2, g3, g4⟩ := pushFull_gen mvS hs ms
  generalize pushFull mvS ms hs = M at happ p1 p2 p3 p4 p5 p6 g1 g2 g3 g4
  rw [hh0, List.nil_append] at p1
  rw [show M.bodyHeaders = [] from p2.bodyHeaders.trans hb0, List.nil_append] at happ
  generalize hcv : (if M.cookie = 0 then (if M.cookie = 0 then nextCookie ck else ck) else M.cookie) = c0
  generalize hcw : (if M.type = .reply then remote c0 else c0) = c1
  obtain ⟨s, e1, e2, e3, e4, e5, e6, _, _⟩ := send_serialize mvS { M with bodyHeaders := bs.map full, cookie := c1 }
    ⟨g1 ▸ ho.type, g3.trans ho.iterBody, g4.trans ho.iterHeader, g2.trans ho.notSealed⟩ (p4.trans h1) (p5.trans h2) (p6.trans h3) (p2.body.trans hbo)
    head (by
      show headLine M = _
      rw [headLine_same p2 ht]; exact hl) (hs.map hdrText) (bs.map hdrText) (by show LinesAre M.headers _; rw [p1]; exact hdr_lines hs) (hdr_lines bs)
    (Nat.lt_of_le_of_lt (flat_len bs) k3)
  have hseal : sealMsg mvS ck { M with bodyHeaders := bs.map full } = some (0, if M.cookie = 0 then nextCookie ck else ck, { s with isSealed := true }) := by
    unfold sealMsg
    rw [if_neg (show ¬ M.isSealed = true from by rw [g2, ho.notSealed]; decide), if_neg (show ¬ (M.iterBody = true ∨ M.iterHeader ≠ none) from by rw [g3, g4, ho.iterBody, ho.iterHeader]; simp)]
    simp only
    rw [hcv, hcw, if_neg (show ¬ M.type = .data from g1 ▸ ho.type), e1]
    simp only [Option.bind_eq_bind, Option.bind_some]
    rw [if_neg (Int.lt_irrefl 0)]
  refine ⟨if M.cookie = 0 then nextCookie ck else ck, { s with isSealed := true }, ?_, ?_, ?_⟩
  · unfold finish
    rw [happ]
    show Spec.sealed mvS ck _ = _
    unfold Spec.sealed
    rw [hseal]
    rfl
  · show s.cookie = _
    rw [e5]
    show c1 = _
    rw [← hcw, ← hcv, g1, p3]
    split
    · rename_i h
      by_cases hz : ms.cookie = 0
      · rw [if_pos hz, if_pos hz, if_pos hz]
      · rw [if_neg hz, if_neg hz]
    · by_cases hz : ms.cookie = 0
      · rw [if_pos hz, if_pos hz, if_pos hz]
      · rw [if_neg hz, if_neg hz]
  · show s.raw = some (wire head (_ ++ specials _ (local_ s.cookie)) _)
    rw [e2, e5]

theorem nextCookie_ne (c : Nat) : nextCookie c ≠ 0 := by
  unfold nextCookie
  split
  · decide
  · assumption

/-- The text of an item, read again. -/
theorem raw_again (mv : Moves) (ck : Nat) (ms m0 : Msg) (head : List Byte) (hb : Begun ms m0 head) (hone : OneL head)
    (ht : ms.type = .request ∨ ms.type = .reply) (hs bs : List Hdr) (hok : HdrsOk hs bs) (hln : ∀ h ∈ hs, ∀ t ∈ h.2, (13 : Byte) ∉ t ∧ (10 : Byte) ∉ t)
    (hr : Roomy mv (hs.length + 3)) (n : Nat) :
    (∃ x, fromRaw mv true ck (wire head (hs.map hdrText ++ specials (bs.map hdrText) n) (flat (bs.map hdrText))) = some (0, nextCookie ck, some x) ∧
      x.isSealed = true ∧ x.isUsed = false ∧ Spec.Unread x ∧ x.type = ms.type ∧ x.method = ms.method ∧ x.uri = ms.uri ∧ x.code = ms.code ∧ x.phrase = ms.phrase ∧
      x.major = ms.major ∧ x.minor = ms.minor ∧ x.cookie = (if ms.type = .reply then remote (nextCookie ck) else nextCookie ck) ∧
      x.raw = some (wire head (hs.map hdrText ++ specials (bs.map hdrText) (local_ x.cookie)) (flat (bs.map hdrText))) ∧
      x.body = some (flat (bs.map hdrText)) ∧ x.headers.map view = hs ++ extra bs (flat (bs.map hdrText)) (local_ x.cookie) ∧ x.bodyHeaders.map view = bs) ∧
    (bs ≠ [] → fromRaw mv false ck (wire head (hs.map hdrText ++ specials (bs.map hdrText) n) (flat (bs.map hdrText))) = none) := by
  obtain ⟨k1, k2, k3⟩ := hok
  have hplain : ∀ h ∈ hs, Plain h.1 := fun h hh =>
    ⟨(k1 h hh).2 _ (by simp [Spec.reserved, CL]), (k1 h hh).2 _ (by simp [Spec.reserved, CT]), (k1 h hh).2 _ (by simp [Spec.reserved, CS])⟩
  have hls : ∀ l ∈ hs.map hdrText, (Clean l ∧ OneL l) ∧ Plain (keyOf l) := by
    intro l hl
    obtain ⟨h, hh, rfl⟩ := List.mem_map.mp hl
    exact ⟨⟨(k1 h hh).1.clean, body_line (k1 h hh).1 (hln h hh)⟩, by rw [(k1 h hh).1.key]; exact hplain h hh⟩
  have hbl : ∀ l ∈ bs.map hdrText, Clean l ∧ ∀ c ∈ l, c ≠ 13 ∧ c ≠ 10 := by
    intro l hl
    obtain ⟨h, hh, rfl⟩ := List.mem_map.mp hl
    exact ⟨(k2 h hh).1.clean, body_line (k2 h hh).1 (k2 h hh).2⟩
  have hev := extra_view bs
  have hrf := read_full hs (fun h hh => (k1 h hh).1)
  have hrb := read_full bs (fun h hh => (k2 h hh).1)
  have hbn : bs.map hdrText = [] ↔ bs = [] := by simp
  have hrl : Roomy mv ((hs.map hdrText).length + 3) := by rw [List.length_map]; exact hr
  have hall : ∀ l ∈ hs.map hdrText ++ specials (bs.map hdrText) n, Clean l ∧ OneL l := by
    intro l hl
    rcases List.mem_append.mp hl with hl | hl
    · exact (hls l hl).1
    · exact specials_lines _ _ l hl
  generalize hs.map hdrText = ls at hls hrf hrl hall ⊢
  generalize bs.map hdrText = bl at hbl hev hrb hbn hall ⊢
  have hlen0 : m0.headers.length = 0 := by rw [hb.headers]; rfl
  have hloop : ∀ behind, rawLoop mv behind _ none (wire head (ls ++ specials bl n) (flat bl)) = _ := fun behind =>
    rawLoop_wire mv behind head (ls ++ specials bl n) (flat bl) m0 ⟨hb.clean, hone⟩ hb.from_ hb.recv.open_.type hb.recv.open_.iterBody hall
  obtain ⟨_, r1, h1, s1⟩ := chain_users ⟨mv, fun _ _ => (0, 0)⟩ ls m0 0 none none none hb.recv (fun l hl => ⟨(hls l hl).1.1, (hls l hl).2⟩) (by
    rw [hlen0, Nat.zero_add]
    rcases hrl with h | h
    · exact Or.inl (by omega)
    · exact Or.inr h)
  have hsplit : pushAll mv m0 (ls ++ specials bl n) = pushAll mv (pushAll mv m0 ls) (specials bl n) := by
    unfold pushAll; rw [List.foldl_append]
  obtain ⟨_, _, hck, hus⟩ := pushAll_type mv m0 (ls ++ specials bl n) hb.recv.open_.iterBody
  have hnew := fromHead_new hb.from_
  rw [hnew.1] at hck
  rw [hnew.2] at hus
  rw [hsplit] at hck hus
  simp only [hsplit] at hloop
  dsimp only at r1 h1 s1
  generalize pushAll mv m0 ls = M at r1 h1 s1 hloop hck hus
  rw [hb.headers, List.nil_append] at h1
  obtain ⟨a, b, r2, ha', hb', h2, s2⟩ := push_specials mv M r1 bl n (by rw [h1, List.length_map]; exact hrl)
  generalize pushAll mv M (specials bl n) = m' at r2 h2 s2 hloop hck hus
  have s := s1.trans s2
  have hbh : m'.bodyHeaders = [] := by rw [s.bodyHeaders]; exact hb.bodyHeaders
  have hbody : m'.body = none := by rw [s.body]; exact hb.body
  have hty : m'.type = ms.type := by rw [s.type, hb.type]
  constructor
  · have hap : rawAppendBody mv true m' (flat bl) = some (0, { m' with bodyHeaders := bl.map lineHeader }) := by
      rw [rawAppendBody_eq]
      by_cases hbs : bl = []
      · have hcb : flat bl = [] := (flat_nil bl).mpr hbs
        unfold appendBody
        rw [if_pos hcb, hbs, List.map_nil, ← hbh]
      · rcases hb' with h | h
        · exact absurd h hbs
        · rw [h] at r2
          have := appendBody_ok mv m' a _ r2 bl hbs hbl
          rw [hbh, List.nil_append] at this
          exact this
    generalize hcw : (if ms.type = MType.reply then remote (nextCookie ck) else nextCookie ck) = c1
    have hr3 : Recv { m' with bodyHeaders := bl.map lineHeader, cookie := c1 } a b (some (nv CS (dec n))) := by
      obtain ⟨⟨o1, o2, o3, o4⟩, ⟨l1, l2, l3, l4, l5⟩, q1, q2, q3⟩ := r2
      exact ⟨⟨o1, o2, o3, o4⟩, ⟨l1, l2, l3, l4, l5⟩, q1, q2, q3⟩
    -- the headers but the last
    let pre := ls ++ (if bl = [] then [] else [nvText CL (dec (flat bl).length), nvText CT TP])
    have hpre : ∀ k, ls ++ specials bl k = pre ++ [nvText CS (dec k)] := fun k => (List.append_assoc _ _ _).symm
    have hheaders : m'.headers = pre.map lineHeader ++ [nv CS (dec n)] := by
      rw [h2, h1, ← List.map_append, hpre, List.map_append, List.map_singleton, lh_cs]
    have hkeys : ∀ h ∈ pre.map lineHeader, h ≠ nv CS (dec n) := by
      intro h hh e
      obtain ⟨l, hl, rfl⟩ := List.mem_map.mp hh
      have hkey : keyOf l = CS := by rw [← lineHeader_key, e]; rfl
      rcases List.mem_append.mp hl with hl | hl
      · have := (hls l hl).2.2.2
        rw [hkey] at this
        exact absurd this (by decide +kernel)
      · split at hl
        · cases hl
        · simp only [List.mem_cons, List.not_mem_nil, or_false] at hl
          rcases hl with rfl | rfl
          · rw [← lineHeader_key, lh_cl] at hkey
            exact absurd hkey (by show CL ≠ CS; decide +kernel)
          · rw [← lineHeader_key, lh_ct] at hkey
            exact absurd hkey (by show CT ≠ CS; decide +kernel)
    have hser := renumber_serialize mv { m' with bodyHeaders := bl.map lineHeader, cookie := c1 } a b n hr3 (pre.map lineHeader) hheaders hkeys (head ++ crlf) (flat bl)
      (by
        show headLine m' = _
        rw [headLine_same s (by rw [hb.type]; exact ht)]; exact hb.line)
      (by
        unfold bodyText
        rw [show ({ m' with bodyHeaders := bl.map lineHeader, cookie := c1 } : Msg).body = none from hbody]
        exact lines_are _ _ (linesAre_map bl))
      pre (linesAre_map _)
      (by
        rcases ha' with ⟨h, hh⟩ | h
        · exact Or.inl ⟨h, (flat_nil bl).mpr hh⟩
        · exact Or.inr h)
      (by
        rcases hb' with h | h
        · left; show bl.map lineHeader = []; rw [h]; rfl
        · exact Or.inr h)
    dsimp only at hser
    refine ⟨{ m' with
        bodyHeaders := bl.map lineHeader, cookie := c1, headers := pre.map lineHeader ++ [nv CS (dec (local_ c1))],
        raw := some (head ++ crlf ++ flat (pre ++ [nvText CS (dec (local_ c1))]) ++ crlf ++ flat bl), body := some (flat bl), isSealed := true },
      ?_, rfl, hus, ⟨r2.open_.iterBody, r2.open_.iterHeader⟩, hty, s.method.trans hb.method, s.uri.trans hb.uri, s.code.trans hb.code,
      s.phrase.trans hb.phrase, s.major.trans hb.major, s.minor.trans hb.minor, rfl, ?_, rfl, ?_, ?_⟩
    · unfold fromRaw
      rw [hloop true, hap]
      simp only [Option.map_some, Option.bind_eq_bind, Option.bind_some]
      rw [if_neg (Int.lt_irrefl 0)]
      unfold sealMsg
      rw [if_neg (show ¬ m'.isSealed = true from by rw [r2.open_.notSealed]; decide),
        if_neg (show ¬ (m'.iterBody = true ∨ m'.iterHeader ≠ none) from by rw [r2.open_.iterBody, r2.open_.iterHeader]; simp)]
      simp only
      rw [if_pos hck, if_pos hck, hty, hcw, if_neg (show ¬ ms.type = .data from by rcases ht with h | h <;> rw [h] <;> decide)]
      rw [← hty, hser]
      simp only [Option.bind_eq_bind, Option.bind_some]
      rw [if_neg (Int.lt_irrefl 0)]
      simp only [Option.bind_some]
      rw [if_neg (Int.lt_irrefl 0)]
    · dsimp only
      rw [hpre]
      rfl
    · dsimp only
      rw [← lh_cs, ← List.map_singleton, ← List.map_append, ← hpre, List.map_append, List.map_append, hev, hrf, view_full]
    · dsimp only
      rw [hrb, view_full]
  · intro hne
    have hbs : bl ≠ [] := fun h => hne (hbn.mp h)
    have hct : contentType m' = some (some TP) := by
      rcases hb' with h | h
      · exact absurd h hbs
      · rw [h] at r2
        obtain ⟨q, q1, q2⟩ := r2.ctype
        unfold contentType
        rw [q1]
        simp only
        rw [if_pos (r2.live.ctype q q1).1, q2]
        rfl
    have hap : rawAppendBody mv false m' (flat bl) = none := by
      unfold rawAppendBody
      rw [if_neg (fun h => hbs ((flat_nil bl).mp h)), hct]
      simp only [Option.bind_eq_bind, Option.bind_some]
      rw [if_neg (fun x => x rfl)]
      have ho : openBody m' = (0, { m' with iterBody := true }) := by
        unfold openBody
        rw [if_neg r2.open_.type, if_neg (by rw [r2.open_.notSealed]; decide), if_neg (by rw [r2.open_.iterHeader, r2.open_.iterBody]; decide)]
      rw [ho]
      simp only
      rw [if_neg (Int.lt_irrefl 0), rawBody_over mv _ { m' with iterBody := true } bl r2.open_.type rfl hbs (fun l hl => (hbl l hl).2) (Nat.le_refl _)]
      rfl
    unfold fromRaw
    rw [hloop false, hap]
    rfl

end Verif.Rtsp
