import Verif.Model.Sanitize
import Verif.Spec.Sanitize
/-! # Helper lemmas for `sanitize_line` -/
namespace Verif.Sanitize
open Verif.C

/-- The loop without the block: text so far, `last_c`, flags. -/
structure F where
  out : List Byte
  last : Byte
  quoted : Bool
  escaped : Bool

def F.put (s : F) (c : Byte) : F := { s with out := s.out ++ [c] }

def fstep (s : F) (c : Byte) : F :=
  let prev := s.last
  let s := { s with last := c }
  if s.escaped then
    let s := { s with escaped := false }
    if c = 0 then { s with last := ch '0' }.put (ch '0') else s.put c
  else if s.quoted then
    if c = ch '"' then { s with quoted := false }.put c
    else if c = 0 then { s with last := prev }
    else if c = ch '\\' then { s with escaped := true }.put c
    else s.put c
  else if c = 0 then { s with last := prev }
  else
    let c' := if c = 13 ∨ c = 10 ∨ c = 9 then ch ' ' else c
    let s := { s with last := c' }
    if c' = ch ' ' ∧ prev = ch ' ' then s
    else if c' = ch ' ' ∧ s.out = [] then s
    else { s with quoted := c' = ch '"' }.put c'

/-- The block version at index `i` corresponds to the blockless one: the text so far is in front, the
unread bytes are still there. -/
def Sim (rest : List Byte) (i : Nat) (s : St) (f : F) : Prop :=
  s.dst = f.out.length ∧ s.dst ≤ i ∧ s.last = f.last ∧ s.quoted = f.quoted ∧ s.escaped = f.escaped ∧
  ∃ mid, s.buf = f.out ++ mid ++ rest ∧ f.out.length + mid.length = i

theorem put_sim {c0 : Byte} {rest : List Byte} {i : Nat} {s : St} {f : F} (h : Sim (c0 :: rest) i s f) (c : Byte) :
    ∃ s', s.put c = some s' ∧ Sim rest (i + 1) s' (f.put c) := by
  obtain ⟨h1, h2, h3, h4, h5, mid, h6, h7⟩ := h
  unfold St.put
  rw [wr_some (by rw [h6]; simp; omega)]
  refine ⟨_, rfl, ?_, ?_, h3, h4, h5, (mid ++ [c0]).drop 1, ?_, ?_⟩
  · simp [F.put, h1]
  · show s.dst + 1 ≤ i + 1; omega
  · show s.buf.take s.dst ++ [c] ++ s.buf.drop (s.dst + 1) = (f.out ++ [c]) ++ (mid ++ [c0]).drop 1 ++ rest
    rw [h6, h1]
    have e : f.out ++ mid ++ c0 :: rest = f.out ++ ((mid ++ [c0]) ++ rest) := by simp
    rw [e, List.take_left, ← List.drop_drop, List.drop_left]
    rw [List.drop_append_of_le_length (by simp)]
    simp
  · show (f.out ++ [c]).length + _ = _
    simp; omega

theorem skip_sim {c0 : Byte} {rest : List Byte} {i : Nat} {s : St} {f : F} (h : Sim (c0 :: rest) i s f) :
    Sim rest (i + 1) s f := by
  obtain ⟨h1, h2, h3, h4, h5, mid, h6, h7⟩ := h
  exact ⟨h1, by omega, h3, h4, h5, mid ++ [c0], by simp [h6], by simp; omega⟩

theorem sim_upd {rest : List Byte} {i : Nat} {s : St} {f : F} (h : Sim rest i s f) (l : Byte) (q e : Bool) :
    Sim rest i { s with last := l, quoted := q, escaped := e } { f with last := l, quoted := q, escaped := e } := by
  obtain ⟨h1, h2, h3, h4, h5, h6⟩ := h
  exact ⟨h1, h2, rfl, rfl, rfl, h6⟩

theorem step_sim {c : Byte} {rest : List Byte} {i : Nat} {s : St} {f : F} (h : Sim (c :: rest) i s f) :
    ∃ s', step s i = some s' ∧ Sim rest (i + 1) s' (fstep f c) := by
  have h' := h
  obtain ⟨h1, h2, h3, h4, h5, mid, h6, h7⟩ := h'
  have hc : s.buf[i]? = some c := by
    rw [h6, List.getElem?_append_right (by simp; omega)]
    simp [← h7]
  have hout : s.dst = 0 ↔ f.out = [] := by rw [h1]; simp
  unfold step fstep
  simp only [hc, Option.bind_eq_bind, Option.bind_some]
  obtain ⟨buf, dst, last, quoted, escaped⟩ := s
  obtain ⟨out, flast, fq, fe⟩ := f
  simp only at h3 h4 h5 hout
  subst h3 h4 h5
  simp only
  cases quoted <;> cases escaped <;> simp only [Bool.false_eq_true, if_true, if_false]
  · by_cases h0 : c = 0
    · simp only [h0, if_true]; exact ⟨_, rfl, skip_sim (by simpa using sim_upd h last false false)⟩
    · simp only [h0, if_false]
      generalize (if c = 13 ∨ c = 10 ∨ c = 9 then ch ' ' else c) = c'
      by_cases ha : c' = ch ' ' ∧ last = ch ' '
      · rw [if_pos ha, if_pos ha]; exact ⟨_, rfl, skip_sim (by simpa using sim_upd h c' false false)⟩
      · rw [if_neg ha, if_neg ha]
        by_cases hb : c' = ch ' ' ∧ out = []
        · rw [if_pos (by rw [hout]; exact hb), if_pos hb]; exact ⟨_, rfl, skip_sim (by simpa using sim_upd h c' false false)⟩
        · rw [if_neg (by rw [hout]; exact hb), if_neg hb]
          exact put_sim (sim_upd h c' (decide (c' = ch '"')) false) c'
  · by_cases h0 : c = 0
    · simp only [h0, if_true]; exact put_sim (by simpa using sim_upd h (ch '0') false false) _
    · simp only [h0, if_false]; exact put_sim (by simpa using sim_upd h c false false) _
  · by_cases hq : c = ch '"'
    · simp only [hq, if_true]; exact put_sim (by simpa [hq] using sim_upd h (ch '"') false false) _
    · simp only [hq, if_false]
      by_cases h0 : c = 0
      · simp only [h0, if_true]; exact ⟨_, rfl, skip_sim (by simpa using sim_upd h last true false)⟩
      · simp only [h0, if_false]
        by_cases hb : c = ch '\\'
        · simp only [hb, if_true]; exact put_sim (by simpa [hb] using sim_upd h (ch '\\') true true) _
        · simp only [hb, if_false]; exact put_sim (by simpa using sim_upd h c true false) _
  · by_cases h0 : c = 0
    · simp only [h0, if_true]; exact put_sim (by simpa using sim_upd h (ch '0') true false) _
    · simp only [h0, if_false]; exact put_sim (by simpa using sim_upd h c true false) _

theorem loop_sim (l rest : List Byte) (i : Nat) (s : St) (f : F) (h : Sim (l ++ rest) i s f) :
    ∃ s', loop l.length i s = some s' ∧ Sim rest (i + l.length) s' (l.foldl fstep f) := by
  induction l generalizing i s f with
  | nil => exact ⟨s, rfl, h⟩
  | cons c t ih =>
    obtain ⟨s1, e1, h1⟩ := step_sim (by simpa using h)
    obtain ⟨s2, e2, h2⟩ := ih _ _ _ h1
    refine ⟨s2, ?_, ?_⟩
    · simp only [List.length_cons, loop, e1, Option.bind_eq_bind, Option.bind_some]; exact e2
    · simp only [List.length_cons, List.foldl_cons]
      rw [show i + (t.length + 1) = i + 1 + t.length by omega]; exact h2

/-- Relation between the loop and the words read so far: `ds` the finished words, `cur` the current. -/
structure Rel (f : F) (ds : List (List Byte)) (cur : List Byte) (m : Spec.Mode) : Prop where
  mode : m = if f.escaped then .escaped else if f.quoted then .quoted else .plain
  esc : f.escaped = true → f.quoted = true
  ne : ∀ w ∈ ds, w ≠ []
  out : f.out = if cur = [] then (if ds = [] then [] else Spec.joined ds ++ [ch ' ']) else Spec.joined (ds ++ [cur])
  last : m = .plain → (cur ≠ [] → f.last ≠ ch ' ' ∧ cur.getLast? ≠ some (ch ' ')) ∧ (cur = [] → ds ≠ [] → f.last = ch ' ')
  curq : m ≠ .plain → cur ≠ []
  dl : ∀ w ∈ ds, w.getLast? ≠ some (ch ' ')

theorem joined_snoc (ds : List (List Byte)) (w : List Byte) (h : ds ≠ []) :
    Spec.joined (ds ++ [w]) = Spec.joined ds ++ ch ' ' :: w := by
  induction ds with
  | nil => exact absurd rfl h
  | cons a t ih =>
    cases t with
    | nil => rfl
    | cons b t =>
      show a ++ ch ' ' :: Spec.joined (b :: t ++ [w]) = (a ++ ch ' ' :: Spec.joined (b :: t)) ++ _
      rw [ih (by simp)]; simp

theorem joined_snoc_append (ds : List (List Byte)) (w x : List Byte) :
    Spec.joined (ds ++ [w ++ x]) = Spec.joined (ds ++ [w]) ++ x := by
  by_cases h : ds = []
  · subst h; rfl
  · rw [joined_snoc _ _ h, joined_snoc _ _ h]; simp

theorem out_put {f : F} {ds cur m} (r : Rel f ds cur m) (c : Byte) :
    f.out ++ [c] = Spec.joined (ds ++ [cur ++ [c]]) := by
  rw [r.out]
  by_cases hc : cur = []
  · rw [if_pos hc]; subst hc
    by_cases hd : ds = []
    · subst hd; rfl
    · rw [if_neg hd, joined_snoc _ _ hd]; simp
  · rw [if_neg hc, joined_snoc_append]

/-- Words of the rest, given the words so far. -/
theorem words_step (m : Spec.Mode) (cur : List Byte) (c : Byte) (t : List Byte) :
    Spec.words m cur (c :: t) =
      if m = .plain ∧ Spec.white c = true then (if cur = [] then [] else [cur]) ++ Spec.words m [] t
      else Spec.words (Spec.next m c) (cur ++ Spec.keep m c) t := rfl

theorem fold_words (l : List Byte) (f : F) (ds : List (List Byte)) (cur : List Byte) (m : Spec.Mode)
    (r : Rel f ds cur m) :
    ∃ ds' cur', Rel (l.foldl fstep f) ds' cur' (Spec.endMode m l) ∧
      ds ++ Spec.words m cur l = ds' ++ (if cur' = [] then [] else [cur']) := by
  induction l generalizing f ds cur m with
  | nil => exact ⟨ds, cur, r, rfl⟩
  | cons c t ih =>
    rw [List.foldl_cons, words_step]
    show ∃ ds' cur', Rel _ ds' cur' (Spec.endMode (Spec.next m c) t) ∧ _
    by_cases hw : m = .plain ∧ Spec.white c = true
    · rw [if_pos hw]
      obtain ⟨hm, hwc⟩ := hw
      subst hm
      have hnext : Spec.next .plain c = .plain := by
        have : c ≠ ch '"' := by
          rintro rfl
          revert hwc; decide
        simp [Spec.next, this]
      have hmode := r.mode
      have he : f.escaped = false := by
        cases h : f.escaped <;> simp [h] at hmode ⊢
      have hq : f.quoted = false := by
        cases h : f.quoted <;> simp [h, he] at hmode ⊢
      have hc' : (if c = 13 ∨ c = 10 ∨ c = 9 then ch ' ' else c) = ch ' ' := by
        simp only [Spec.white, Bool.or_eq_true, decide_eq_true_eq] at hwc
        split
        · rfl
        · rename_i hn
          rcases hwc with ((h | h) | h) | h
          · exact h
          · exact absurd (Or.inr (Or.inr h)) hn
          · exact absurd (Or.inr (Or.inl h)) hn
          · exact absurd (Or.inl h) hn
      have h0 : c ≠ 0 := by rintro rfl; revert hwc; decide
      rw [hnext]
      have hlast := r.last rfl
      have hstep : Rel (fstep f c) (ds ++ (if cur = [] then [] else [cur])) [] .plain := by
        have hfs : fstep f c = if f.last = ch ' ' ∨ f.out = [] then { f with last := ch ' ' }
            else { f with last := ch ' ', out := f.out ++ [ch ' '] } := by
          unfold fstep
          simp only [he, hq, Bool.false_eq_true, if_false, h0, hc']
          by_cases h1 : f.last = ch ' '
          · simp [h1]
          · by_cases h2 : f.out = []
            · simp [h1, h2]
            · simp only [h1, h2, and_false, if_false, false_or]
              obtain ⟨a, b, c, d⟩ := f
              simp only [F.put] at *
              simp [hq]
              decide
        by_cases hcur : cur = []
        · subst hcur
          simp only [if_true, List.append_nil]
          have hlo : f.last = ch ' ' ∨ f.out = [] := by
            by_cases hd : ds = []
            · right; rw [r.out]; simp [hd]
            · left; exact hlast.2 rfl hd
          rw [hfs, if_pos hlo]
          exact ⟨hmode, r.esc, r.ne, r.out, fun _ => ⟨fun h => absurd rfl h, fun _ _ => rfl⟩, fun h => absurd rfl h, r.dl⟩
        · rw [if_neg hcur]
          have hl := hlast.1 hcur
          have hout := r.out
          rw [if_neg hcur] at hout
          have hne : f.out ≠ [] := by
            rw [hout]
            by_cases hd : ds = []
            · subst hd; exact hcur
            · rw [joined_snoc _ _ hd]; simp
          rw [hfs, if_neg (fun h => h.elim hl.1 hne)]
          refine ⟨hmode, r.esc, ?_, ?_, fun _ => ⟨fun h => absurd rfl h, fun _ _ => rfl⟩, fun h => absurd rfl h, ?_⟩
          · intro w hw
            rcases List.mem_append.mp hw with h | h
            · exact r.ne w h
            · simp at h; subst h; exact hcur
          · simp [hout]
          · intro w hw
            rcases List.mem_append.mp hw with h | h
            · exact r.dl w h
            · simp at h; subst h; exact hl.2
      obtain ⟨ds', cur', h1, h2⟩ := ih _ _ _ _ hstep
      exact ⟨ds', cur', h1, by rw [← h2]; simp⟩
    · rw [if_neg hw]
      have hstep : Rel (fstep f c) ds (cur ++ Spec.keep m c) (Spec.next m c) := by
        have hmode := r.mode
        cases he : f.escaped with
        | true =>
          have hq := r.esc he
          simp only [he, if_true] at hmode
          subst hmode
          have hc0 := r.curq (by simp)
          have hfs : fstep f c = { out := f.out ++ Spec.keep .escaped c, last := if c = 0 then ch '0' else c, quoted := true, escaped := false } := by
            unfold fstep Spec.keep F.put
            simp only [he, if_true, hq]
            by_cases h0 : c = 0 <;> simp [h0]
          rw [hfs]
          have hk : ∃ k, Spec.keep .escaped c = [k] := by
            unfold Spec.keep; by_cases h0 : c = 0 <;> simp [h0]
          obtain ⟨k, hk⟩ := hk
          rw [hk]
          refine ⟨rfl, by simp, r.ne, ?_, ?_, by simp [Spec.next], r.dl⟩
          · show f.out ++ [k] = _
            rw [if_neg (by simp)]; exact out_put r k
          · simp [Spec.next]
        | false =>
          cases hq : f.quoted with
          | true =>
            simp only [he, hq, if_true, Bool.false_eq_true, if_false] at hmode
            subst hmode
            have hc0 := r.curq (by simp)
            by_cases h0 : c = 0
            · have hfs : fstep f c = f := by
                unfold fstep
                subst h0
                simp only [he, hq, if_true, Bool.false_eq_true, if_false]
                rw [if_neg (by decide)]
                obtain ⟨a, b, c, d⟩ := f
                simp only at he hq
                subst he hq
                rfl
              have hn : Spec.next .quoted c = .quoted := by subst h0; decide
              rw [hfs, hn, show Spec.keep .quoted c = [] by simp [Spec.keep, h0], List.append_nil]
              exact r
            · have hk : Spec.keep .quoted c = [c] := by simp [Spec.keep, h0]
              rw [hk]
              by_cases hcq : c = ch '"'
              · have hfs : fstep f c = { out := f.out ++ [c], last := c, quoted := false, escaped := false } := by
                  unfold fstep F.put; simp [he, hq, hcq]
                rw [hfs, show Spec.next .quoted c = .plain by simp [Spec.next, hcq]]
                refine ⟨rfl, by simp, r.ne, ?_, ?_, by simp, r.dl⟩
                · rw [if_neg (by simp)]; exact out_put r c
                · intro _
                  refine ⟨fun _ => ⟨?_, ?_⟩, by simp⟩
                  · show c ≠ _; rw [hcq]; decide
                  · simp [hcq]; decide
              · by_cases hcb : c = ch '\\'
                · have hfs : fstep f c = { out := f.out ++ [c], last := c, quoted := true, escaped := true } := by
                    unfold fstep F.put
                    have hb : ¬ (ch '\\' = ch '"') := by decide
                    have hz : ¬ (ch '\\' = 0) := by decide
                    simp [he, hq, hcb, hb, hz]
                  rw [hfs, show Spec.next .quoted c = .escaped by simp [Spec.next, hcq, hcb]; decide]
                  refine ⟨rfl, by simp, r.ne, ?_, by simp, by simp, r.dl⟩
                  rw [if_neg (by simp)]; exact out_put r c
                · have hfs : fstep f c = { out := f.out ++ [c], last := c, quoted := true, escaped := false } := by
                    unfold fstep F.put
                    simp [he, hq, hcb, hcq, h0]
                  rw [hfs, show Spec.next .quoted c = .quoted by simp [Spec.next, hcq, hcb]]
                  refine ⟨rfl, by simp, r.ne, ?_, by simp, by simp, r.dl⟩
                  rw [if_neg (by simp)]; exact out_put r c
          | false =>
            simp only [he, hq, Bool.false_eq_true, if_false] at hmode
            subst hmode
            have hnw : Spec.white c = false := by
              cases h : Spec.white c with
              | false => rfl
              | true => exact absurd ⟨rfl, h⟩ hw
            simp only [Spec.white, Bool.or_eq_false_iff, decide_eq_false_iff_not] at hnw
            obtain ⟨⟨⟨w1, w2⟩, w3⟩, w4⟩ := hnw
            by_cases h0 : c = 0
            · have hfs : fstep f c = f := by
                unfold fstep
                subst h0
                obtain ⟨a, b, c, d⟩ := f
                simp only at he hq
                subst he hq
                rfl
              have hn : Spec.next .plain c = .plain := by subst h0; decide
              rw [hfs, hn, show Spec.keep .plain c = [] by simp [Spec.keep, h0], List.append_nil]
              exact r
            · have hk : Spec.keep .plain c = [c] := by simp [Spec.keep, h0]
              have hfs : fstep f c = { out := f.out ++ [c], last := c, quoted := decide (c = ch '"'), escaped := false } := by
                unfold fstep F.put
                simp [he, hq, h0, w1, w2, w3, w4]
              rw [hk, hfs]
              by_cases hcq : c = ch '"'
              · rw [show Spec.next .plain c = .quoted by simp [Spec.next, hcq]]
                refine ⟨by simp [hcq], by simp, r.ne, ?_, by simp, by simp, r.dl⟩
                rw [if_neg (by simp)]; exact out_put r c
              · rw [show Spec.next .plain c = .plain by simp [Spec.next, hcq]]
                refine ⟨by simp [hcq], by simp, r.ne, ?_, ?_, by simp, r.dl⟩
                · rw [if_neg (by simp)]; exact out_put r c
                · intro _
                  exact ⟨fun _ => ⟨w1, by simpa using w1⟩, by simp⟩
      exact ih _ _ _ _ hstep

theorem trim_none (d : Nat) (buf : List Byte) (out rest : List Byte) (hb : buf = out ++ rest) (hd : out.length = d)
    (hl : out.getLast? ≠ some (ch ' ')) : trim d buf = some (buf, d) := by
  cases d with
  | zero => rfl
  | succ d =>
    unfold trim
    have hne : out ≠ [] := by intro h; subst h; simp at hd
    have hg : buf[d]? = out.getLast? := by
      rw [hb, List.getElem?_append_left (by omega), List.getLast?_eq_getElem?, hd]; rfl
    cases hx : out.getLast? with
    | none => simp at hx; exact absurd hx hne
    | some x =>
      rw [hx] at hg hl
      simp only [hg, Option.bind_eq_bind, Option.bind_some]
      rw [if_neg (by simpa using hl)]

theorem trim_one (buf : List Byte) (out rest : List Byte) (hb : buf = out ++ ch ' ' :: rest)
    (hl : out.getLast? ≠ some (ch ' ')) : trim (out.length + 1) buf = some (out ++ 0 :: rest, out.length) := by
  unfold trim
  have hg : buf[out.length]? = some (ch ' ') := by rw [hb]; simp
  simp only [hg, Option.bind_eq_bind, Option.bind_some, if_true]
  rw [wr_some (by rw [hb]; simp)]
  simp only [Option.bind_some]
  have e : buf.take out.length ++ [0] ++ buf.drop (out.length + [(0 : Byte)].length) = out ++ 0 :: rest := by
    rw [hb]
    simp only [List.take_left, List.length_singleton]
    rw [← List.drop_drop, List.drop_left]; simp
  rw [e]
  exact trim_none _ _ out (0 :: rest) rfl rfl hl

theorem last_joined (ds : List (List Byte)) (h : ∀ w ∈ ds, w ≠ []) (hl : ∀ w ∈ ds, w.getLast? ≠ some (ch ' ')) :
    (Spec.joined ds).getLast? ≠ some (ch ' ') := by
  induction ds with
  | nil => simp [Spec.joined]
  | cons a t ih =>
    cases t with
    | nil => exact hl a (by simp)
    | cons b t =>
      show (a ++ ch ' ' :: Spec.joined (b :: t)).getLast? ≠ _
      have hne : Spec.joined (b :: t) ≠ [] := by
        have := h b (by simp)
        cases t with
        | nil => exact this
        | cons c t => show b ++ _ ≠ []; simp
      obtain ⟨x, hx⟩ : ∃ x, (Spec.joined (b :: t)).getLast? = some x := by
        cases hj : (Spec.joined (b :: t)).getLast? with
        | none => simp at hj; exact absurd hj hne
        | some x => exact ⟨x, rfl⟩
      have := ih (fun w hw => h w (by simp [hw])) (fun w hw => hl w (by simp [hw]))
      rw [hx] at this
      rw [List.getLast?_append, List.getLast?_cons, hx]
      simpa using this

end Verif.Sanitize
