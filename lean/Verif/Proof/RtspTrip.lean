import Verif.Proof.RtspLine
import Verif.Proof.RtspHead
import Verif.Proof.RtspDef
/-! From the headers of a sealed message to those of the received one: helper lemmas. -/
namespace Verif.Rtsp
open Verif.C
open Sanitize.Spec (text endMode)

/-! ### One header line -/

/-- The name in a header line. -/
def keyOf (l : List Byte) : List Byte := (l.takeWhile (· ≠ ch ':')).take (rtrimLen (l.takeWhile (· ≠ ch ':')))
/-- What is behind the colon. -/
def valueOf (l : List Byte) : List Byte := (l.dropWhile (· ≠ ch ':')).drop 1
/-- Leading blanks of it. -/
def leadOf (l : List Byte) : Nat := if rtrimLen (valueOf l) = 0 then 0 else ((valueOf l).takeWhile (· = ch ' ')).length

/-- The header made from a line. -/
def lineHeader (l : List Byte) : Header :=
  { (mkHeader (keyOf l) ((valueOf l).drop (leadOf l)) (rtrimLen (valueOf l) - leadOf l)).2 with line := some (l ++ crlf) }

theorem rtrim_le (s : List Byte) : rtrimLen s ≤ s.length := by
  unfold rtrimLen
  have := (List.dropWhile_suffix (· = ch ' ') (l := s.reverse)).length_le
  simpa using this

theorem mkHeader_ok (k v : List Byte) (n : Nat) (h : n ≠ 0 → v ≠ []) : (mkHeader k v n).1 = 0 ∧ (mkHeader k v n).2.key = k := by
  unfold mkHeader
  by_cases hn : n ≠ 0
  · rw [if_pos hn]
    unfold setValue
    rw [if_neg (fun x => x.elim hn (h hn)), if_neg (by simp)]
    exact ⟨rfl, rfl⟩
  · rw [if_neg hn]; exact ⟨rfl, rfl⟩

theorem line_mk (l : List Byte) : (mkHeader (keyOf l) ((valueOf l).drop (leadOf l)) (rtrimLen (valueOf l) - leadOf l)).1 = 0 ∧
    (mkHeader (keyOf l) ((valueOf l).drop (leadOf l)) (rtrimLen (valueOf l) - leadOf l)).2.key = keyOf l := by
  apply mkHeader_ok
  intro hn he
  rw [List.drop_eq_nil_iff] at he
  have := rtrim_le (valueOf l)
  omega

theorem appendLine_ok (mv : Moves) (m : Msg) (ht : m.type ≠ .data) (l : List Byte) :
    appendHeaderLine mv m l = (0, pushHeader mv m (lineHeader l)) := by
  show appendHeader mv m (keyOf l) ((valueOf l).drop (leadOf l)) (rtrimLen (valueOf l) - leadOf l) (some (l ++ crlf)) = _
  unfold appendHeader
  rw [if_neg ht, if_neg (by rw [(line_mk l).1]; decide)]
  rfl

theorem lineHeader_key (l : List Byte) : (lineHeader l).key = keyOf l := (line_mk l).2
theorem lineHeader_line (l : List Byte) : (lineHeader l).line = some (l ++ crlf) := rfl

/-- A header with a name and a value, complete. -/
def nv (name v : List Byte) : Header := ⟨name, some v, Qstr.Spec.tokens v, some (name ++ bytes ": " ++ v ++ crlf)⟩

theorem rtrim_id (s : List Byte) (h : s.getLast? ≠ some (ch ' ')) : rtrimLen s = s.length := by
  unfold rtrimLen
  rw [List.getLast?_eq_head?_reverse] at h
  cases hr : s.reverse with
  | nil => have := congrArg List.length hr; simp at this; rw [this]; rfl
  | cons c t =>
    rw [hr] at h
    have hc : ¬ c = ch ' ' := fun e => h (by rw [e]; rfl)
    have hl := congrArg List.length hr
    simp only [List.length_reverse] at hl
    rw [List.dropWhile_cons_of_neg (by simpa using hc), ← hl]

theorem lineHeader_nv (name v : List Byte) (hn : ch ':' ∉ name) (hl : name.getLast? ≠ some (ch ' ')) (hv : v ≠ []) (h1 : v.head? ≠ some (ch ' '))
    (h2 : v.getLast? ≠ some (ch ' ')) : lineHeader (name ++ bytes ": " ++ v) = nv name v := by
  have hp : ∀ x ∈ name, decide (x ≠ ch ':') = true := fun x hx => decide_eq_true (fun e => hn (e ▸ hx))
  have e : name ++ bytes ": " ++ v = name ++ ch ':' :: (ch ' ' :: v) := by
    rw [show bytes ": " = [ch ':', ch ' '] from rfl]; simp
  have hk : keyOf (name ++ bytes ": " ++ v) = name := by
    unfold keyOf
    rw [e, List.takeWhile_append_of_pos hp]
    rw [List.takeWhile_cons_of_neg (by simp), List.append_nil, rtrim_id name hl, List.take_length]
  have hvv : valueOf (name ++ bytes ": " ++ v) = ch ' ' :: v := by
    unfold valueOf
    rw [e, List.dropWhile_append_of_pos hp, List.dropWhile_cons_of_neg (by simp)]
    rfl
  have hr : rtrimLen (ch ' ' :: v) = v.length + 1 := by
    rw [rtrim_id]
    · rfl
    · rw [List.getLast?_cons]
      cases hg : v.getLast? with
      | none => exact absurd (List.getLast?_eq_none_iff.mp hg) hv
      | some c => rw [hg] at h2; simpa using h2
  have hld : leadOf (name ++ bytes ": " ++ v) = 1 := by
    unfold leadOf
    rw [hvv, hr, if_neg (by omega)]
    rw [List.takeWhile_cons_of_pos (by simp)]
    cases hh : v with
    | nil => exact absurd hh hv
    | cons c t =>
      rw [hh] at h1
      rw [List.takeWhile_cons_of_neg (by
        intro hc
        have := of_decide_eq_true hc
        exact h1 (by rw [this]; rfl))]
      rfl
  unfold lineHeader
  rw [hk, hld, hvv, hr]
  unfold mkHeader
  have hlen : v.length ≠ 0 := fun h => hv (List.length_eq_zero_iff.mp h)
  rw [if_pos (by omega)]
  unfold setValue
  rw [if_neg (by
    intro h
    rcases h with h | h
    · omega
    · exact hv h), if_neg (by simp)]
  show (⟨name, some (v.take (v.length + 1 - 1)), Qstr.Spec.tokens v, _⟩ : Header) = _
  rw [Nat.add_sub_cancel, List.take_length]
  rfl

/-! ### Special names and numbers as text -/

theorem dec_good (n : Nat) : Qstr.Good (dec n) := by
  have h := dec_digits n
  refine ⟨dec_ne_nil n, fun h0 => ?_, fun hq => ?_⟩
  · exact absurd (h 0 h0).1 (by decide)
  · exact absurd (h _ hq).1 (by decide)

theorem dec_noquote (n : Nat) : Qstr.needQuote (dec n) = false := by
  unfold Qstr.needQuote
  rw [List.any_eq_false]
  intro c hc
  have := dec_digits n c hc
  have h1 : c ≠ ch ' ' := fun e => by rw [e] at this; exact absurd this.1 (by decide)
  have h2 : c ≠ 9 := fun e => by rw [e] at this; exact absurd this.1 (by decide)
  have h3 : c ≠ 10 := fun e => by rw [e] at this; exact absurd this.1 (by decide)
  have h4 : c ≠ 11 := fun e => by rw [e] at this; exact absurd this.1 (by decide)
  simp [h1, h2, h3, h4]

theorem body_id (s : List Byte) (h : ∀ c ∈ s, c ≠ ch '\\' ∧ c ≠ ch '"') : Qstr.body s = s := by
  induction s with
  | nil => rfl
  | cons c t ih =>
    rw [Qstr.body_cons, ih (fun x hx => h x (List.mem_cons_of_mem _ hx))]
    have := h c List.mem_cons_self
    unfold Qstr.encC
    rw [if_neg (fun x => x.elim this.1 this.2)]; rfl

theorem dec_line (n : Nat) : Qstr.lineF [] [dec n] = dec n := by
  show ([] ++ Qstr.enc (dec n)) = _
  rw [List.nil_append]
  unfold Qstr.enc
  rw [dec_noquote, if_neg (by decide)]
  apply body_id
  intro c hc
  have := dec_digits n c hc
  exact ⟨fun e => by rw [e] at this; exact absurd this.2.1 (by decide), fun e => by rw [e] at this; exact absurd this.1 (by decide)⟩

theorem dec_tokens (n : Nat) : Qstr.Spec.tokens (dec n) = [dec n] := by
  have := Qstr.tokens_line [dec n] (fun t ht => by rw [List.mem_singleton.mp ht]; exact dec_good n)
  rw [dec_line] at this
  exact this

theorem mkLine_dec (name : List Byte) (n : Nat) : mkLine name (dec n) = nv name (dec n) := by
  unfold mkLine nv
  rw [dec_line, dec_tokens]; rfl

theorem mkLine_ct : mkLine (bytes "Content-Type") (bytes "text/parameters") = nv (bytes "Content-Type") (bytes "text/parameters") := by
  decide +kernel

theorem dec_edge (n : Nat) : (dec n).head? ≠ some (ch ' ') ∧ (dec n).getLast? ≠ some (ch ' ') := by
  refine ⟨fun h => ?_, fun h => ?_⟩
  · exact absurd (dec_digits n _ (List.mem_of_head? h)).1 (by decide)
  · exact absurd (dec_digits n _ (List.mem_of_getLast? h)).1 (by decide)

theorem wordOk_plain (w : List Byte) (h : ∀ c ∈ w, c ≠ 0 ∧ Sanitize.Spec.white c = false ∧ c ≠ ch '"') :
    Sanitize.WordOk .plain w ∧ endMode .plain w = .plain := by
  induction w with
  | nil => exact ⟨trivial, rfl⟩
  | cons c t ih =>
    obtain ⟨h0, hw, hq⟩ := h c List.mem_cons_self
    obtain ⟨i1, i2⟩ := ih (fun x hx => h x (List.mem_cons_of_mem _ hx))
    refine ⟨⟨h0, fun _ => hw, ?_⟩, ?_⟩
    · rw [next_plain hq]; exact i1
    · show endMode (Sanitize.Spec.next .plain c) t = .plain
      rw [next_plain hq]; exact i2

theorem dec_plain (n : Nat) : ∀ c ∈ dec n, c ≠ 0 ∧ Sanitize.Spec.white c = false ∧ c ≠ ch '"' := by
  intro c hc
  have := dec_digits n c hc
  refine ⟨fun e => by rw [e] at this; exact absurd this.1 (by decide), ?_, fun e => by rw [e] at this; exact absurd this.1 (by decide)⟩
  have h1 : c ≠ ch ' ' := fun e => by rw [e] at this; exact absurd this.1 (by decide)
  have h2 : c ≠ 9 := fun e => by rw [e] at this; exact absurd this.1 (by decide)
  have h3 : c ≠ 10 := fun e => by rw [e] at this; exact absurd this.1 (by decide)
  have h4 : c ≠ 13 := fun e => by rw [e] at this; exact absurd this.1 (by decide)
  simp [Sanitize.Spec.white, h1, h2, h3, h4]

/-- Two plain words are a clean line. -/
theorem clean_pair (a b : List Byte) (ha : a ≠ []) (hb : b ≠ []) (h1 : ∀ c ∈ a, c ≠ 0 ∧ Sanitize.Spec.white c = false ∧ c ≠ ch '"')
    (h2 : ∀ c ∈ b, c ≠ 0 ∧ Sanitize.Spec.white c = false ∧ c ≠ ch '"') : Clean (a ++ ch ' ' :: b) := by
  obtain ⟨a1, a2⟩ := wordOk_plain a h1
  obtain ⟨b1, b2⟩ := wordOk_plain b h2
  have hg : Sanitize.Good [a, b] := by
    refine ⟨fun w hw => ?_, fun w hw => ?_⟩
    · rcases List.mem_cons.mp hw with rfl | hw
      · exact ⟨a1, ha⟩
      · rw [List.mem_singleton.mp hw]; exact ⟨b1, hb⟩
    · have : w ∈ [a] := hw
      rw [List.mem_singleton.mp this]; exact a2
  have hj : Sanitize.Spec.joined [a, b] = a ++ ch ' ' :: b := rfl
  refine ⟨?_, ?_, by simp⟩
  · unfold Sanitize.Spec.text
    rw [← hj, Sanitize.words_joined _ hg]
  · rw [Sanitize.endMode_append, a2]
    show endMode (Sanitize.Spec.next .plain (ch ' ')) b = _
    rw [next_plain (by decide)]; exact b2

def CL : List Byte := bytes "Content-Length"
def CT : List Byte := bytes "Content-Type"
def CS : List Byte := bytes "CSeq"
def TP : List Byte := bytes "text/parameters"

/-- The text of the line `name: v`. -/
def nvText (name v : List Byte) : List Byte := name ++ bytes ": " ++ v

theorem clean_nv (name v : List Byte) (hv : v ≠ []) (h1 : ∀ c ∈ name ++ [ch ':'], c ≠ 0 ∧ Sanitize.Spec.white c = false ∧ c ≠ ch '"')
    (h2 : ∀ c ∈ v, c ≠ 0 ∧ Sanitize.Spec.white c = false ∧ c ≠ ch '"') : Clean (nvText name v) := by
  have := clean_pair (name ++ [ch ':']) v (by simp) hv h1 h2
  rw [show name ++ [ch ':'] ++ ch ' ' :: v = nvText name v from by
    unfold nvText; rw [show bytes ": " = [ch ':', ch ' '] from rfl]; simp] at this
  exact this

theorem clean_cl (n : Nat) : Clean (nvText CL (dec n)) := clean_nv _ _ (dec_ne_nil n) (by decide +kernel) (dec_plain n)
theorem clean_cs (n : Nat) : Clean (nvText CS (dec n)) := clean_nv _ _ (dec_ne_nil n) (by decide +kernel) (dec_plain n)
theorem clean_ct : Clean (nvText CT TP) := clean_nv _ _ (by decide) (by decide +kernel) (by decide +kernel)

theorem lh_cl (n : Nat) : lineHeader (nvText CL (dec n)) = nv CL (dec n) :=
  lineHeader_nv CL (dec n) (by decide +kernel) (by decide +kernel) (dec_ne_nil n) (dec_edge n).1 (dec_edge n).2
theorem lh_cs (n : Nat) : lineHeader (nvText CS (dec n)) = nv CS (dec n) :=
  lineHeader_nv CS (dec n) (by decide +kernel) (by decide +kernel) (dec_ne_nil n) (dec_edge n).1 (dec_edge n).2
theorem lh_ct : lineHeader (nvText CT TP) = nv CT TP := by decide +kernel

/-! ### The message being received -/

/-- No reallocation that moves an array of up to `n` headers. -/
def Roomy (mv : Moves) (n : Nat) : Prop := n ≤ 64 ∨ ∀ c, 64 ≤ c → mv c = false

/-- The pointer `p` leads to the header `h` (or both are missing). -/
def Holds (hs : List Header) (p : Option Ptr) (h : Option Header) : Prop :=
  match h with
  | none => p = none
  | some h => ∃ q, p = some q ∧ hs[q.idx]? = some h

/-- A message in the parser with these special headers. -/
structure Recv (m : Msg) (a b c : Option Header) : Prop where
  open_ : Open m
  live : Live m
  clen : Holds m.headers m.clen a
  ctype : Holds m.headers m.ctype b
  cseq : Holds m.headers m.cseq c

theorem Holds.push {hs : List Header} {p : Option Ptr} {x : Option Header} (h : Holds hs p x) (y : Header) : Holds (hs ++ [y]) p x := by
  cases x with
  | none => exact h
  | some x =>
    obtain ⟨q, h1, h2⟩ := h
    refine ⟨q, h1, ?_⟩
    rw [List.getElem?_append_left (List.getElem?_eq_some_iff.mp h2).1]; exact h2

theorem holds_new (hs : List Header) (g : Nat) (y : Header) : Holds (hs ++ [y]) (some ⟨g, hs.length⟩) (some y) :=
  ⟨_, rfl, by simp⟩

theorem Recv.push {mv : Moves} {m : Msg} {a b c : Option Header} (h : Recv m a b c) (y : Header) (hr : Roomy mv (m.headers.length + 1)) :
    Recv (pushHeader mv m y) (if caseEq y.key CL then some y else a) (if caseEq y.key CT then some y else b)
      (if caseEq y.key CT then c else if caseEq y.key CS then some y else c) := by
  obtain ⟨p1, p2, p3, p4, p5⟩ := push_parts mv m y h.open_.iterBody
  have ph := push_headers mv m y h.open_.iterBody
  refine ⟨h.open_.push mv y, ?_, ?_, ?_, ?_⟩
  · rcases h.live.push mv y h.open_.iterBody with hl | hl
    · exact hl
    · exfalso
      have h65 := hl.1
      rw [ph, List.length_append, List.length_singleton] at h65
      obtain ⟨cc, hc1, hc2⟩ := hl.2
      rcases hr with hr | hr
      · omega
      · rw [hr cc hc1] at hc2; cases hc2
  · rw [p3, ph]
    unfold CL
    split
    · exact holds_new _ _ _
    · exact h.clen.push y
  · rw [p4, ph]
    unfold CT
    split
    · exact holds_new _ _ _
    · exact h.ctype.push y
  · rw [p5, ph]
    unfold CT CS
    split
    · exact h.cseq.push y
    · split
      · exact holds_new _ _ _
      · exact h.cseq.push y

/-- A name that has no special meaning. -/
def Plain (k : List Byte) : Prop := caseEq k CL = false ∧ caseEq k CT = false ∧ caseEq k CS = false

theorem old_ptr {m : Msg} {mv : Moves} (y : Header) (hb : m.iterBody = false) (p : Option Ptr)
    (hp : ∀ q, p = some q → q.gen = m.gen ∧ q.idx < m.headers.length) (g : Nat) :
    p ≠ some ⟨g, (pushHeader mv m y).headers.length - 1⟩ := by
  rw [push_headers mv m y hb, List.length_append]
  intro h
  have := (hp _ h).2
  simp at this

theorem finish_some (env : Env) (m : Msg) (l : List Byte) (hl : Clean l) (d : Parser) (hm : d.m = some m)
    (hco : copyOut d d.buflen = some (l ++ crlf)) : finishHeaderLine env d = parserAppendHeader env d m l := by
  unfold finishHeaderLine
  rw [hco]
  simp only [Option.bind_eq_bind, Option.bind_some]
  rw [text_crlf hl, hm]

theorem fin_plain (env : Env) (m : Msg) (a b c : Option Header) (hm : Recv m a b c) (r : Nat) (l : List Byte) (hl : Clean l)
    (hk : caseEq (keyOf l) CL = false ∧ caseEq (keyOf l) CS = false) :
    Fin env (some m) r l (pushHeader env.mv m (lineHeader l)) r := by
  intro d h1 h2 h3
  rw [finish_some env m l hl d h1 h3]
  unfold parserAppendHeader
  rw [appendLine_ok env.mv m hm.open_.type l]
  simp only
  rw [if_neg (Int.lt_irrefl 0)]
  obtain ⟨p1, p2, p3, p4, p5⟩ := push_parts env.mv m (lineHeader l) hm.open_.iterBody
  rw [lineHeader_key] at p3 p4 p5
  have hlast : (pushHeader env.mv m (lineHeader l)).headers.getLast? = some (lineHeader l) := by
    rw [push_headers _ _ _ hm.open_.iterBody]; simp
  rw [hlast]
  simp only [Option.bind_eq_bind, Option.bind_some]
  have n1 : (pushHeader env.mv m (lineHeader l)).clen ≠ some ⟨(pushHeader env.mv m (lineHeader l)).gen, (pushHeader env.mv m (lineHeader l)).headers.length - 1⟩ := by
    rw [p3, if_neg (by have := hk.1; unfold CL at this; rw [this]; decide)]
    exact old_ptr _ hm.open_.iterBody _ hm.live.clen _
  have n2 : (pushHeader env.mv m (lineHeader l)).cseq ≠ some ⟨(pushHeader env.mv m (lineHeader l)).gen, (pushHeader env.mv m (lineHeader l)).headers.length - 1⟩ := by
    have hcs := hk.2
    unfold CS at hcs
    rw [p5, hcs]
    simp only [Bool.false_eq_true, if_false, ite_self]
    exact old_ptr _ hm.open_.iterBody _ hm.live.cseq _
  rw [if_neg n1, if_neg n2]
  rw [← h2]

theorem fin_clen (env : Env) (m : Msg) (a b c : Option Header) (hm : Recv m a b c) (r n : Nat) (hn : n < W64) :
    Fin env (some m) r (nvText CL (dec n)) (pushHeader env.mv m (nv CL (dec n))) n := by
  intro d h1 h2 h3
  rw [finish_some env m _ (clean_cl n) d h1 h3]
  unfold parserAppendHeader
  rw [appendLine_ok env.mv m hm.open_.type, lh_cl]
  simp only
  rw [if_neg (Int.lt_irrefl 0)]
  obtain ⟨p1, p2, p3, p4, p5⟩ := push_parts env.mv m (nv CL (dec n)) hm.open_.iterBody
  have ph := push_headers env.mv m (nv CL (dec n)) hm.open_.iterBody
  have hlast : (pushHeader env.mv m (nv CL (dec n))).headers.getLast? = some (nv CL (dec n)) := by rw [ph]; simp
  rw [hlast]
  simp only [Option.bind_eq_bind, Option.bind_some]
  have n1 : (pushHeader env.mv m (nv CL (dec n))).clen = some ⟨(pushHeader env.mv m (nv CL (dec n))).gen, (pushHeader env.mv m (nv CL (dec n))).headers.length - 1⟩ := by
    rw [p3, if_pos (show caseEq (nv CL (dec n)).key (bytes "Content-Length") = true by show caseEq CL (bytes "Content-Length") = true; decide +kernel), p2, ph]; simp
  rw [if_pos n1]
  have ht : (nv CL (dec n)).tokens = [dec n] := dec_tokens n
  rw [ht]
  simp only
  have ha := atoiZn_dec n [] (fun c hc => by cases hc) hn
  rw [List.append_nil] at ha
  rw [ha]
  simp only
  rw [if_neg (by
    intro h
    rcases h with h | h
    · exact absurd h (by decide)
    · exact h rfl)]

theorem isRemote_lt (n : Nat) (h : n < REMOTE) : isRemote n = false := by
  unfold isRemote
  rw [Nat.div_eq_of_lt h]; rfl

theorem fin_cseq (env : Env) (m : Msg) (a b c : Option Header) (hm : Recv m a b c) (r n : Nat) (hn : n < REMOTE) :
    Fin env (some m) r (nvText CS (dec n)) { pushHeader env.mv m (nv CS (dec n)) with cookie := remote n } r := by
  intro d h1 h2 h3
  rw [finish_some env m _ (clean_cs n) d h1 h3]
  unfold parserAppendHeader
  rw [appendLine_ok env.mv m hm.open_.type, lh_cs]
  simp only
  rw [if_neg (Int.lt_irrefl 0)]
  obtain ⟨p1, p2, p3, p4, p5⟩ := push_parts env.mv m (nv CS (dec n)) hm.open_.iterBody
  have ph := push_headers env.mv m (nv CS (dec n)) hm.open_.iterBody
  have hlast : (pushHeader env.mv m (nv CS (dec n))).headers.getLast? = some (nv CS (dec n)) := by rw [ph]; simp
  rw [hlast]
  simp only [Option.bind_eq_bind, Option.bind_some]
  have n1 : (pushHeader env.mv m (nv CS (dec n))).clen ≠ some ⟨(pushHeader env.mv m (nv CS (dec n))).gen, (pushHeader env.mv m (nv CS (dec n))).headers.length - 1⟩ := by
    rw [p3, if_neg (show ¬ caseEq (nv CS (dec n)).key (bytes "Content-Length") = true by show ¬ caseEq CS (bytes "Content-Length") = true; decide +kernel)]
    exact old_ptr _ hm.open_.iterBody _ hm.live.clen _
  have n2 : (pushHeader env.mv m (nv CS (dec n))).cseq = some ⟨(pushHeader env.mv m (nv CS (dec n))).gen, (pushHeader env.mv m (nv CS (dec n))).headers.length - 1⟩ := by
    rw [p5, if_neg (show ¬ caseEq (nv CS (dec n)).key (bytes "Content-Type") = true by show ¬ caseEq CS (bytes "Content-Type") = true; decide +kernel), if_pos (show caseEq (nv CS (dec n)).key (bytes "CSeq") = true by show caseEq CS (bytes "CSeq") = true; decide +kernel), p2, ph]
    simp
  rw [if_neg n1, if_pos n2]
  have ht : (nv CS (dec n)).tokens = [dec n] := dec_tokens n
  rw [ht]
  simp only
  have hr : REMOTE = 9223372036854775808 := rfl
  have hw : W64 = 18446744073709551616 := rfl
  have ha := atoiZn_dec n [] (fun c hc => by cases hc) (by omega)
  rw [List.append_nil] at ha
  rw [ha]
  simp only
  rw [if_pos ⟨Int.le_refl 0, trivial, isRemote_lt n hn⟩, ← h2]

/-- User headers one after the other. -/
def pushAll (mv : Moves) (m : Msg) (ls : List (List Byte)) : Msg := ls.foldl (fun m l => pushHeader mv m (lineHeader l)) m

/-- What pushing headers leaves alone. -/
structure Same (m m' : Msg) : Prop where
  type : m'.type = m.type
  body : m'.body = m.body
  bodyHeaders : m'.bodyHeaders = m.bodyHeaders
  raw : m'.raw = m.raw
  method : m'.method = m.method
  uri : m'.uri = m.uri
  code : m'.code = m.code
  phrase : m'.phrase = m.phrase
  major : m'.major = m.major
  minor : m'.minor = m.minor

theorem Same.trans {a b c : Msg} (h : Same a b) (h' : Same b c) : Same a c :=
  ⟨h'.1.trans h.1, h'.2.trans h.2, h'.3.trans h.3, h'.4.trans h.4, h'.5.trans h.5, h'.6.trans h.6, h'.7.trans h.7, h'.8.trans h.8,
    h'.9.trans h.9, h'.10.trans h.10⟩

theorem same_push (mv : Moves) (m : Msg) (h : Header) (hb : m.iterBody = false) : Same m (pushHeader mv m h) := by
  obtain ⟨e1, _, _, _, _, e6, e7, e8, _, e10, e11, e12, e13, e14, e15, _⟩ := push_same mv m h hb
  exact ⟨e1, e6, e7, e8, e10, e11, e12, e13, e14, e15⟩

theorem chain_users (env : Env) (ls : List (List Byte)) : ∀ (m : Msg) (r : Nat) (a b c : Option Header), Recv m a b c →
    (∀ l ∈ ls, Clean l ∧ Plain (keyOf l)) → Roomy env.mv (m.headers.length + ls.length) →
    Chain env (some m) r ls (some (pushAll env.mv m ls)) r ∧ Recv (pushAll env.mv m ls) a b c ∧
      (pushAll env.mv m ls).headers = m.headers ++ ls.map lineHeader ∧ Same m (pushAll env.mv m ls) := by
  induction ls with
  | nil =>
    intro m r a b c hm _ _
    exact ⟨⟨rfl, rfl⟩, hm, by simp [pushAll], ⟨rfl, rfl, rfl, rfl, rfl, rfl, rfl, rfl, rfl, rfl⟩⟩
  | cons l t ih =>
    intro m r a b c hm hl hr
    obtain ⟨hc, hk1, hk2, hk3⟩ := hl l List.mem_cons_self
    have hr1 : Roomy env.mv (m.headers.length + 1) := by
      rcases hr with h | h
      · left; simp at h; omega
      · exact Or.inr h
    have ph := push_headers env.mv m (lineHeader l) hm.open_.iterBody
    have hpush := hm.push (lineHeader l) hr1
    rw [lineHeader_key, hk1, hk2, hk3] at hpush
    simp only [Bool.false_eq_true, if_false] at hpush
    obtain ⟨i1, i2, i3, i4⟩ := ih (pushHeader env.mv m (lineHeader l)) r a b c hpush (fun x hx => hl x (List.mem_cons_of_mem _ hx)) (by
      rcases hr with h | h
      · left; rw [ph]; simp at h ⊢; omega
      · exact Or.inr h)
    refine ⟨⟨hc, _, _, fin_plain env m a b c hm r l hc ⟨hk1, hk3⟩, i1⟩, i2, ?_, (same_push env.mv m _ hm.open_.iterBody).trans i4⟩
    show (pushAll env.mv (pushHeader env.mv m (lineHeader l)) t).headers = _
    rw [i3, ph]; simp

/-! ### Sealing -/

theorem rewrite_id (m : Msg) (p : Option Ptr) (name v : List Byte) (hv : v ≠ []) (h : Holds m.headers p (some (nv name v)))
    (hl : ∀ q, p = some q → q.gen = m.gen ∧ q.idx < m.headers.length) :
    ∃ q, p = some q ∧ rewrite m q v = some m := by
  obtain ⟨q, h1, h2⟩ := h
  refine ⟨q, h1, ?_⟩
  unfold rewrite
  rw [if_pos (hl q h1).1, h2]
  simp only [Option.bind_eq_bind, Option.bind_some]
  have hs : setValue (nv name v) v v.length true = (0, { nv name v with value := some v, tokens := Qstr.Spec.tokens v, line := none }) := by
    unfold setValue
    rw [if_neg (fun h => h.elim (fun h => hv (List.length_eq_zero_iff.mp h)) hv), if_neg (by simp), List.take_length]
  rw [hs]
  have hser : serializeHeader { nv name v with value := some v, tokens := Qstr.Spec.tokens v, line := none } = nv name v := by
    unfold serializeHeader
    simp only [ne_eq, not_true_eq_false, if_false]
    rfl
  simp only
  rw [hser]
  have hset : m.headers.set q.idx (nv name v) = m.headers := by
    obtain ⟨hlt, he⟩ := List.getElem?_eq_some_iff.mp h2
    rw [← he, List.set_getElem_self]
  rw [hset]

/-- What a received message is sealed to. -/
theorem recv_serialize (mv : Moves) (m : Msg) (a b c : Option Header) (hm : Recv m a b c) (head hs cbody : List Byte)
    (hh : headLine m = some head) (hb : bodyText m = some cbody) (hl : lines m.headers = some hs)
    (ha : (a = none ∧ cbody = []) ∨ a = some (nv CL (dec cbody.length))) (hbb : m.bodyHeaders = [] ∨ b = some (nv CT TP))
    (hc : c = some (nv CS (dec (local_ m.cookie)))) :
    serializeCommon mv m = some (0, { m with raw := some (head ++ hs ++ crlf ++ cbody), body := some cbody }) := by
  unfold serializeCommon
  rw [hh]
  simp only [Option.bind_eq_bind, Option.bind_some]
  rw [hb]
  simp only [Option.bind_some]
  have s1 : (if m.clen ≠ none ∨ cbody ≠ [] then
      special mv m m.clen (bytes "Content-Length") (.u32 (cbody.length % W32)) (dec cbody.length) else some (0, m)) = some (0, m) := by
    rcases ha with ⟨ha, hcb⟩ | ha
    · have : m.clen = none := by have := hm.clen; rw [ha] at this; exact this
      rw [if_neg (fun h => h.elim (fun h => h this) (fun h => h hcb))]
    · have hc := hm.clen
      rw [ha] at hc
      obtain ⟨q, h1, h2⟩ := rewrite_id m m.clen CL (dec cbody.length) (dec_ne_nil _) hc hm.live.clen
      rw [if_pos (Or.inl (by rw [h1]; simp)), h1]
      unfold special
      simp only
      rw [h2]; rfl
  rw [s1]
  simp only [Option.bind_some]
  rw [if_neg (Int.lt_irrefl 0)]
  have s2 : (if m.bodyHeaders ≠ [] then
      special mv m m.ctype (bytes "Content-Type") (.str (bytes "text/parameters")) (bytes "text/parameters") else some (0, m)) = some (0, m) := by
    rcases hbb with h | hb2
    · rw [if_neg (fun x => x h)]
    · have hct := hm.ctype
      rw [hb2] at hct
      obtain ⟨q, h1, h2⟩ := rewrite_id m m.ctype CT TP (by decide) hct hm.live.ctype
      split
      · rw [h1]
        unfold special
        simp only
        unfold TP at h2
        rw [h2]; rfl
      · rfl
  rw [s2]
  simp only [Option.bind_some]
  rw [if_neg (Int.lt_irrefl 0)]
  have hcq := hm.cseq
  rw [hc] at hcq
  obtain ⟨q, h1, h2⟩ := rewrite_id m m.cseq CS (dec (local_ m.cookie)) (dec_ne_nil _) hcq hm.live.cseq
  have s3 : special mv m m.cseq (bytes "CSeq") (.str (dec (local_ m.cookie))) (dec (local_ m.cookie)) = some (0, m) := by
    rw [h1]
    unfold special
    simp only
    rw [h2]; rfl
  rw [s3]
  simp only [Option.bind_some]
  rw [if_neg (Int.lt_irrefl 0), hl]
  rfl

theorem remote_remote (n : Nat) : remote (remote n) = remote n := by
  unfold remote
  rw [Nat.add_mod_right, Nat.mod_mod]

theorem local_remote (n : Nat) (h : n < REMOTE) : local_ (remote n) = n := by
  unfold local_ remote
  rw [Nat.add_mod_right, Nat.mod_mod, Nat.mod_eq_of_lt h]

theorem recv_seals (mv : Moves) (m x : Msg) (n : Nat) (ho : Open m) (hc : m.cookie = remote n)
    (hs : serializeCommon mv m = some (0, x)) : Seals mv m { x with isSealed := true } := by
  intro ck
  have h0 : m.cookie ≠ 0 := by rw [hc]; unfold remote REMOTE; omega
  unfold sealMsg
  rw [if_neg (by rw [ho.notSealed]; decide), if_neg (by rw [ho.iterBody, ho.iterHeader]; decide)]
  simp only
  rw [if_neg ho.type, if_neg h0, if_neg h0]
  have hk : (if m.type = MType.reply then remote m.cookie else m.cookie) = m.cookie := by
    split
    · rw [hc, remote_remote]
    · rfl
  rw [hk]
  refine ⟨ck, ?_⟩
  rw [show ({ m with cookie := m.cookie } : Msg) = m from rfl, hs]
  rfl

end Verif.Rtsp
