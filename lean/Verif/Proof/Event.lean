import Verif.Proof.Wpas
import Verif.Spec.Event
/-! # Helper lemmas: the arguments of events -/
namespace Verif.Event
open Verif.C
open Verif.Qstr (words_cons)

/-- A piece of text that leaves the reader of words in the state `q'` and stands for `v`. -/
def Seg (q : Option Byte) (t v : List Byte) (q' : Option Byte) : Prop :=
  (∀ cur rest, Qstr.Spec.words q cur (t ++ rest) = Qstr.Spec.words q' (cur ++ t) rest) ∧
  (∀ rest, Qstr.Spec.value q (t ++ rest) = v ++ Qstr.Spec.value q' rest)

theorem Seg.nil (q : Option Byte) : Seg q [] [] q := ⟨by simp, by simp⟩

theorem Seg.trans {q q' q'' : Option Byte} {t v t' v' : List Byte} (h : Seg q t v q') (h' : Seg q' t' v' q'') :
    Seg q (t ++ t') (v ++ v') q'' := by
  refine ⟨fun cur rest => ?_, fun rest => ?_⟩
  · rw [List.append_assoc, h.1, h'.1, List.append_assoc]
  · rw [List.append_assoc, h.2, h'.2, List.append_assoc]

theorem value_cons (q : Option Byte) (c : Byte) (rest : List Byte) (h : c ≠ ch '\\') :
    Qstr.Spec.value q (c :: rest) =
    (if q = some c then Qstr.Spec.value none rest
    else if q = none ∧ (c = ch '"' ∨ c = ch '\'') then Qstr.Spec.value (some c) rest
    else if c = 0 then Qstr.Spec.value q rest
    else c :: Qstr.Spec.value q rest) := by
  conv => lhs; rw [Qstr.Spec.value.eq_def]
  simp only [if_neg h]

/-- An ordinary byte. -/
theorem Seg.byte {q : Option Byte} {c : Byte} (h0 : c ≠ 0) (hb : c ≠ ch '\\') (hq : q ≠ some c)
    (hn : q = none → c ≠ ch '"' ∧ c ≠ ch '\'' ∧ c ≠ ch ' ') : Seg q [c] [c] q := by
  refine ⟨fun cur rest => ?_, fun rest => ?_⟩
  · rw [List.cons_append, List.nil_append, words_cons _ _ _ _ hb, if_neg hq,
      if_neg (by rintro ⟨e, f | f⟩; exact (hn e).1 f; exact (hn e).2.1 f), if_neg (by rintro ⟨e, f⟩; exact (hn e).2.2 f)]
  · rw [List.cons_append, List.nil_append, value_cons _ _ _ hb, if_neg hq,
      if_neg (by rintro ⟨e, f | f⟩; exact (hn e).1 f; exact (hn e).2.1 f), if_neg h0]
    rfl

/-- An escaped byte. -/
theorem Seg.esc (q : Option Byte) (d : Byte) : Seg q [ch '\\', d] (Qstr.Spec.escaped d) q := by
  refine ⟨fun cur rest => ?_, fun rest => ?_⟩
  · rw [List.cons_append, List.cons_append, List.nil_append, Qstr.Spec.words.eq_def]
    simp only [if_true]
  · rw [List.cons_append, List.cons_append, List.nil_append, Qstr.Spec.value.eq_def]
    simp only [if_true]

/-- Opening and closing a quote. -/
theorem Seg.openq {c : Byte} (h : c = ch '"' ∨ c = ch '\'') : Seg none [c] [] (some c) := by
  have hb : c ≠ ch '\\' := by rcases h with rfl | rfl <;> decide
  refine ⟨fun cur rest => ?_, fun rest => ?_⟩
  · rw [List.cons_append, List.nil_append, words_cons _ _ _ _ hb, if_neg (by simp), if_pos ⟨rfl, h⟩]
  · rw [List.cons_append, List.nil_append, value_cons _ _ _ hb, if_neg (by simp), if_pos ⟨rfl, h⟩]
    rfl

theorem Seg.closeq {c : Byte} (h : c = ch '"' ∨ c = ch '\'') : Seg (some c) [c] [] none := by
  have hb : c ≠ ch '\\' := by rcases h with rfl | rfl <;> decide
  refine ⟨fun cur rest => ?_, fun rest => ?_⟩
  · rw [List.cons_append, List.nil_append, words_cons _ _ _ _ hb, if_pos rfl]
  · rw [List.cons_append, List.nil_append, value_cons _ _ _ hb, if_pos rfl]
    rfl

theorem Seg.flat {q : Option Byte} {f g : Byte → List Byte} : ∀ {t : List Byte}, (∀ c ∈ t, Seg q (f c) (g c) q) →
    Seg q (t.flatMap f) (t.flatMap g) q
  | [], _ => Seg.nil q
  | c :: t, h => by
    rw [List.flatMap_cons, List.flatMap_cons]
    exact (h c (by simp)).trans (Seg.flat fun x hx => h x (by simp [hx]))

theorem flat_self (t : List Byte) : t.flatMap (fun c => [c]) = t := by
  induction t with
  | nil => rfl
  | cons c t ih => rw [List.flatMap_cons, ih]; rfl

theorem Seg.simple {w : List Byte} (h : Spec.Simple w) : Seg none w w none := by
  have := Seg.flat (q := none) (f := fun c => [c]) (g := fun c => [c]) (t := w) fun c hc =>
    Seg.byte (h c hc).1 (h c hc).2.2.2.2 (by simp) fun _ => ⟨(h c hc).2.2.1, (h c hc).2.2.2.1, (h c hc).2.1⟩
  rw [flat_self] at this
  exact this

theorem Seg.name {t : List Byte} (h : ∀ c ∈ t, c ≠ 0 ∧ c ≠ ch '\'' ∧ c ≠ ch '\\') :
    Seg (some (ch '\'')) t t (some (ch '\'')) := by
  have := Seg.flat (q := some (ch '\'')) (f := fun c => [c]) (g := fun c => [c]) (t := t) fun c hc =>
    Seg.byte (h c hc).1 (h c hc).2.2 (fun e => (h c hc).2.1 (Option.some.inj e).symm) (by simp)
  rw [flat_self] at this
  exact this

theorem hexDigit_fine : ∀ n : Nat, n < 16 → Spec.hexDigit n ≠ 0 ∧ Spec.hexDigit n ≠ ch '\\' ∧ Spec.hexDigit n ≠ ch '"' := by
  decide +kernel

theorem hex_seg {n : Nat} (h : n < 16) : Seg (some (ch '"')) [Spec.hexDigit n] [Spec.hexDigit n] (some (ch '"')) :=
  Seg.byte (hexDigit_fine n h).1 (hexDigit_fine n h).2.1 (fun e => (hexDigit_fine n h).2.2 (Option.some.inj e).symm) (by simp)

theorem esc_eq {q : Option Byte} {d : Byte} {v : List Byte} (h : Qstr.Spec.escaped d = v) : Seg q [ch '\\', d] v q := by
  rw [← h]; exact Seg.esc q d

/-- However the byte is written it stays inside the quotes. -/
theorem Seg.enc (c : Byte) : Seg (some (ch '"')) (Spec.encByte c) (Spec.seen c) (some (ch '"')) := by
  unfold Spec.encByte
  by_cases h1 : c = ch '"' ∨ c = ch '\\'
  · rw [if_pos h1]
    rcases h1 with rfl | rfl
    · exact esc_eq (by decide +kernel)
    · exact esc_eq (by decide +kernel)
  rw [if_neg h1]
  by_cases h2 : c = 27
  · rw [if_pos h2, h2]; exact esc_eq (d := ch 'e') (by decide +kernel)
  rw [if_neg h2]
  by_cases h3 : c = 10
  · rw [if_pos h3, h3]; exact esc_eq (d := ch 'n') (by decide +kernel)
  rw [if_neg h3]
  by_cases h4 : c = 13
  · rw [if_pos h4, h4]; exact esc_eq (d := ch 'r') (by decide +kernel)
  rw [if_neg h4]
  by_cases h5 : c = 9
  · rw [if_pos h5, h5]; exact esc_eq (d := ch 't') (by decide +kernel)
  rw [if_neg h5]
  unfold Spec.seen
  rw [if_neg h2]
  by_cases h6 : 32 ≤ c ∧ c ≤ 126
  · rw [if_pos h6, if_pos (Or.inr (Or.inr (Or.inr h6)))]
    refine Seg.byte ?_ (fun e => h1 (Or.inr e)) (fun e => h1 (Or.inl (Option.some.inj e).symm)) (by simp)
    rintro rfl
    exact absurd h6.1 (by decide)
  · rw [if_neg h6, if_neg (by
      rintro (e | e | e | e)
      · exact h3 e
      · exact h4 e
      · exact h5 e
      · exact h6 e)]
    have hc := c.toNat_lt
    have e := (esc_eq (q := some (ch '"')) (d := ch 'x') (v := bytes "\\x") (by decide +kernel)).trans
      ((hex_seg (n := c.toNat / 16) (by omega)).trans (hex_seg (n := c.toNat % 16) (by omega)))
    exact e

theorem Seg.piece {p : Spec.Piece} (h : p.Ok) : Seg none p.text p.whole none := by
  have heq : Seg none [ch '='] [ch '='] none := Seg.byte (by decide) (by decide) (by simp) (by decide)
  cases p with
  | word w => exact Seg.simple h.2.1
  | pair k v => exact ((Seg.simple h.1).trans heq).trans (Seg.simple h.2.2)
  | quoted k t =>
    have := (((Seg.simple h.1).trans heq).trans (Seg.openq (Or.inl rfl))).trans
      (Seg.flat (t := t) fun c _ => Seg.enc c) |>.trans (Seg.closeq (Or.inl rfl))
    simpa [Spec.Piece.text, Spec.Piece.whole, Spec.Piece.val] using this
  | named k t =>
    have := (((Seg.simple h.1).trans heq).trans (Seg.openq (Or.inr rfl))).trans
      (Seg.name h.2.2) |>.trans (Seg.closeq (Or.inr rfl))
    simpa [Spec.Piece.text, Spec.Piece.whole, Spec.Piece.val] using this

theorem piece_ne {p : Spec.Piece} (h : p.Ok) : p.text ≠ [] := by
  cases p with
  | word w => exact h.1
  | pair k v => simp [Spec.Piece.text]
  | quoted k t => simp [Spec.Piece.text]
  | named k t => simp [Spec.Piece.text]

/-- The tokens of the arguments are the arguments. -/
theorem tokens_args {ps : List Spec.Piece} (h : ∀ p ∈ ps, p.Ok) :
    Qstr.Spec.tokens ((Spec.args ps).getD []) = ps.map Spec.Piece.whole := by
  have hval : ∀ p : Spec.Piece, p.Ok → Qstr.Spec.value none p.text = p.whole := by
    intro p hp
    have := (Seg.piece hp).2 []
    rw [List.append_nil] at this
    rw [this, Qstr.Spec.value, List.append_nil]
  have hmore : ∀ (ts : List Spec.Piece) (p : Spec.Piece), p.Ok → (∀ x ∈ ts, x.Ok) →
      Qstr.Spec.words none [] (p.text ++ ts.flatMap fun q => ch ' ' :: q.text) = p.text :: ts.map Spec.Piece.text := by
    intro ts
    induction ts with
    | nil =>
      intro p hp _
      rw [(Seg.piece hp).1, List.flatMap_nil, List.nil_append, Qstr.Spec.words, if_neg (piece_ne hp)]
      rfl
    | cons q ts ih =>
      intro p hp hall
      rw [(Seg.piece hp).1, List.flatMap_cons, List.nil_append, List.cons_append, words_cons _ _ _ _ (by decide),
        if_neg (by simp), if_neg (by decide), if_pos ⟨rfl, rfl⟩, if_neg (piece_ne hp),
        ih q (hall q (by simp)) (fun x hx => hall x (by simp [hx]))]
      rfl
  unfold Qstr.Spec.tokens
  cases ps with
  | nil => simp [Spec.args, Qstr.Spec.words]
  | cons p ts =>
    show (Qstr.Spec.words none [] (p.text ++ _)).map _ = _
    rw [hmore ts p (h p (by simp)) (fun x hx => h x (by simp [hx])), ← List.map_cons (f := Spec.Piece.text), List.map_map]
    exact List.map_congr_left fun x hx => hval x (h x hx)

/-- More text may follow. -/
theorem tokens_rest {ps : List Spec.Piece} (h : ∀ p ∈ ps, p.Ok) (hne : ps ≠ []) (rest : List Byte) :
    Qstr.Spec.tokens ((Spec.args ps).getD [] ++ ch ' ' :: rest) = ps.map Spec.Piece.whole ++ Qstr.Spec.tokens rest := by
  have hval : ∀ p : Spec.Piece, p.Ok → Qstr.Spec.value none p.text = p.whole := by
    intro p hp
    have := (Seg.piece hp).2 []
    rw [List.append_nil] at this
    rw [this, Qstr.Spec.value, List.append_nil]
  have hmore : ∀ (ts : List Spec.Piece) (p : Spec.Piece), p.Ok → (∀ x ∈ ts, x.Ok) →
      Qstr.Spec.words none [] (p.text ++ (ts.flatMap fun q => ch ' ' :: q.text) ++ ch ' ' :: rest) =
        p.text :: ts.map Spec.Piece.text ++ Qstr.Spec.words none [] rest := by
    intro ts
    induction ts with
    | nil =>
      intro p hp _
      rw [List.flatMap_nil, List.append_nil, (Seg.piece hp).1, List.nil_append, words_cons _ _ _ _ (by decide),
        if_neg (by simp), if_neg (by decide), if_pos ⟨rfl, rfl⟩, if_neg (piece_ne hp)]
      rfl
    | cons q ts ih =>
      intro p hp hall
      rw [List.append_assoc, (Seg.piece hp).1, List.flatMap_cons, List.nil_append, List.append_assoc, List.cons_append,
        words_cons _ _ _ _ (by decide),
        if_neg (by simp), if_neg (by decide), if_pos ⟨rfl, rfl⟩, if_neg (piece_ne hp), ← List.append_assoc,
        ih q (hall q (by simp)) (fun x hx => hall x (by simp [hx]))]
      rfl
  unfold Qstr.Spec.tokens
  cases ps with
  | nil => exact absurd rfl hne
  | cons p ts =>
    show (Qstr.Spec.words none [] (p.text ++ _ ++ _)).map _ = _
    rw [hmore ts p (h p (by simp)) (fun x hx => h x (by simp [hx])), List.map_append, ← List.map_cons (f := Spec.Piece.text),
      List.map_map]
    congr 1
    exact List.map_congr_left fun x hx => hval x (h x hx)

/-- Its key ends at the first `=`. -/
def Keyed : Spec.Piece → Prop
  | .word w => ch '=' ∉ w
  | .pair k _ | .quoted k _ | .named k _ => ch '=' ∉ k

theorem keyed_ok {p : Spec.Piece} (h : p.Ok) : Keyed p := by
  cases p with
  | word w => exact h.2.2
  | pair k v => exact h.2.1
  | quoted k v => exact h.2
  | named k v => exact h.2.1

theorem keyed_line {p : Spec.Piece} (h : p.Line) : Keyed p := by
  cases p with
  | word w => exact h.2.2
  | pair k v => exact h.2
  | quoted k v => exact h.elim
  | named k v => exact h.elim

/-- The first entry of the dictionary is the first argument with the key. -/
theorem lookup_pieces {k : List Byte} (hk : ch '=' ∉ k) : ∀ {ps : List Spec.Piece}, (∀ p ∈ ps, Keyed p) →
    Wpas.Spec.Lookup k (ps.map Spec.Piece.whole) (Spec.get k ps)
  | [], _ => .nil
  | p :: t, h => by
    have ih := lookup_pieces hk (ps := t) fun x hx => h x (by simp [hx])
    have hp := h p (by simp)
    unfold Spec.get
    rw [List.map_cons, List.find?_cons]
    by_cases e : p.key = some k
    · simp only [e, beq_self_eq_true, Option.map_some]
      cases p with
      | word w => simp [Spec.Piece.key] at e
      | pair k' v => simp only [Spec.Piece.key, Option.some.injEq] at e; subst e; exact .hit _ _ hk
      | quoted k' v => simp only [Spec.Piece.key, Option.some.injEq] at e; subst e; exact .hit _ _ hk
      | named k' v => simp only [Spec.Piece.key, Option.some.injEq] at e; subst e; exact .hit _ _ hk
    · rw [beq_eq_false_iff_ne.mpr e]
      refine .miss _ _ _ (fun v _ => ?_) ih
      have cut : ∀ {a b x y : List Byte}, ch '=' ∉ a → ch '=' ∉ b → a ++ [ch '='] ++ x = b ++ [ch '='] ++ y → a = b := by
        intro a
        induction a with
        | nil =>
          intro b x y _ hb e
          cases b with
          | nil => rfl
          | cons c b => simp at e; exact absurd e.1 (fun e => hb (by simp [e]))
        | cons c a ih =>
          intro b x y ha hb e
          cases b with
          | nil => simp at e; exact absurd e.1 (fun e => ha (by simp [e]))
          | cons d b =>
            simp only [List.cons_append, List.cons.injEq] at e
            rw [e.1, ih (fun hm => ha (by simp [hm])) (fun hm => hb (by simp [hm])) e.2]
      intro he
      cases p with
      | word w => exact hp (by rw [show w = _ from he]; simp)
      | pair k' v' => exact e (by rw [← cut hp hk he]; rfl)
      | quoted k' v' => exact e (by rw [← cut hp hk he]; rfl)
      | named k' v' => exact e (by rw [← cut hp hk he]; rfl)

end Verif.Event
