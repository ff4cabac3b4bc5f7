import Verif.Model.Wpas
import Verif.Spec.Wpas
import Verif.Props.Qstr
import Verif.Props.Str
/-! # Helper lemmas for wpa_supplicant messages -/
namespace Verif.Wpas
open Verif.C

/-! ## Numbers -/

theorem scanNumber_neg (n : Nat) : scanNumber 10 (ch '-' :: dec n) = (true, n, (dec n).length + 1) := by
  have h := scanNumber_dec n [] 10 (Or.inr rfl) (by simp) (fun h => by simp at h)
  rw [List.append_nil] at h
  have hne := dec_ne_nil n
  obtain ⟨c, t, hct⟩ : ∃ c t, dec n = c :: t := by
    cases h : dec n with
    | nil => exact absurd h hne
    | cons c t => exact ⟨c, t, rfl⟩
  have hc := dec_digits n c (by rw [hct]; simp)
  have hcs : isSpace c = false := by
    unfold isSpace
    have h1 : ¬ c = 32 := by intro e; rw [e] at hc; exact absurd hc.1 (by decide)
    have h2 : ¬ c ≤ 13 := by
      intro e; have := UInt8.le_iff_toNat_le.mp e
      have h13 : (13 : Byte).toNat = 13 := rfl
      omega
    simp [h1, h2]
  have hc45 : c ≠ 45 := by intro e; rw [e] at hc; exact absurd hc.1 (by decide)
  have hc43 : c ≠ 43 := by intro e; rw [e] at hc; exact absurd hc.1 (by decide)
  unfold scanNumber at h
  rw [hct] at h
  simp only [List.takeWhile_cons, hcs, Bool.false_eq_true, if_false, List.length_nil, List.drop_zero,
    List.head?_cons, Option.some.injEq, hc45, hc43, or_self, decide_false] at h
  unfold scanNumber
  have hsp : isSpace 45 = false := by decide
  rw [hct, show (ch '-' : Byte) = 45 from rfl]
  simp only [List.takeWhile_cons, hsp, Bool.false_eq_true, if_false, List.length_nil, List.drop_zero,
    List.head?_cons, true_or, if_true, List.drop_succ_cons, decide_true]
  have hbp : (basePrefix 10 (c :: t)).2 = 10 := by
    unfold basePrefix
    split
    · rw [if_neg (by simp)]; rfl
    · rfl
    · rfl
  revert h
  generalize hds : List.takeWhile (isDigit (basePrefix 10 (c :: t)).2) (List.drop (basePrefix 10 (c :: t)).1 (c :: t)) = ds
  intro h
  by_cases hd : ds = []
  · rw [if_pos hd] at h
    simp only [Prod.mk.injEq, true_and] at h
    rw [List.length_cons] at h
    omega
  · rw [if_neg hd] at h ⊢
    simp only [Prod.mk.injEq, true_and] at h ⊢
    exact ⟨h.1, by omega⟩

theorem sscanfD_dec (i : Int) (h1 : -2147483648 ≤ i) (h2 : i ≤ 2147483647) :
    sscanfD (decInt i) = some (some i) := by
  unfold decInt
  split
  · rename_i hi
    unfold sscanfD
    rw [scanNumber_neg]
    simp only [if_true]
    rw [if_neg (by omega), if_neg (by omega)]
    congr 2; omega
  · rename_i hi
    unfold sscanfD
    have h := scanNumber_dec i.natAbs [] 10 (Or.inr rfl) (by simp) (fun h => by simp at h)
    rw [List.append_nil] at h
    rw [h]
    have hl : (dec i.natAbs).length ≠ 0 := fun h => dec_ne_nil _ (List.length_eq_zero_iff.mp h)
    simp only [Bool.false_eq_true, if_false]
    rw [if_neg hl, if_neg (by omega)]
    congr 2; omega

theorem sscanfU_dec (n : Nat) (h : n < W32) : sscanfU (dec n) = some (some n) := by
  have hs := scanNumber_dec n [] 10 (Or.inr rfl) (by simp) (fun h => by simp at h)
  rw [List.append_nil] at hs
  have hl : (dec n).length ≠ 0 := fun h => dec_ne_nil _ (List.length_eq_zero_iff.mp h)
  unfold sscanfU strtoul
  have hW : W32 < W64 := by decide
  rw [hs]
  simp only [Bool.false_eq_true, if_false]
  have h64 : ¬ W64 ≤ n := by omega
  simp only [if_neg h64]
  rw [if_neg hl, if_neg (by omega)]

theorem atoi_dec (n : Nat) (h : n ≤ 2147483647) : atoi (dec n) = some (n : Int) := by
  have hs := scanNumber_dec n [] 10 (Or.inr rfl) (by simp) (fun h => by simp at h)
  rw [List.append_nil] at hs
  unfold atoi strtol
  rw [hs]
  simp only [Bool.false_eq_true, if_false]
  have h1 : ¬ (n : Int) > 9223372036854775807 := by omega
  have h2 : ¬ (n : Int) < -9223372036854775808 := by omega
  simp only [if_neg h1, if_neg h2]
  rw [if_neg (by omega)]

theorem dec_safe (n : Nat) (c : Byte) (h : c ∈ dec n) : 48 ≤ c.toNat ∧ c.toNat ≤ 57 :=
  ⟨(dec_digits n c h).1, (dec_digits n c h).2.1⟩

theorem dec_not {n : Nat} {x : Byte} (hx : x.toNat < 48 ∨ 57 < x.toNat) : x ∉ dec n := by
  intro h; have := dec_safe n x h; omega

/-! ## Splitting off the interface -/

theorem span_of {p : Byte → Bool} (a b : List Byte) (ha : ∀ c ∈ a, p c = true) (hb : b.head?.all (fun c => !p c) = true) :
    (a ++ b).takeWhile p = a := by
  rw [List.takeWhile_append_of_pos ha]
  cases b with
  | nil => simp
  | cons r rs =>
    simp only [List.head?_cons, Option.all_some, Bool.not_eq_true'] at hb
    simp [hb]

theorem ifSplit_of {d x body} (h : Spec.Split d x body) : ifSplit d = (x, body) := by
  cases h with
  | plain _ h => unfold ifSplit; rw [if_neg h]
  | iface n body h h0 =>
    have hp : bytes "IFNAME=" <+: bytes "IFNAME=" ++ n ++ ch ' ' :: body := by
      rw [List.append_assoc]; exact List.prefix_append _ _
    unfold ifSplit
    rw [if_pos hp]
    have hd : List.drop 7 (bytes "IFNAME=" ++ n ++ ch ' ' :: body) = n ++ ch ' ' :: body := by
      rw [List.append_assoc]; exact List.drop_left (l₁ := bytes "IFNAME=")
    simp only [hd]
    rw [span_of n (ch ' ' :: body) (fun c hc => by
      have h1 : c ≠ ch ' ' := fun e => h (e ▸ hc)
      have h2 : c ≠ 0 := fun e => h0 (e ▸ hc)
      simp [h1, h2]) (by simp)]
    simp
  | bare n tail h h0 ht =>
    have hp : bytes "IFNAME=" <+: bytes "IFNAME=" ++ n ++ body := by
      rw [List.append_assoc]; exact List.prefix_append _ _
    unfold ifSplit
    rw [if_pos hp]
    have hd : List.drop 7 (bytes "IFNAME=" ++ n ++ body) = n ++ body := by
      rw [List.append_assoc]; exact List.drop_left (l₁ := bytes "IFNAME=")
    simp only [hd]
    have hs0 : (0 : Byte) ≠ ch ' ' := by decide
    rw [span_of n body (fun c hc => by
      have h1 : c ≠ ch ' ' := fun e => h (e ▸ hc)
      have h2 : c ≠ 0 := fun e => h0 (e ▸ hc)
      simp [h1, h2]) (by rcases ht with rfl | ht; · simp
                         · rw [ht]; simp)]
    rw [List.drop_left, if_neg]
    rcases ht with rfl | ht
    · simp
    · rw [ht]; simp [hs0]

theorem split_total (d : List Byte) : ∃ x body, Spec.Split d x body := by
  by_cases hp : bytes "IFNAME=" <+: d
  · obtain ⟨p, rfl⟩ := hp
    have hsplit := List.takeWhile_append_dropWhile (p := fun c : Byte => decide (c ≠ ch ' ') && decide (c ≠ 0)) (l := p)
    revert hsplit
    generalize hn : List.takeWhile (fun c : Byte => decide (c ≠ ch ' ') && decide (c ≠ 0)) p = n
    generalize hq : List.dropWhile (fun c : Byte => decide (c ≠ ch ' ') && decide (c ≠ 0)) p = q
    intro hsplit
    have hmem : ∀ c ∈ n, c ≠ ch ' ' ∧ c ≠ 0 := by
      intro c hc
      rw [← hn] at hc
      have := List.all_takeWhile (l := p) (p := fun c : Byte => decide (c ≠ ch ' ') && decide (c ≠ 0))
      rw [List.all_eq_true] at this
      have := this c hc
      simpa using this
    have h1 : ch ' ' ∉ n := fun h => (hmem _ h).1 rfl
    have h2 : (0 : Byte) ∉ n := fun h => (hmem _ h).2 rfl
    cases q with
    | nil =>
      refine ⟨some n, [], ?_⟩
      rw [← hsplit, ← List.append_assoc]
      exact .bare n [] h1 h2 (Or.inl rfl)
    | cons c t =>
      have hc : c = ch ' ' ∨ c = 0 := by
        have := List.head?_dropWhile_not (fun c : Byte => decide (c ≠ ch ' ') && decide (c ≠ 0)) p
        rw [hq] at this
        simp only [List.head?_cons, Bool.and_eq_false_iff, decide_eq_false_iff_not,
          Classical.not_not] at this
        exact this
      rcases hc with rfl | rfl
      · refine ⟨some n, t, ?_⟩
        rw [← hsplit, ← List.append_assoc]
        exact .iface n t h1 h2
      · refine ⟨some n, 0 :: t, ?_⟩
        rw [← hsplit, ← List.append_assoc]
        exact .bare n (0 :: t) h1 h2 (Or.inr rfl)
  · exact ⟨none, d, .plain d hp⟩

theorem split_len {d x body} (h : Spec.Split d x body) : body.length ≤ d.length := by
  cases h <;> simp <;> omega

/-! ## Parsing -/

theorem tok_ok (jk : Nat → Byte) (s : List Byte) (h : s.length ≤ 10 ^ 18) :
    Qstr.tokenize s (fun _ => ⟨true, some jk⟩) true = some (some (Qstr.Spec.tokens s)) :=
  Qstr.qstr_tokenize_exact s _ (fun _ => ⟨rfl, rfl⟩) h

theorem lines_ok (s : List Byte) (h : s.length ≤ 10 ^ 18) :
    Str.strsplitN s [10] (fun _ => ⟨true, true⟩) true = some (some (Str.Spec.tokens (· = 10) s)) := by
  rw [Str.strsplit_exact s [10] _ (fun _ => ⟨rfl, rfl⟩) h]
  simp

/-- The C strings in a list of byte blocks. -/
def cut (t : List Byte) : List Byte := t.takeWhile (· ≠ 0)

theorem appendBasic_ok {m : Msg} {a : Arg} {t : List Byte} (h : m.isSealed = false) (ha : argText a = some t) :
    appendBasic m a = (0, { m with argv := m.argv ++ [t] }) := by
  unfold appendBasic
  rw [if_neg (by simp [h]), ha]

theorem appendLoop_str (ts : List (List Byte)) : ∀ m : Msg, m.isSealed = false →
    appendLoop m (ts.map (fun t => .str (some (cut t)))) = (0, { m with argv := m.argv ++ ts.map cut }) := by
  induction ts with
  | nil => intro m h; simp [appendLoop]
  | cons t ts ih =>
    intro m h
    rw [List.map_cons, appendLoop, appendBasic_ok h rfl]
    simp only
    rw [if_neg (Int.lt_irrefl 0), ih { m with argv := m.argv ++ [cut t] } h]
    simp

theorem parseArgs_eq (m : Msg) (ts : List (List Byte)) (h : m.isSealed = false) :
    (parseArgs m ts).2 = { m with argv := m.argv ++ ts.map cut } := by
  have := appendLoop_str ts m h
  unfold parseArgs
  show (appendLoop m (ts.map (fun t => .str (some (cut t))))).2 = _
  rw [this]

theorem cut_id {t : List Byte} (h : (0 : Byte) ∉ t) : cut t = t := by
  have := span_of (p := fun c : Byte => decide (c ≠ 0)) t [] (by
    intro c hc; simp; intro e; exact h (e ▸ hc)) (by simp)
  rw [List.append_nil] at this
  exact this

theorem cut_tokens (s : List Byte) : (Qstr.Spec.tokens s).map cut = Qstr.Spec.tokens s := by
  have : ∀ t ∈ Qstr.Spec.tokens s, cut t = t := by
    intro t ht
    unfold Qstr.Spec.tokens at ht
    rw [List.mem_map] at ht
    obtain ⟨w, -, rfl⟩ := ht
    exact cut_id (Qstr.value_nz _ _)
  rw [List.map_congr_left this, List.map_id']

theorem tokens_nz {s t : List Byte} (ht : t ∈ Qstr.Spec.tokens s) : (0 : Byte) ∉ t := by
  unfold Qstr.Spec.tokens at ht
  rw [List.mem_map] at ht
  obtain ⟨w, -, rfl⟩ := ht
  exact Qstr.value_nz _ _

theorem map_cut {l : List (List Byte)} (h : ∀ t ∈ l, (0 : Byte) ∉ t) : l.map cut = l := by
  have : ∀ t ∈ l, cut t = t := fun t ht => cut_id (h t ht)
  rw [List.map_congr_left this, List.map_id']

theorem parse_reply (jk : Nat → Byte) {d x body} (hs : Spec.Split d x body)
    (hb : body.head? ≠ some (ch '<')) (hl : d.length ≤ 10 ^ 18) :
    parse jk false d = some (some (finish d body.length x
      (some { newReply with argv := (Str.Spec.tokens (· = 10) body).map cut }))) := by
  have hbl := split_len hs
  unfold parse
  simp only [ifSplit_of hs, Option.bind_eq_bind, hb, not_false_eq_true, and_self, if_true, lines_ok body (by omega),
    Option.bind_some, and_false, if_false]
  rw [parseArgs_eq _ _ rfl]
  rfl

theorem parse_event (jk : Nat → Byte) {d x body} (hs : Spec.Split d x body)
    (hb : body.head? = some (ch '<')) (hl : d.length ≤ 10 ^ 18) :
    parse jk false d = (parseEvent (Qstr.Spec.tokens body)).map (fun m => some (finish d body.length x m)) := by
  have hbl := split_len hs
  unfold parse
  simp only [ifSplit_of hs, Option.bind_eq_bind, hb, not_true_eq_false, and_false, if_false, tok_ok jk body (by omega),
    Option.bind_some, and_self, if_true]
  cases parseEvent (Qstr.Spec.tokens body) <;> rfl

theorem parse_server (jk : Nat → Byte) {d x body} (hs : Spec.Split d x body) (hl : d.length ≤ 10 ^ 18) :
    parse jk true d = (parseRequest (Qstr.Spec.tokens body)).map (fun m => some (finish d body.length x m)) := by
  have hbl := split_len hs
  unfold parse
  simp only [ifSplit_of hs, Option.bind_eq_bind, Bool.true_eq_false, false_and, if_false, tok_ok jk body (by omega),
    Option.bind_some]
  cases parseRequest (Qstr.Spec.tokens body) <;> rfl

theorem words_plain_tail (w : List Byte) (hw : Spec.Plain w) (args : Option (List Byte)) :
    Qstr.Spec.tokens (w ++ Spec.tail args) = w :: Qstr.Spec.tokens (args.getD []) := by
  have hnq : Qstr.needQuote w = true ∨ Qstr.needQuote w = false := by cases Qstr.needQuote w <;> simp
  have hgo : ∀ (w cur rest : List Byte), (∀ c ∈ w, c ≠ ch ' ' ∧ c ≠ ch '"' ∧ c ≠ ch '\'' ∧ c ≠ ch '\\') →
      Qstr.Spec.words none cur (w ++ rest) = Qstr.Spec.words none (cur ++ w) rest := by
    intro w
    induction w with
    | nil => intro cur rest _; simp
    | cons c w ih =>
      intro cur rest h
      have hc := h c (by simp)
      rw [List.cons_append, Qstr.words_cons _ _ _ _ hc.2.2.2, if_neg (by simp), if_neg (by
        rintro ⟨-, e | e⟩
        · exact hc.2.1 e
        · exact hc.2.2.1 e), if_neg (by rintro ⟨-, e⟩; exact hc.1 e), ih _ _ (fun x hx => h x (by simp [hx]))]
      simp
  have hval : ∀ w : List Byte, (∀ c ∈ w, c ≠ 0 ∧ c ≠ ch ' ' ∧ c ≠ ch '"' ∧ c ≠ ch '\'' ∧ c ≠ ch '\\') →
      Qstr.Spec.value none w = w := by
    intro w
    induction w with
    | nil => intro _; simp [Qstr.Spec.value]
    | cons c w ih =>
      intro h
      have hc := h c (by simp)
      rw [Qstr.Spec.value.eq_def]
      simp only [hc.2.2.2.2, hc.2.2.1, hc.2.2.2.1, hc.1, if_false, or_self, and_false, reduceCtorEq]
      rw [ih (fun x hx => h x (by simp [hx]))]
  unfold Qstr.Spec.tokens
  rw [hgo w [] _ (fun c hc => (hw.2 c hc).2), List.nil_append]
  cases args with
  | none =>
    simp only [Spec.tail, Option.getD_none]
    rw [Qstr.Spec.words, if_neg hw.1]
    simp [Qstr.Spec.words, hval w hw.2]
  | some a =>
    simp only [Spec.tail, Option.getD_some]
    rw [Qstr.words_cons _ _ _ _ (by decide), if_neg (by simp), if_neg (by decide), if_pos ⟨rfl, rfl⟩, if_neg hw.1]
    simp [hval w hw.2]

theorem words_prefix : ∀ (n : Nat) (q : Option Byte) (cur s : List Byte), s.length ≤ n → cur ≠ [] →
    ∃ w rest, Qstr.Spec.words q cur s = (cur ++ w) :: rest := by
  intro n
  induction n with
  | zero =>
    intro q cur s hs hc
    have : s = [] := List.length_eq_zero_iff.mp (by omega)
    subst this
    exact ⟨[], [], by rw [Qstr.Spec.words, if_neg hc]; simp⟩
  | succ n ih =>
    intro q cur s hs hc
    cases s with
    | nil => exact ⟨[], [], by rw [Qstr.Spec.words, if_neg hc]; simp⟩
    | cons c t =>
      have hn : ∀ (q' : Option Byte) (more t' : List Byte), t'.length ≤ t.length →
          ∃ w rest, Qstr.Spec.words q' (cur ++ more) t' = (cur ++ w) :: rest := by
        intro q' more t' ht'
        obtain ⟨w, rest, h⟩ := ih q' (cur ++ more) t' (by simp only [List.length_cons] at hs; omega)
          (by intro h; exact hc (List.append_eq_nil_iff.mp h).1)
        exact ⟨more ++ w, rest, by rw [h]; simp⟩
      rw [Qstr.Spec.words.eq_def]
      simp only
      split
      · cases t with
        | nil => exact ⟨[c], [], rfl⟩
        | cons d t' => exact hn q [c, d] t' (by simp)
      · split
        · exact hn none [c] t (by simp)
        · split
          · exact hn (some c) [c] t (by simp)
          · split
            · exact ⟨[], Qstr.Spec.words none [] t, by simp⟩
            · exact hn q [c] t (by simp)

/-- A line that starts with '<' has a first token, which starts with '<'. -/
theorem tokens_lt (s : List Byte) :
    ∃ t rest, Qstr.Spec.tokens (ch '<' :: s) = (ch '<' :: t) :: rest := by
  unfold Qstr.Spec.tokens
  rw [Qstr.words_cons _ _ _ _ (by decide), if_neg (by simp), if_neg (by decide), if_neg (by decide), List.nil_append]
  obtain ⟨w, rest, h⟩ := words_prefix s.length none [ch '<'] s (Nat.le_refl _) (by simp)
  rw [h]
  refine ⟨Qstr.Spec.value none w, rest.map (Qstr.Spec.value none), ?_⟩
  simp only [List.map_cons, List.cons_append, List.nil_append, List.cons.injEq, and_true]
  rw [Qstr.Spec.value.eq_def]
  simp only [show ch '<' ≠ ch '\\' from by decide, show ch '<' ≠ ch '"' from by decide, show ch '<' ≠ ch '\'' from by decide,
    show ch '<' ≠ (0 : Byte) from by decide, if_false, or_self, and_false, reduceCtorEq]

/-! ## Requests -/

theorem lineF_ge (ts : List (List Byte)) : ∀ done : List Byte, done <+: Qstr.lineF done ts := by
  induction ts with
  | nil => intro done; exact List.prefix_refl _
  | cons t ts ih =>
    intro done
    unfold Qstr.lineF
    refine List.IsPrefix.trans ?_ (ih _)
    by_cases h : done = []
    · simp [h]
    · rw [if_neg h, List.append_assoc]; exact List.prefix_append _ _

theorem line_len (ts : List (List Byte)) : ∀ done : List Byte,
    (Qstr.lineF done ts).length ≤ done.length + Qstr.room ts := by
  induction ts with
  | nil => intro done; simp [Qstr.lineF]
  | cons t ts ih =>
    intro done
    unfold Qstr.lineF
    refine Nat.le_trans (ih _) ?_
    have := Qstr.enc_len t
    have hr : Qstr.room (t :: ts) = t.length * 2 + 4 + Qstr.room ts := by simp [Qstr.room]
    rw [hr]
    split <;> simp only [List.length_append, List.length_nil, List.length_cons] <;> omega

theorem good_of {s : List Byte} (h : Spec.Quotable s) : Qstr.Good s := by
  refine ⟨h.1, h.2.1, fun hm => ?_⟩
  obtain ⟨c, hc, h⟩ := h.2.2 hm
  unfold Qstr.needQuote
  rw [List.any_eq_true]
  exact ⟨c, hc, by simpa [or_assoc] using h⟩

theorem quotable_dec (n : Nat) : Spec.Quotable (dec n) :=
  ⟨dec_ne_nil n, dec_not (Or.inl (by decide)), fun h => absurd h (dec_not (Or.inl (by decide)))⟩

theorem quotable_decInt (i : Int) : Spec.Quotable (decInt i) := by
  unfold decInt
  split
  · refine ⟨by simp, ?_, ?_⟩
    · intro h
      rcases List.mem_cons.mp h with h | h
      · exact absurd h (by decide)
      · exact dec_not (Or.inl (by decide)) h
    · intro h
      rcases List.mem_cons.mp h with h | h
      · exact absurd h (by decide)
      · exact absurd h (dec_not (Or.inl (by decide)))
  · exact quotable_dec _

theorem Spec.Item.Ok.quotable {a : Spec.Item} (h : a.Ok) : Spec.Quotable a.word := by
  cases a with
  | text s => exact h
  | int i => exact quotable_decInt i
  | nat n => exact quotable_dec n
  | pair k v => exact h.2

/-- What the item is passed as. -/
def Spec.Item.arg : Spec.Item → Arg
  | .text s => .str (some s)
  | .int i => .i32 i
  | .nat n => .u32 n
  | .pair k v => .dict (some k) (some v)

/-- The format character to read it back. -/
def Spec.Item.ty : Spec.Item → Ty
  | .text _ => .s
  | .int _ => .i
  | .nat _ => .u
  | .pair _ _ => .e

/-- The value to be read back. -/
def Spec.Item.val : Spec.Item → Val
  | .text s => .str s
  | .int i => .int i
  | .nat n => .uint n
  | .pair _ v => .str v

theorem argText_arg (a : Spec.Item) : argText a.arg = some a.word := by cases a <;> rfl

theorem appendLoop_items (as : List Spec.Item) : ∀ m : Msg, m.isSealed = false →
    appendLoop m (as.map Spec.Item.arg) = (0, { m with argv := m.argv ++ as.map Spec.Item.word }) := by
  induction as with
  | nil => intro m h; simp [appendLoop]
  | cons t ts ih =>
    intro m h
    rw [List.map_cons, appendLoop, appendBasic_ok h (argText_arg t)]
    simp only
    rw [if_neg (Int.lt_irrefl 0), ih { m with argv := m.argv ++ [t.word] } h]
    simp

theorem drop_key (k v : List Byte) (h : ch '=' ∉ k) :
    ((k ++ [ch '='] ++ v).dropWhile (· ≠ ch '=')).drop 1 = v := by
  rw [List.append_assoc, List.dropWhile_append_of_pos (by
    intro c hc; simp; intro e; exact h (e ▸ hc))]
  simp

theorem convert_item {a : Spec.Item} (h : a.Ok) : convert a.word a.ty = some (some a.val) := by
  cases a with
  | text s => rfl
  | int i => simp [convert, Spec.Item.ty, Spec.Item.word, Spec.Item.val, sscanfD_dec i h.1 h.2]
  | nat n => simp [convert, Spec.Item.ty, Spec.Item.word, Spec.Item.val, sscanfU_dec n h]
  | pair k v =>
    show (if ch '=' ∈ k ++ [ch '='] ++ v then
      some (some (Val.str (((k ++ [ch '='] ++ v).dropWhile (· ≠ ch '=')).drop 1))) else some none) = some (some (.str v))
    rw [if_pos (by simp), drop_key k v h.1]

theorem readAll_items (as : List Spec.Item) (hok : ∀ a ∈ as, a.Ok) : ∀ (m : Msg) (pre : List (List Byte)),
    m.argv = pre ++ as.map Spec.Item.word → m.iter = pre.length →
    readAll m (as.map Spec.Item.ty) = some (0, { m with iter := m.argv.length }, as.map Spec.Item.val) := by
  induction as with
  | nil =>
    intro m pre h1 h2
    simp only [List.map_nil, readAll]
    have : m.argv.length = m.iter := by rw [h1, h2]; simp
    rw [this]
  | cons a as ih =>
    intro m pre h1 h2
    have hg : m.argv[m.iter]? = some a.word := by rw [h1, h2]; simp
    simp only [List.map_cons, readAll, readBasic, hg, convert_item (hok a (by simp)), Option.bind_eq_bind, Option.bind_some]
    rw [ih (fun x hx => hok x (by simp [hx])) _ (pre ++ [a.word]) (by rw [h1]; simp) (by simp [h2])]
    simp

theorem seal_line (jk : Nat → Byte) (m : Msg) (hs : m.isSealed = false) (ht : m.type ≠ .event)
    (hroom : Qstr.room m.argv ≤ 16383) :
    ∃ rest, sealMsg jk m = some (0, { m with
      rawlen := (Qstr.lineF [] m.argv).length, raw := Qstr.lineF [] m.argv ++ 0 :: rest, isSealed := true }) := by
  have hl := line_len m.argv []
  simp only [List.length_nil, Nat.zero_add] at hl
  rcases Qstr.join_ex m.argv (some jk) (fun _ => some jk) (by omega) with ⟨-, h⟩ | ⟨rest, e⟩
  · exfalso
    rcases h with h | ⟨k, h⟩ | h
    · simp at h
    · simp at h
    · omega
  · refine ⟨rest, ?_⟩
    unfold sealMsg
    rw [if_neg (by simp [hs]), e]
    simp only [Option.bind_eq_bind, Option.bind_some, if_neg ht]

theorem enc_head {s : List Byte} (h : bytes "IFNAME=" <+: Qstr.enc s) : bytes "IFNAME=" <+: s := by
  unfold Qstr.enc at h
  split at h
  · obtain ⟨t, ht⟩ := h
    have := congrArg List.head? ht
    rw [show bytes "IFNAME=" = ch 'I' :: bytes "FNAME=" from by decide] at this
    simp only [List.cons_append, List.head?_cons, Option.some.injEq] at this
    exact absurd this (by decide)
  · have key : ∀ (p s : List Byte), (∀ c ∈ p, c ≠ ch '\\' ∧ c ≠ ch '"') → p <+: Qstr.body s → p <+: s := by
      intro p
      induction p with
      | nil => intro s _ _; exact List.nil_prefix
      | cons c p ih =>
        intro s hp hb
        cases s with
        | nil =>
          obtain ⟨t, ht⟩ := hb
          simp [Qstr.body] at ht
        | cons d s =>
          rw [Qstr.body_cons] at hb
          have hc := hp c (by simp)
          unfold Qstr.encC at hb
          split at hb
          · rw [List.cons_append, List.cons_prefix_cons] at hb
            exact absurd hb.1 hc.1
          · rw [List.cons_append, List.nil_append, List.cons_prefix_cons] at hb
            obtain ⟨rfl, hb⟩ := hb
            rw [List.cons_prefix_cons]
            exact ⟨rfl, ih s (fun x hx => hp x (by simp [hx])) hb⟩
    refine key _ _ ?_ h
    decide

end Verif.Wpas
