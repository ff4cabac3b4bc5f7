import Verif.Model.Str
import Verif.Spec.Str
import Verif.Proof.Ring
/-! Helper lemmas for growable buffers and string helpers. -/
namespace Verif.Str
open Verif.C
open Verif.Ring (alignPow2 alignPow2_spec)

theorem realloc_ex {mem : List Byte} {n : Nat} (junk : Nat → Byte) (h : mem.length ≤ n) :
    (realloc mem n junk).length = n ∧ (realloc mem n junk).take mem.length = mem := by
  unfold realloc
  rw [List.take_of_length_le h]
  constructor
  · simp; omega
  · simp

theorem greedy_ex {b : Buf} (need : Nat) (ra : Option (Nat → Byte)) (hb : b.mem.length = b.size)
    (hn : need ≤ 9223372036854775808) :
    ∃ b' ok, greedy b need ra = some (b', ok) ∧
      ((ok = true ∧ need ≤ b'.size ∧ b'.mem.length = b'.size ∧ b.size ≤ b'.size ∧
          b'.mem.take b.size = b.mem) ∨
       (ok = false ∧ ra = none ∧ b' = b ∧ b.size < need)) := by
  unfold greedy
  by_cases h : b.size ≥ need
  · rw [if_pos h]
    exact ⟨b, true, rfl, Or.inl ⟨rfl, h, hb, Nat.le_refl _, by rw [← hb]; simp⟩⟩
  · rw [if_neg h]
    obtain ⟨k, hk, e, hge, -⟩ := alignPow2_spec (u := if 64 > need then 64 else need)
      (by split <;> omega) (by split <;> omega)
    have hp : ¬ (2 ^ k = 0) := by have : 0 < 2 ^ k := Nat.pow_pos (by decide); omega
    have hge' : need ≤ 2 ^ k := by split at hge <;> omega
    rw [e]
    simp only [Option.bind_eq_bind, Option.bind_some, if_neg hp]
    cases ra with
    | none => exact ⟨b, false, rfl, Or.inr ⟨rfl, rfl, rfl, by omega⟩⟩
    | some junk =>
      have := realloc_ex (mem := b.mem) (n := 2 ^ k) junk (by omega)
      exact ⟨_, true, rfl, Or.inl ⟨rfl, hge', this.1, by show b.size ≤ 2 ^ k; omega,
        by rw [← hb]; exact this.2⟩⟩

theorem wr_tail {mem old : List Byte} {n m : Nat} (h1 : mem.length = m) (h2 : mem.take n = old)
    (h3 : n ≤ m) :
    wr mem n (List.replicate (m - n) 0) = some (old ++ List.replicate (m - n) 0) := by
  rw [wr_some (by simp; omega), h2, List.drop_eq_nil_of_le (by simp; omega), List.append_nil]

theorem greedy0_ex {b : Buf} (need : Nat) (ra : Option (Nat → Byte)) (hb : b.mem.length = b.size)
    (hn : need ≤ 9223372036854775808) :
    ∃ b' ok, greedy0 b need ra = some (b', ok) ∧ b'.mem.length = b'.size ∧
      ((ok = true ∧ need ≤ b'.size ∧
          b'.mem = b.mem ++ List.replicate (b'.size - b.size) 0) ∨
       (ok = false ∧ ra = none ∧ b' = b ∧ b.size < need)) := by
  obtain ⟨b', ok, e, h⟩ := greedy_ex need ra hb hn
  unfold greedy0
  simp only [e, Option.bind_eq_bind, Option.bind_some]
  rcases h with ⟨rfl, h1, h2, h3, h4⟩ | ⟨rfl, h1, h2, h3⟩
  · simp only [Bool.not_true, Bool.false_eq_true, if_false]
    by_cases hgt : b'.size > b.size
    · rw [if_pos hgt, wr_tail h2 h4 (by omega)]
      simp only [Option.bind_some]
      exact ⟨_, true, rfl, by simp; omega, Or.inl ⟨rfl, h1, rfl⟩⟩
    · rw [if_neg hgt]
      have : b'.size = b.size := by omega
      exact ⟨b', true, rfl, h2, Or.inl ⟨rfl, h1, by
        rw [this, Nat.sub_self, List.replicate_zero, List.append_nil, ← h4, List.take_of_length_le (by omega)]⟩⟩
  · simp only [Bool.not_false, if_true]
    exact ⟨b', false, rfl, by rw [h2]; exact hb, Or.inr ⟨rfl, h1, h2, h3⟩⟩

theorem greedyT_ex {b : Buf} (need ts : Nat) (ra : Option (Nat → Byte))
    (hb : b.mem.length = b.size * ts) (hts : 0 < ts)
    (hn : 2 * (need + 64) * ts ≤ W64) (hn2 : need ≤ 9223372036854775808) :
    ∃ b' ok, greedyT b need ts ra = some (b', ok) ∧
      ((ok = true ∧ need ≤ b'.size ∧ b'.mem.length = b'.size * ts ∧ b.size ≤ b'.size ∧
          b'.mem.take (b.size * ts) = b.mem) ∨
       (ok = false ∧ ra = none ∧ b' = b ∧ b.size < need)) := by
  unfold greedyT
  by_cases h : b.size ≥ need
  · rw [if_pos h]
    exact ⟨b, true, rfl, Or.inl ⟨rfl, h, hb, Nat.le_refl _, by rw [← hb]; simp⟩⟩
  · rw [if_neg h, if_neg (by omega)]
    obtain ⟨k, hk, e, hge, hlt⟩ := alignPow2_spec (u := if 64 > need then 64 else need)
      (by split <;> omega) (by split <;> omega)
    have hp : ¬ (2 ^ k = 0) := by have : 0 < 2 ^ k := Nat.pow_pos (by decide); omega
    have hge' : need ≤ 2 ^ k := by split at hge <;> omega
    have hlt' : 2 ^ k < 2 * (need + 64) := by split at hlt <;> omega
    have hmul : 2 ^ k * ts < W64 := Nat.lt_of_lt_of_le (Nat.mul_lt_mul_of_pos_right hlt' hts) hn
    rw [e]
    simp only [Option.bind_eq_bind, Option.bind_some, if_neg hp]
    cases ra with
    | none => exact ⟨b, false, rfl, Or.inr ⟨rfl, rfl, rfl, by omega⟩⟩
    | some junk =>
      have hle : b.mem.length ≤ 2 ^ k * ts := by
        rw [hb]; exact Nat.mul_le_mul_right ts (by omega)
      have := realloc_ex (mem := b.mem) (n := 2 ^ k * ts) junk hle
      simp only [Nat.mod_eq_of_lt hmul]
      exact ⟨_, true, rfl, Or.inl ⟨rfl, hge', this.1, by show b.size ≤ 2 ^ k; omega,
        by rw [← hb]; exact this.2⟩⟩

theorem greedy0T_ex {b : Buf} (need ts : Nat) (ra : Option (Nat → Byte))
    (hb : b.mem.length = b.size * ts) (hts : 0 < ts)
    (hn : 2 * (need + 64) * ts ≤ W64) (hn2 : need ≤ 9223372036854775808) :
    ∃ b' ok, greedy0T b need ts ra = some (b', ok) ∧ b'.mem.length = b'.size * ts ∧
      ((ok = true ∧ need ≤ b'.size ∧ b.size ≤ b'.size ∧
          b'.mem = b.mem ++ List.replicate ((b'.size - b.size) * ts) 0) ∨
       (ok = false ∧ ra = none ∧ b' = b ∧ b.size < need)) := by
  obtain ⟨b', ok, e, h⟩ := greedyT_ex need ts ra hb hts hn hn2
  unfold greedy0T
  simp only [e, Option.bind_eq_bind, Option.bind_some]
  rcases h with ⟨rfl, h1, h2, h3, h4⟩ | ⟨rfl, h1, h2, h3⟩
  · simp only [Bool.not_true, Bool.false_eq_true, if_false]
    by_cases hgt : b'.size > b.size
    · have hm : b.size * ts ≤ b'.size * ts := Nat.mul_le_mul_right ts h3
      rw [if_pos hgt, Nat.sub_mul, wr_tail h2 h4 hm]
      simp only [Option.bind_some]
      exact ⟨_, true, rfl, by simp; omega, Or.inl ⟨rfl, h1, h3, by simp [Nat.sub_mul]⟩⟩
    · rw [if_neg hgt]
      have hs : b'.size = b.size := by omega
      exact ⟨b', true, rfl, h2, Or.inl ⟨rfl, h1, h3, by
        rw [hs, Nat.sub_self, Nat.zero_mul, List.replicate_zero, List.append_nil, ← h4,
          List.take_of_length_le (by rw [h2, hs]; exact Nat.le_refl _)]⟩⟩
  · simp only [Bool.not_false, if_true]
    exact ⟨b', false, rfl, by rw [h2]; exact hb, Or.inr ⟨rfl, h1, h2, h3⟩⟩

/-! ## concatenation -/

theorem wr_split {b : List Byte} {i : Nat} {d : List Byte} (h : i + d.length ≤ b.length) :
    wr b i d = some (b.take i ++ d ++ b.drop (i + d.length)) := wr_some h

theorem strcat_ex (f s : List Byte) (junk : Nat → Byte) (h : f.length + s.length + 1 < W64) :
    strcat (some f) (some s) (some junk) = some (some (f ++ s ++ [0])) := by
  unfold strcat
  simp only [Option.getD_some, Nat.mod_eq_of_lt h]
  rw [if_neg (by omega)]
  unfold strcpyAt
  rw [wr_some (by simp)]
  simp only [Option.bind_eq_bind, Option.bind_some, List.take_zero, List.nil_append]
  rw [wr_some (by simp <;> omega)]
  simp only [Option.bind_some]
  have : List.take f.length (f ++ [0] ++ List.drop (0 + (f ++ [0]).length)
      (fresh junk (f.length + s.length + 1))) = f := by simp
  rw [this, List.drop_eq_nil_of_le (by simp <;> omega)]
  simp

theorem joinLen_ex (args : List (List Byte)) : ∀ len, len + args.flatten.length < W64 →
    joinLen args len = some (len + args.flatten.length) := by
  induction args with
  | nil => intro len _; simp [joinLen]
  | cons a t ih =>
    intro len h
    simp only [List.flatten_cons, List.length_append] at h
    unfold joinLen
    have e : (len + a.length) % W64 = len + a.length := Nat.mod_eq_of_lt (by omega)
    simp only [e]
    rw [if_neg (by omega), ih _ (by omega)]
    simp; omega

theorem joinCopy_ex (args : List (List Byte)) : ∀ (done rest : List Byte),
    args.flatten.length + 1 ≤ rest.length →
    ∃ rest', joinCopy args (done ++ rest) done.length =
        some (done ++ args.flatten ++ rest', done.length + args.flatten.length) ∧
      rest'.length + args.flatten.length = rest.length := by
  induction args with
  | nil => intro done rest _; exact ⟨rest, by simp [joinCopy], by simp⟩
  | cons a t ih =>
    intro done rest h
    simp only [List.flatten_cons, List.length_append] at h
    unfold joinCopy strcpyAt
    rw [wr_some (by simp; omega)]
    simp only [Option.bind_eq_bind, Option.bind_some]
    have e1 : List.take done.length (done ++ rest) = done := by simp
    have e2 : List.drop (done.length + (a ++ [0]).length) (done ++ rest) = rest.drop (a.length + 1) := by
      rw [List.drop_append]; simp
    rw [e1, e2]
    obtain ⟨r', e, hl⟩ := ih (done ++ a) ([0] ++ rest.drop (a.length + 1))
      (by simp only [List.length_append, List.length_drop, List.length_cons, List.length_nil]; omega)
    refine ⟨r', ?_, ?_⟩
    · have : done ++ (a ++ [0]) ++ List.drop (a.length + 1) rest =
          done ++ a ++ ([0] ++ List.drop (a.length + 1) rest) := by simp
      rw [this, ← List.length_append, e]
      simp only [List.flatten_cons, List.length_append, List.append_assoc, Option.some.injEq, Prod.mk.injEq, true_and]; omega
    · simp only [List.flatten_cons, List.length_append, List.length_drop, List.length_cons, List.length_nil] at hl ⊢; omega

/-! ## splitting -/

/-- accumulator form of the token specification -/
def tk (sep : Byte → Bool) : List Byte → List Byte → List (List Byte)
  | cur, [] => if cur = [] then [] else [cur]
  | cur, c :: rest =>
    if sep c then (if cur = [] then tk sep [] rest else cur :: tk sep [] rest)
    else tk sep (cur ++ [c]) rest

theorem pieces_ne_nil (sep : Byte → Bool) (s : List Byte) : Spec.pieces sep s ≠ [] := by
  cases s with
  | nil => simp [Spec.pieces]
  | cons c t =>
    unfold Spec.pieces
    split
    · simp
    · split <;> simp

theorem tk_spec (sep : Byte → Bool) (rest : List Byte) : ∀ cur,
    tk sep cur rest = match Spec.pieces sep rest with
      | p :: ps => ((cur ++ p) :: ps).filter (· ≠ [])
      | [] => [] := by
  induction rest with
  | nil => intro cur; simp only [tk, Spec.pieces]; by_cases h : cur = [] <;> simp [h]
  | cons c t ih =>
    intro cur
    unfold tk Spec.pieces
    by_cases hc : sep c
    · simp only [hc, if_true]
      have h0 := ih []
      rw [h0]
      have hne := pieces_ne_nil sep t
      cases hp : Spec.pieces sep t with
      | nil => exact absurd hp hne
      | cons p ps =>
        simp only [List.append_nil, List.nil_append]
        by_cases h : cur = [] <;> simp [h]
    · simp only [hc, Bool.false_eq_true, if_false]
      rw [ih]
      have hne := pieces_ne_nil sep t
      cases hp : Spec.pieces sep t with
      | nil => exact absurd hp hne
      | cons p ps => simp

theorem tk_nil (sep : Byte → Bool) (s : List Byte) : tk sep [] s = Spec.tokens sep s := by
  rw [tk_spec, Spec.tokens]
  cases Spec.pieces sep s <;> simp

/-- capacity invariant of the token vector -/
def StrvOk (v : Strv) : Prop := (v.toks.length + 1) * 8 ≤ v.size

theorem splitPush_ex {v : Strv} (tok : List Byte) (al : Alloc) (hv : StrvOk v)
    (hn : v.toks.length ≤ 1000000000000000000) (ha : al.malloc = true) :
    (∃ size, splitPush v tok al = some (⟨v.toks ++ [tok], size⟩, true) ∧
      StrvOk ⟨v.toks ++ [tok], size⟩) ∨ (splitPush v tok al = some (v, false) ∧ al.realloc = false) := by
  unfold splitPush
  unfold StrvOk at *
  by_cases h : v.size ≥ (v.toks.length + 2) * 8
  · simp only [if_pos h, Option.bind_eq_bind, Option.bind_some]
    simp only [Bool.not_true, Bool.false_eq_true, if_false, ha]
    rw [if_pos hv]
    exact Or.inl ⟨v.size, rfl, by simp; omega⟩
  · simp only [if_neg h]
    obtain ⟨k, hk, e, hge, -⟩ := alignPow2_spec
      (u := if 64 > (v.toks.length + 2) * 8 then 64 else (v.toks.length + 2) * 8)
      (by split <;> omega) (by split <;> omega)
    have hp : ¬ (2 ^ k = 0) := by have : 0 < 2 ^ k := Nat.pow_pos (by decide); omega
    have hge' : (v.toks.length + 2) * 8 ≤ 2 ^ k := by split at hge <;> omega
    simp only [e, Option.bind_eq_bind, Option.bind_some, if_neg hp]
    by_cases hra : al.realloc = true
    case neg =>
      right
      simp only [hra, Bool.false_eq_true, if_false, Option.bind_some]
      simp
    simp only [hra, if_true, Option.bind_some]
    simp only [Bool.not_true, Bool.false_eq_true, if_false, ha]
    rw [if_pos (by omega)]
    exact Or.inl ⟨2 ^ k, rfl, by simp; omega⟩

theorem splitLoop_ex (sep : List Byte) (al : Nat → Alloc) (ha : ∀ n, (al n).malloc = true)
    (rest : List Byte) : ∀ (pre cur : List Byte) (v : Strv),
    StrvOk v → v.toks.length ≤ pre.length → (pre ++ cur ++ rest).length ≤ 1000000000000000000 →
    (∃ v' p, splitLoop (pre ++ cur ++ rest) sep al rest (pre.length + cur.length) pre.length v =
        some (v', p, false) ∧ ∃ n, (al n).realloc = false) ∨
    ∃ v' cur' pre', splitLoop (pre ++ cur ++ rest) sep al rest (pre.length + cur.length) pre.length v =
        some (v', pre'.length, true) ∧ pre' ++ cur' = pre ++ cur ++ rest ∧ StrvOk v' ∧
        v'.toks.length ≤ pre'.length ∧
        v'.toks ++ (if cur' = [] then [] else [cur']) = v.toks ++ tk (· ∈ sep) cur rest := by
  induction rest with
  | nil =>
    intro pre cur v hv hl _
    exact Or.inr ⟨v, cur, pre, by simp [splitLoop], by simp, hv, hl, by simp [tk]⟩
  | cons c t ih =>
    intro pre cur v hv hl hlen
    unfold splitLoop
    by_cases hc : c ∈ sep
    · rw [if_pos hc]
      by_cases hcur : cur = []
      · subst hcur
        simp only [List.length_nil, Nat.add_zero, ne_eq, not_true, if_false]
        have hh := ih (pre ++ [c]) [] v hv (by simp; omega) (by simpa using hlen)
        simp only [List.append_nil, List.append_assoc, List.singleton_append, List.length_append,
          List.length_cons, List.length_nil, Nat.zero_add, Nat.add_zero] at hh
        obtain ⟨v', p, h1, h2⟩ | ⟨v', cur', pre', h1, h2, h3, h4, h5⟩ := hh
        · exact Or.inl ⟨v', p, by simpa using h1, h2⟩
        refine Or.inr ⟨v', cur', pre', by simpa using h1, by simpa using h2, h3, h4, ?_⟩
        rw [h5]; simp [tk, hc]
      · have hpos : 0 < cur.length := by cases cur <;> simp at *
        rw [if_pos (by omega)]
        have hrd : rd (pre ++ cur ++ c :: t) pre.length (pre.length + cur.length - pre.length) = some cur := by
          rw [rd_some (by simp <;> omega)]
          congr 1
          rw [show pre.length + cur.length - pre.length = cur.length by omega, List.append_assoc,
            List.drop_left, List.take_left]
        simp only [hrd, Option.bind_eq_bind, Option.bind_some]
        obtain ⟨size, e, hok⟩ | ⟨e, hra⟩ := splitPush_ex cur (al v.toks.length) hv
          (by simp only [List.length_append, List.length_cons] at hlen; omega) (ha _)
        case inr =>
          simp only [e, Option.bind_some, Bool.false_eq_true, if_false]
          exact Or.inl ⟨_, _, rfl, _, hra⟩
        simp only [e, Option.bind_some, if_true]
        have hh := ih (pre ++ cur ++ [c]) [] ⟨v.toks ++ [cur], size⟩ hok
          (by simp; omega) (by simpa using hlen)
        simp only [List.append_nil, List.append_assoc, List.singleton_append, List.length_append,
          List.length_cons, List.length_nil, Nat.zero_add, Nat.add_zero] at hh
        obtain ⟨v', p, h1, h2⟩ | ⟨v', cur', pre', h1, h2, h3, h4, h5⟩ := hh
        · exact Or.inl ⟨v', p, by simpa [Nat.add_assoc] using h1, h2⟩
        refine Or.inr ⟨v', cur', pre', ?_, by simpa using h2, h3, h4, ?_⟩
        · simpa [Nat.add_assoc] using h1
        · rw [h5]; simp [tk, hc, hcur]
    · rw [if_neg hc]
      have hh := ih pre (cur ++ [c]) v hv hl (by simpa using hlen)
      simp only [List.append_assoc, List.singleton_append, List.length_append, List.length_cons,
        List.length_nil, Nat.zero_add] at hh
      obtain ⟨v', p, h1, h2⟩ | ⟨v', cur', pre', h1, h2, h3, h4, h5⟩ := hh
      · exact Or.inl ⟨v', p, by simpa [Nat.add_assoc] using h1, h2⟩
      refine Or.inr ⟨v', cur', pre', ?_, by simpa using h2, h3, h4, ?_⟩
      · simpa [Nat.add_assoc] using h1
      · rw [h5]; simp [tk, hc]

theorem strsplitN_ex (str sep : List Byte) (al : Nat → Alloc)
    (ha : ∀ n, (al n).malloc = true)
    (hlen : str.length ≤ 1000000000000000000) :
    strsplitN str sep al true = some (some (Spec.tokens (· ∈ sep) str)) ∨
    (strsplitN str sep al true = some none ∧ ∃ n, (al n).realloc = false) := by
  unfold strsplitN
  have hh := splitLoop_ex sep al ha str [] [] ⟨[], 8⟩ (by simp [StrvOk]) (by simp) (by simpa using hlen)
  simp only [List.nil_append, List.length_nil, Nat.add_zero] at hh
  obtain ⟨v', p, h1, h2⟩ | ⟨v', cur', pre', h1, h2, h3, h4, h5⟩ := hh
  · right
    simp only [h1, Bool.not_true, Bool.false_eq_true, if_false, Option.bind_eq_bind, Option.bind_some]
    exact ⟨rfl, h2⟩
  simp only [h1, Bool.not_true, Bool.false_eq_true, if_false, Option.bind_eq_bind, Option.bind_some]
  rw [tk_nil] at h5
  have hsl : pre'.length + cur'.length = str.length := by rw [← h2]; simp
  by_cases hc : cur' = []
  · subst hc
    rw [if_neg (by simp at hsl; omega)]
    simp only [if_true, List.append_nil] at h5
    unfold StrvOk at h3
    left
    simp only [Bool.not_true, Bool.false_eq_true, if_false, if_pos h3]
    rw [h5]
  · have hpos : 0 < cur'.length := by cases cur' <;> simp at *
    rw [if_pos (by omega)]
    have hrd : rd str pre'.length (str.length - pre'.length) = some cur' := by
      rw [← h2, rd_some (by simp)]
      congr 1
      rw [List.drop_left, List.take_of_length_le (by simp)]
    obtain ⟨size, e, hok⟩ | ⟨e, hra⟩ := splitPush_ex cur' (al v'.toks.length) h3 (by omega) (ha _)
    case inr =>
      right
      simp only [hrd, e, Option.bind_some, Bool.not_false, if_true]
      exact ⟨trivial, _, hra⟩
    left
    simp only [hrd, e, Option.bind_some, Bool.not_true, Bool.false_eq_true, if_false]
    unfold StrvOk at hok
    rw [if_pos hok]
    rw [if_neg hc] at h5
    rw [h5]

theorem mem_pieces (sep : Byte → Bool) (s : List Byte) :
    ∀ p ∈ Spec.pieces sep s, ∀ c ∈ p, sep c = false := by
  induction s with
  | nil => simp [Spec.pieces]
  | cons c t ih =>
    unfold Spec.pieces
    by_cases hc : sep c
    · simp only [hc, if_true, List.mem_cons, forall_eq_or_imp]
      exact ⟨by simp, ih⟩
    · simp only [hc, Bool.false_eq_true, if_false]
      cases hp : Spec.pieces sep t with
      | nil => simp [hc]
      | cons p ps =>
        rw [hp] at ih
        simp only [List.mem_cons, forall_eq_or_imp] at *
        exact ⟨⟨by simpa using hc, ih.1⟩, ih.2⟩

theorem flatten_pieces (sep : Byte → Bool) (s : List Byte) :
    (Spec.pieces sep s).flatten = s.filter (fun c => !sep c) := by
  induction s with
  | nil => simp [Spec.pieces]
  | cons c t ih =>
    unfold Spec.pieces
    by_cases hc : sep c
    · simp [hc, ih]
    · simp only [hc, Bool.false_eq_true, if_false, List.filter_cons, Bool.not_false, if_true]
      rw [← ih]
      cases hp : Spec.pieces sep t <;> simp

theorem flatten_filter_ne (l : List (List Byte)) : (l.filter (· ≠ [])).flatten = l.flatten := by
  induction l with
  | nil => rfl
  | cons a t ih =>
    by_cases h : a = [] <;> simp [List.filter_cons, h] <;> simpa using ih

/-! ## paths -/

theorem take_tw (p : Byte → Bool) (l : List Byte) : l.take (l.takeWhile p).length = l.takeWhile p := by
  induction l with
  | nil => rfl
  | cons a t ih => by_cases h : p a <;> simp [h, ih]

theorem drop_tw (p : Byte → Bool) (l : List Byte) : l.drop (l.takeWhile p).length = l.dropWhile p := by
  induction l with
  | nil => rfl
  | cons a t ih => by_cases h : p a <;> simp [h, ih]

theorem comps_nil : Spec.comps [] = [] := by simp [Spec.comps, Spec.tokens, Spec.pieces]

theorem comps_slash (s : List Byte) : Spec.comps (ch '/' :: s) = Spec.comps s := by
  simp [Spec.comps, Spec.tokens, Spec.pieces]

theorem comps_span (s : List Byte) : Spec.comps (spanSlash s) = Spec.comps s := by
  induction s with
  | nil => rfl
  | cons c t ih =>
    unfold spanSlash at *
    by_cases hc : c = ch '/'
    · subst hc; rw [comps_slash, ← ih]; simp [List.dropWhile_cons]
    · simp [List.dropWhile_cons, hc]

theorem tk_run (sep : Byte → Bool) : ∀ (s cur : List Byte), tk sep cur s =
    (if cur ++ s.takeWhile (fun c => !sep c) = [] then [] else [cur ++ s.takeWhile (fun c => !sep c)])
      ++ tk sep [] (s.dropWhile (fun c => !sep c)) := by
  intro s
  induction s with
  | nil => intro cur; simp [tk]
  | cons c t ih =>
    intro cur
    by_cases hc : sep c
    · simp only [hc, List.takeWhile_cons, List.dropWhile_cons, Bool.not_true, Bool.false_eq_true, if_false,
        List.append_nil]
      simp only [tk, hc, if_true]
      by_cases h : cur = [] <;> simp [h]
    · simp only [tk, hc, List.takeWhile_cons, List.dropWhile_cons, Bool.not_false, if_true,
        Bool.false_eq_true, if_false]
      rw [ih]; simp

theorem comps_run {s : List Byte} (h : s ≠ []) (hh : s.head? ≠ some (ch '/')) :
    Spec.comps s = s.takeWhile (· ≠ ch '/') ::
      Spec.comps (s.drop (s.takeWhile (· ≠ ch '/')).length) := by
  have e : (fun c : Byte => !decide (c = ch '/')) = (fun c => decide (c ≠ ch '/')) := by
    funext c; simp
  have hd : s.drop (s.takeWhile (· ≠ ch '/')).length = s.dropWhile (· ≠ ch '/') := by
    exact drop_tw _ s
  rw [hd]
  unfold Spec.comps
  rw [← tk_nil, ← tk_nil, tk_run, e]
  simp only [List.nil_append]
  rw [if_neg]
  · rfl
  · cases s with
    | nil => exact absurd rfl h
    | cons c t =>
      have hc : c ≠ ch '/' := by simpa using hh
      simp [hc]

theorem spanSlash_head (s : List Byte) : (spanSlash s).head? ≠ some (ch '/') := by
  intro h
  have := List.head?_dropWhile_not (fun x => decide (x = ch '/')) s
  unfold spanSlash at h
  rw [h] at this
  simp at this

theorem pathLoop_spec (path pre : List Byte) :
    (∀ rest, pathLoop path pre = some rest →
      Spec.comps path = Spec.comps pre ++ Spec.comps rest ∧ rest <:+ path ∧
        rest.head? ≠ some (ch '/')) ∧
    (Spec.comps pre <+: Spec.comps path → (pathLoop path pre).isSome) := by
  fun_induction pathLoop path pre with
  | case1 path pre p q hq =>
    have : Spec.comps pre = [] := by rw [← comps_span]; show Spec.comps q = _; rw [hq, comps_nil]
    constructor
    · intro rest h
      simp only [Option.some.injEq] at h
      subst h
      exact ⟨by rw [this, List.nil_append]; exact (comps_span path).symm, List.dropWhile_suffix _,
        spanSlash_head path⟩
    · intro _; rfl
  | case2 path pre p q hq hp =>
    constructor
    · intro rest h; simp at h
    · intro h
      have hpath : Spec.comps path = [] := by rw [← comps_span]; show Spec.comps p = _; rw [hp, comps_nil]
      rw [hpath, List.prefix_nil, ← comps_span] at h
      have := comps_run hq (spanSlash_head pre)
      rw [this] at h; simp at h
  | case3 path pre p q hq hp pl ql hne =>
    constructor
    · intro rest h; simp at h
    · intro h
      exfalso
      rw [← comps_span path, ← comps_span pre, comps_run hp (spanSlash_head path),
        comps_run hq (spanSlash_head pre), List.cons_prefix_cons] at h
      have h1 := h.1
      have tw : ∀ l : List Byte, l.take (l.takeWhile (· ≠ ch '/')).length = l.takeWhile (· ≠ ch '/') := by
        intro l; exact take_tw _ l
      have hpl : ql = pl := congrArg List.length h1
      rcases hne with hne | hne
      · exact hne hpl.symm
      · apply hne
        have e1 : List.take pl p = _ := tw p
        have e2 : List.take ql q = _ := tw q
        rw [e1, ← hpl, e2]; exact h1.symm
  | case4 path pre p q hq hp pl ql hne ih =>
    have hpl : pl = ql := by
      by_cases h : pl = ql
      · exact h
      · exact absurd (Or.inl h) hne
    have htk : p.take pl = q.take pl := by
      by_cases h : p.take pl = q.take pl
      · exact h
      · exact absurd (Or.inr h) hne
    have tw : ∀ l : List Byte, l.take (l.takeWhile (· ≠ ch '/')).length = l.takeWhile (· ≠ ch '/') := by
      intro l; exact take_tw _ l
    have e1 : List.take pl p = p.takeWhile (· ≠ ch '/') := tw p
    have e2 : List.take ql q = q.takeWhile (· ≠ ch '/') := tw q
    have hh : p.takeWhile (· ≠ ch '/') = q.takeWhile (· ≠ ch '/') := by rw [← e1, htk, hpl, e2]
    have cp : Spec.comps path = p.takeWhile (· ≠ ch '/') :: Spec.comps (p.drop pl) := by
      rw [← comps_span path]; exact comps_run hp (spanSlash_head path)
    have cq : Spec.comps pre = q.takeWhile (· ≠ ch '/') :: Spec.comps (q.drop ql) := by
      rw [← comps_span pre]; exact comps_run hq (spanSlash_head pre)
    constructor
    · intro rest h
      obtain ⟨i1, i2, i3⟩ := ih.1 rest h
      refine ⟨?_, ?_, i3⟩
      · rw [cp, cq, hh, List.cons_append]
        congr 1
      · exact i2.trans ((List.drop_suffix _ _).trans (List.dropWhile_suffix _))
    · intro h
      rw [cp, cq, List.cons_prefix_cons] at h
      exact ih.2 h.2

end Verif.Str
