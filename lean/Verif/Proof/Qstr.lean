import Verif.Model.Qstr
import Verif.Spec.Qstr
import Verif.Proof.Str
/-! Helper lemmas for quoted strings. -/
namespace Verif.Qstr
open Verif.C
open Verif.Str

/-- the quote flag of the code as an option -/
def qo (q : Byte) : Option Byte := if q = 0 then none else some q

theorem unescape_spec (c : Byte) :
    Spec.escaped c = if unescape c ≠ 0 then [unescape c] else if c = 0 then [] else [ch '\\', c] := by
  unfold Spec.escaped Spec.escapes unescape
  simp only [List.lookup]
  by_cases h1 : c = ch 'a'
  · subst h1; decide
  by_cases h2 : c = ch 'b'
  · subst h2; decide
  by_cases h3 : c = ch 'f'
  · subst h3; decide
  by_cases h4 : c = ch 'n'
  · subst h4; decide
  by_cases h5 : c = ch 'r'
  · subst h5; decide
  by_cases h6 : c = ch 't'
  · subst h6; decide
  by_cases h7 : c = ch 'v'
  · subst h7; decide
  by_cases h8 : c = ch '"'
  · subst h8; decide
  by_cases h9 : c = ch '\''
  · subst h9; decide
  by_cases h10 : c = ch '\\'
  · subst h10; decide
  have b : ∀ x : Byte, c ≠ x → (c == x) = false := fun x h => by simpa using h
  simp only [h1, h2, h3, h4, h5, h6, h7, h8, h9, h10, b, if_false, ne_eq, not_true, not_false_eq_true]

/-- value with the escape flag of the code -/
def vl (esc : Bool) (q : Option Byte) (s : List Byte) : List Byte :=
  if esc then (match s with
    | [] => [ch '\\']
    | d :: r => Spec.escaped d ++ Spec.value q r) else Spec.value q s

theorem put_ex (s : Dec) (c : Byte) (h : s.pos < s.buf.length) :
    s.put c = some { s with buf := s.buf.take s.pos ++ [c] ++ s.buf.drop (s.pos + 1), pos := s.pos + 1 } := by
  unfold Dec.put
  rw [wr_some (by simp; omega)]
  rfl

theorem upd_take {b : List Byte} {p : Nat} (c : Byte) (h : p < b.length) :
    (b.take p ++ [c] ++ b.drop (p + 1)).take (p + 1) = b.take p ++ [c] := by
  rw [List.take_append_of_le_length (by simp; omega), List.take_of_length_le (by simp; omega)]

theorem upd_drop {b : List Byte} {p k : Nat} (c : Byte) (h : p < b.length) (hk : p < k) :
    (b.take p ++ [c] ++ b.drop (p + 1)).drop k = b.drop k := by
  rw [List.drop_append, List.drop_eq_nil_of_le (by simp; omega), List.nil_append, List.drop_drop]
  congr 1
  simp only [List.length_append, List.length_take, List.length_cons, List.length_nil]
  omega

theorem upd_len {b : List Byte} {p : Nat} (c : Byte) (h : p < b.length) :
    (b.take p ++ [c] ++ b.drop (p + 1)).length = b.length := by
  simp only [List.length_append, List.length_take, List.length_cons, List.length_nil, List.length_drop]
  omega

/-- One step of the decoder, seen through `vl`. -/
theorem decStep_ex {s : Dec} {i : Nat} {c : Byte} {rest : List Byte}
    (hd : s.buf.drop i = c :: rest) (hp : s.pos + (if s.escaped then 1 else 0) ≤ i)
    (hq : s.quoted = 0 ∨ s.quoted = ch '"' ∨ s.quoted = ch '\'') :
    ∃ s', decStep s i = some s' ∧ s'.buf.length = s.buf.length ∧ s'.buf.drop (i + 1) = rest ∧
      s'.pos + (if s'.escaped then 1 else 0) ≤ i + 1 ∧
      (s'.quoted = 0 ∨ s'.quoted = ch '"' ∨ s'.quoted = ch '\'') ∧
      ∀ r, s.buf.take s.pos ++ vl s.escaped (qo s.quoted) (c :: r) =
        s'.buf.take s'.pos ++ vl s'.escaped (qo s'.quoted) r := by
  have hil : i < s.buf.length := by
    have := congrArg List.length hd
    simp at this; omega
  have hc : s.buf[i]? = some c := by
    have := congrArg (·[0]?) hd
    simpa using this
  have hd1 : s.buf.drop (i + 1) = rest := by
    have := congrArg (List.drop 1) hd
    simpa [List.drop_drop] using this
  obtain ⟨b, p, e, q⟩ := s
  simp only at *
  unfold decStep
  simp only [hc, Option.bind_eq_bind, Option.bind_some]
  have hpl : p < b.length := by omega
  cases e with
  | true =>
    simp only [if_true] at *
    by_cases hu : unescape c ≠ 0
    · rw [if_pos hu, put_ex _ _ hpl]
      refine ⟨_, rfl, upd_len _ hpl, by rw [← hd1]; exact upd_drop (k := i + 1) _ hpl (Nat.lt_succ_of_le (show p ≤ i by omega)), by simp; omega, hq, ?_⟩
      intro r
      simp only [upd_take _ hpl, vl, if_true, unescape_spec, if_pos hu]
      simp
    · rw [if_neg hu]
      by_cases h0 : c = 0
      · rw [if_pos h0]
        refine ⟨_, rfl, rfl, hd1, by simp; omega, hq, ?_⟩
        intro r
        simp only [vl, if_true, unescape_spec, if_neg hu, if_pos h0]
        simp
      · rw [if_neg h0, put_ex _ _ hpl]
        have hc2 : (List.take p b ++ [ch '\\'] ++ List.drop (p + 1) b)[i]? = some c := by
          have := upd_drop (b := b) (p := p) (k := i) (ch '\\') hpl (by omega)
          rw [hd] at this
          have := congrArg (·[0]?) this
          simpa using this
        simp only [Option.bind_some, hc2]
        have hpl2 : p + 1 < (List.take p b ++ [ch '\\'] ++ List.drop (p + 1) b).length := by
          rw [upd_len _ hpl]; omega
        rw [put_ex _ _ hpl2]
        refine ⟨_, rfl, ?_, ?_, by simp; omega, hq, ?_⟩
        · simp only [upd_len _ hpl2, upd_len _ hpl]
        · simp only [upd_drop (k := i + 1) _ hpl2 (by omega), upd_drop (k := i + 1) _ hpl (by omega), hd1]
        · intro r
          have e := upd_take c hpl2
          rw [upd_take _ hpl] at e
          simp only [upd_take _ hpl, e, vl, if_true, unescape_spec, if_neg hu, if_neg h0]
          simp
  | false =>
    simp only [Bool.false_eq_true, if_false, Nat.add_zero] at *
    by_cases hb : c = ch '\\'
    · refine ⟨⟨b, p, true, q⟩, ?_, rfl, hd1, by simp; omega, hq, ?_⟩
      · simp only [hb, if_true]; split <;> rfl
      · intro r
        simp only [vl, Bool.false_eq_true, if_false, if_true, hb]
        conv => lhs; rw [Spec.value.eq_def]
        cases r <;> simp
    · simp only [if_neg hb]
      have keyput : c ≠ 0 → Spec.value (qo q) [c] = [c] →
          (∀ r, Spec.value (qo q) (c :: r) = c :: Spec.value (qo q) r) →
          ∃ s', Dec.put ⟨b, p, false, q⟩ c = some s' ∧ s'.buf.length = b.length ∧
            s'.buf.drop (i + 1) = rest ∧ s'.pos + (if s'.escaped then 1 else 0) ≤ i + 1 ∧
            (s'.quoted = 0 ∨ s'.quoted = ch '"' ∨ s'.quoted = ch '\'') ∧
            ∀ r, b.take p ++ vl false (qo q) (c :: r) =
              s'.buf.take s'.pos ++ vl s'.escaped (qo s'.quoted) r := by
        intro _ _ hv
        rw [put_ex _ _ hpl]
        refine ⟨_, rfl, upd_len _ hpl, by rw [← hd1]; exact upd_drop (k := i + 1) _ hpl (Nat.lt_succ_of_le (show p ≤ i by omega)), by simp; omega, hq, ?_⟩
        intro r
        simp only [upd_take _ hpl, vl, Bool.false_eq_true, if_false, hv]
        simp
      by_cases hq0 : q = 0
      · subst hq0
        simp only [ne_eq, not_true, if_false]
        by_cases h1 : c = ch '"' ∨ c = ch '\''
        · rw [if_pos h1]
          refine ⟨_, rfl, rfl, hd1, by simp; omega, Or.inr h1, ?_⟩
          intro r
          have hc0 : c ≠ 0 := by rcases h1 with rfl | rfl <;> decide
          have : qo 0 = none := rfl
          have e2 : qo c = some c := by simp [qo, hc0]
          simp only [vl, Bool.false_eq_true, if_false, this, e2]
          conv => lhs; rw [Spec.value.eq_def]
          simp [hb, h1]
        · rw [if_neg h1]
          have hv : ∀ r, Spec.value (qo 0) (c :: r) = if c = 0 then Spec.value (qo 0) r
              else c :: Spec.value (qo 0) r := by
            intro r
            have : qo 0 = none := rfl
            rw [this]
            conv => lhs; rw [Spec.value.eq_def]
            simp [hb, h1]
          by_cases h0 : c = 0
          · rw [if_pos h0]
            refine ⟨_, rfl, rfl, hd1, by simp; omega, hq, ?_⟩
            intro r
            simp only [vl, Bool.false_eq_true, if_false, hv, if_pos h0]
          · rw [if_neg h0]
            exact keyput h0 (by rw [hv, if_neg h0]; simp [Spec.value]) (fun r => by rw [hv, if_neg h0])
      · have e2 : qo q = some q := by simp [qo, hq0]
        simp only [ne_eq, hq0, not_false_eq_true, if_true]
        by_cases hqc : q = c
        · have hclose : (if c = ch '"' ∧ q = ch '"' then some (⟨b, p, false, 0⟩ : Dec)
              else if c = ch '\'' ∧ q = ch '\'' then some ⟨b, p, false, 0⟩
              else if c = 0 then some ⟨b, p, false, q⟩ else Dec.put ⟨b, p, false, q⟩ c) =
              some ⟨b, p, false, 0⟩ := by
            subst hqc
            rcases hq with h | h | h
            · exact absurd h hq0
            · rw [if_pos ⟨h, h⟩]
            · rw [if_neg, if_pos ⟨h, h⟩]
              subst h; decide
          rw [hclose]
          refine ⟨_, rfl, rfl, hd1, by simp; omega, Or.inl rfl, ?_⟩
          intro r
          have : qo 0 = none := rfl
          simp only [vl, Bool.false_eq_true, if_false, this, e2]
          conv => lhs; rw [Spec.value.eq_def]
          simp [hb, hqc]
        · have hv : ∀ r, Spec.value (qo q) (c :: r) = if c = 0 then Spec.value (qo q) r
              else c :: Spec.value (qo q) r := by
            intro r
            rw [e2]
            conv => lhs; rw [Spec.value.eq_def]
            simp [hb, hqc]
          rw [if_neg (by rintro ⟨h1, h2⟩; exact hqc (h2.trans h1.symm)),
            if_neg (by rintro ⟨h1, h2⟩; exact hqc (h2.trans h1.symm))]
          by_cases h0 : c = 0
          · rw [if_pos h0]
            refine ⟨_, rfl, rfl, hd1, by simp; omega, hq, ?_⟩
            intro r
            simp only [vl, Bool.false_eq_true, if_false, hv, if_pos h0]
          · rw [if_neg h0]
            exact keyput h0 (by rw [hv, if_neg h0]; simp [Spec.value]) (fun r => by rw [hv, if_neg h0])

theorem decLoop_ex (rest : List Byte) : ∀ (i : Nat) (s : Dec) (tail : List Byte),
    s.buf.drop i = rest ++ tail → s.pos + (if s.escaped then 1 else 0) ≤ i →
    (s.quoted = 0 ∨ s.quoted = ch '"' ∨ s.quoted = ch '\'') →
    ∃ s', decLoop rest.length i s = some s' ∧ s'.buf.length = s.buf.length ∧
      s'.pos + (if s'.escaped then 1 else 0) ≤ i + rest.length ∧
      s'.buf.take s'.pos ++ (if s'.escaped then [ch '\\'] else []) =
        s.buf.take s.pos ++ vl s.escaped (qo s.quoted) rest := by
  induction rest with
  | nil =>
    intro i s tail hd hp hq
    refine ⟨s, rfl, rfl, by simpa using hp, ?_⟩
    unfold vl
    cases s.escaped <;> simp [Spec.value]
  | cons c rest ih =>
    intro i s tail hd hp hq
    obtain ⟨s1, e1, hl1, hd1, hp1, hq1, hv1⟩ := decStep_ex (rest := rest ++ tail) hd hp hq
    obtain ⟨s2, e2, hl2, hp2, hv2⟩ := ih (i + 1) s1 tail hd1 hp1 hq1
    refine ⟨s2, ?_, by omega, by simp only [List.length_cons]; omega, ?_⟩
    · simp only [List.length_cons, decLoop, e1, e2, Option.bind_eq_bind, Option.bind_some]
    · rw [hv1 rest, hv2]

theorem value_nz (q : Option Byte) (s : List Byte) : (0 : Byte) ∉ Spec.value q s := by
  fun_induction Spec.value q s with
  | case1 => simp
  | case2 => decide
  | case3 q d rest' ih =>
    rw [List.mem_append]
    rintro (h' | h')
    · rw [unescape_spec] at h'
      split at h'
      · simp only [List.mem_singleton] at h'; simp_all
      · split at h'
        · simp at h'
        · simp only [List.mem_cons, List.not_mem_nil, or_false] at h'
          rcases h' with h' | h'
          · revert h'; decide
          · simp_all
    · exact ih h'
  | case4 => assumption
  | case5 => assumption
  | case6 => assumption
  | case7 q c rest h1 h2 h3 h4 ih =>
    simp only [List.mem_cons]
    rintro (h' | h')
    · exact h4 h'.symm
    · exact ih h'

theorem value_len (q : Option Byte) (s : List Byte) : (Spec.value q s).length ≤ s.length := by
  fun_induction Spec.value q s with
  | case1 => simp
  | case2 => simp
  | case3 q d rest' ih =>
    rw [unescape_spec]
    simp only [List.length_append, List.length_cons]
    split
    · simp only [List.length_cons, List.length_nil]; omega
    · split
      · simp only [List.length_nil]; omega
      · simp only [List.length_cons, List.length_nil]; omega
  | case4 => simp only [List.length_cons]; omega
  | case5 => simp only [List.length_cons]; omega
  | case6 => simp only [List.length_cons]; omega
  | case7 => simp only [List.length_cons]; omega

theorem cstr_prefix {b s t : List Byte} (h : b = s ++ 0 :: t) (hs : (0 : Byte) ∉ s) : cstr b = some s := by
  subst h
  unfold cstr
  rw [if_pos (by simp)]
  congr 1
  have hall : ∀ a ∈ s, decide (a ≠ 0) = true := by
    intro a ha
    have : a ≠ 0 := fun h => hs (h ▸ ha)
    simpa using this
  rw [List.takeWhile_append_of_pos hall]
  simp

theorem decode_ex (raw : List Byte) (t : Byte) :
    ∃ b, decode (raw ++ [t]) raw.length = some b ∧ b.length = raw.length + 1 ∧
      cstr b = some (Spec.value none raw) := by
  obtain ⟨s, e, hl, hp, hv⟩ := decLoop_ex raw 0 ⟨raw ++ [t], 0, false, 0⟩ [t] (by simp) (by simp) (Or.inl rfl)
  simp only [List.length_append, List.length_cons, List.length_nil, Nat.zero_add, List.take_zero,
    List.nil_append, vl, Bool.false_eq_true, if_false, show qo 0 = none from rfl] at hl hp hv
  unfold decode
  simp only [e, Option.bind_eq_bind, Option.bind_some]
  have hnz := value_nz none raw
  cases hesc : s.escaped with
  | true =>
    rw [hesc] at hp hv
    simp only [if_true] at hp hv ⊢
    have hpl : s.pos < s.buf.length := by omega
    have hpl2 : s.pos + 1 < (List.take s.pos s.buf ++ [ch '\\'] ++ List.drop (s.pos + 1) s.buf).length := by
      rw [upd_len _ hpl]; omega
    rw [put_ex _ _ hpl]
    simp only [Option.bind_some]
    rw [wr_some (by simp only [List.length_cons, List.length_nil]; omega)]
    refine ⟨_, rfl, ?_, ?_⟩
    · simp only [List.length_cons, List.length_nil, Nat.zero_add]
      rw [upd_len _ hpl2, upd_len _ hpl]; omega
    · rw [upd_take _ hpl, hv, List.append_assoc]
      exact cstr_prefix rfl hnz
  | false =>
    rw [hesc] at hp hv
    simp only [Bool.false_eq_true, if_false, List.append_nil, Nat.add_zero] at hp hv ⊢
    have hpl : s.pos < s.buf.length := by omega
    rw [wr_some (by simp only [List.length_cons, List.length_nil]; omega)]
    refine ⟨_, rfl, ?_, ?_⟩
    · simp only [List.length_cons, List.length_nil, Nat.zero_add]
      rw [upd_len _ hpl]; omega
    · rw [hv, List.append_assoc]
      exact cstr_prefix rfl hnz

theorem push_ex {v : Strv} (raw : List Byte) (al : QAlloc) (hv : StrvOk v)
    (hn : v.toks.length ≤ 1000000000000000000) (ha : al.malloc.isSome = true) :
    (∃ size, push v raw al = some (⟨v.toks ++ [Spec.value none raw], size⟩, true) ∧
      StrvOk ⟨v.toks ++ [Spec.value none raw], size⟩) ∨
    (push v raw al = some (v, false) ∧ al.realloc = false) := by
  obtain ⟨junk, hj⟩ := Option.isSome_iff_exists.1 ha
  have hmem : ∃ b, (do
      let ns ← wr (fresh junk (raw.length + 1)) 0 raw
      let ns ← wr ns raw.length [0]
      decode ns raw.length) = some b ∧ cstr b = some (Spec.value none raw) := by
    rw [wr_some (by simp)]
    simp only [Option.bind_eq_bind, Option.bind_some, List.take_zero, List.nil_append, Nat.zero_add]
    rw [wr_some (by simp)]
    simp only [Option.bind_some]
    have e : List.take raw.length (raw ++ List.drop raw.length (fresh junk (raw.length + 1))) ++ [(0 : Byte)] ++
        List.drop (raw.length + [(0 : Byte)].length) (raw ++ List.drop raw.length (fresh junk (raw.length + 1))) =
        raw ++ [0] := by
      rw [List.take_left, List.drop_eq_nil_of_le (by simp)]; simp
    rw [e]
    obtain ⟨b, h1, -, h2⟩ := decode_ex raw 0
    exact ⟨b, h1, h2⟩
  obtain ⟨b, hb, hcs⟩ := hmem
  have hfin : ∀ size, (v.toks.length + 1) * 8 ≤ size → (do
      let junk ← al.malloc
      let ns ← wr (fresh junk (raw.length + 1)) 0 raw
      let ns ← wr ns raw.length [0]
      let ns ← decode ns raw.length
      let tok ← cstr ns
      if (v.toks.length + 1) * 8 ≤ size then some ((⟨v.toks ++ [tok], size⟩ : Strv), true)
      else none) = some (⟨v.toks ++ [Spec.value none raw], size⟩, true) := by
    intro size hsz
    simp only [hj, Option.bind_eq_bind, Option.bind_some] at hb ⊢
    cases h1 : wr (fresh junk (raw.length + 1)) 0 raw with
    | none => simp [h1] at hb
    | some ns1 =>
      simp only [h1, Option.bind_some] at hb ⊢
      cases h2 : wr ns1 raw.length [0] with
      | none => simp [h2] at hb
      | some ns2 =>
        simp only [h2, Option.bind_some] at hb ⊢
        simp only [hb, Option.bind_some, hcs]
        rw [if_pos hsz]
  unfold push
  unfold StrvOk at *
  by_cases h : v.size ≥ (v.toks.length + 2) * 8
  · simp only [if_pos h, Option.bind_eq_bind, Option.bind_some, Bool.not_true, Bool.false_eq_true, if_false]
    left
    exact ⟨v.size, hfin _ hv, by simp; omega⟩
  · simp only [if_neg h]
    obtain ⟨k, hk, e, hge, -⟩ := Ring.alignPow2_spec
      (u := if 64 > (v.toks.length + 2) * 8 then 64 else (v.toks.length + 2) * 8)
      (by split <;> omega) (by split <;> omega)
    have hp : ¬ (2 ^ k = 0) := by have : 0 < 2 ^ k := Nat.pow_pos (by decide); omega
    have hge' : (v.toks.length + 2) * 8 ≤ 2 ^ k := by split at hge <;> omega
    simp only [e, Option.bind_eq_bind, Option.bind_some, if_neg hp]
    by_cases hra : al.realloc = true
    case neg =>
      right
      simp only [hra, Bool.false_eq_true, if_false, Option.bind_some]
      simp
    simp only [hra, if_true, Option.bind_some, Bool.not_true, Bool.false_eq_true, if_false]
    left
    exact ⟨2 ^ k, hfin _ (by omega), by simp; omega⟩

/-- words with the escape flag of the code -/
def wd (esc : Bool) (q : Option Byte) (cur : List Byte) (s : List Byte) : List (List Byte) :=
  if esc then (match s with
    | [] => if cur = [] then [] else [cur]
    | d :: r => Spec.words q (cur ++ [d]) r) else Spec.words q cur s

theorem wd_backslash (q : Option Byte) (cur r : List Byte) :
    wd false q cur (ch '\\' :: r) = wd true q (cur ++ [ch '\\']) r := by
  unfold wd
  simp only [Bool.false_eq_true, if_false, if_true]
  cases r with
  | nil => simp [Spec.words]
  | cons d r =>
    conv => lhs; rw [Spec.words.eq_def]
    simp

theorem words_cons (q : Option Byte) (cur : List Byte) (c : Byte) (rest : List Byte) (h : c ≠ ch '\\') :
    Spec.words q cur (c :: rest) =
    (if q = some c then Spec.words none (cur ++ [c]) rest
    else if q = none ∧ (c = ch '"' ∨ c = ch '\'') then Spec.words (some c) (cur ++ [c]) rest
    else if q = none ∧ c = ch ' ' then
      if cur = [] then Spec.words none [] rest else cur :: Spec.words none [] rest
    else Spec.words q (cur ++ [c]) rest) := by
  conv => lhs; rw [Spec.words.eq_def]
  simp only [if_neg h]

theorem tokLoop_ex (al : Nat → QAlloc) (ha : ∀ n, (al n).malloc.isSome = true)
    (rest : List Byte) : ∀ (pre cur : List Byte) (esc : Bool) (q : Byte) (v : Strv),
    StrvOk v → v.toks.length ≤ pre.length → (pre ++ cur ++ rest).length ≤ 1000000000000000000 →
    (q = 0 ∨ q = ch '"' ∨ q = ch '\'') →
    (∃ v' p, tokLoop (pre ++ cur ++ rest) al rest (pre.length + cur.length) pre.length esc q v =
        some (v', p, false) ∧ ∃ n, (al n).realloc = false) ∨
    ∃ v' cur' pre', tokLoop (pre ++ cur ++ rest) al rest (pre.length + cur.length) pre.length esc q v =
        some (v', pre'.length, true) ∧ pre' ++ cur' = pre ++ cur ++ rest ∧ StrvOk v' ∧
        v'.toks.length ≤ pre'.length ∧
        v'.toks ++ (if cur' = [] then [] else [Spec.value none cur']) =
          v.toks ++ (wd esc (qo q) cur rest).map (Spec.value none) := by
  induction rest with
  | nil =>
    intro pre cur esc q v hv hl _ _
    refine Or.inr ⟨v, cur, pre, by simp [tokLoop], by simp, hv, hl, ?_⟩
    congr 1
    unfold wd
    cases esc <;> simp only [Bool.false_eq_true, if_false, if_true, Spec.words] <;> split <;> simp
  | cons c t ih =>
    intro pre cur esc q v hv hl hlen hq
    -- continuing with the character added to the current word
    have cont : ∀ esc' q', (q' = 0 ∨ q' = ch '"' ∨ q' = ch '\'') →
        wd esc (qo q) cur (c :: t) = wd esc' (qo q') (cur ++ [c]) t →
        (∃ v' p, tokLoop (pre ++ cur ++ c :: t) al t (pre.length + cur.length + 1) pre.length esc' q' v =
          some (v', p, false) ∧ ∃ n, (al n).realloc = false) ∨
        ∃ v' cur' pre', tokLoop (pre ++ cur ++ c :: t) al t (pre.length + cur.length + 1) pre.length esc' q' v =
          some (v', pre'.length, true) ∧ pre' ++ cur' = pre ++ cur ++ c :: t ∧ StrvOk v' ∧
          v'.toks.length ≤ pre'.length ∧
          v'.toks ++ (if cur' = [] then [] else [Spec.value none cur']) =
            v.toks ++ (wd esc (qo q) cur (c :: t)).map (Spec.value none) := by
      intro esc' q' hq' hw
      have hh := ih pre (cur ++ [c]) esc' q' v hv hl (by simpa using hlen) hq'
      simp only [List.append_assoc, List.singleton_append, List.length_append, List.length_cons,
        List.length_nil, Nat.zero_add] at hh
      rw [hw]
      simp only [List.append_assoc, Nat.add_assoc]
      exact hh
    unfold tokLoop
    cases esc with
    | true =>
      simp only [if_true]
      exact cont false q hq rfl
    | false =>
      simp only [Bool.false_eq_true, if_false]
      by_cases hb : c = ch '\\'
      · rw [if_pos hb]
        exact cont true q hq (by rw [hb]; exact wd_backslash _ _ _)
      rw [if_neg hb]
      have hwd : ∀ q cur, wd false q cur (c :: t) = _ := fun q cur => words_cons q cur c t hb
      by_cases hq0 : q = 0
      · subst hq0
        simp only [ne_eq, not_true, if_false]
        have e0 : qo 0 = none := rfl
        by_cases h1 : c = ch '"'
        · rw [if_pos h1]
          exact cont false (ch '"') (by simp) (by rw [hwd, e0]; subst h1; simp [wd, qo]; rfl)
        rw [if_neg h1]
        by_cases h2 : c = ch '\''
        · rw [if_pos h2]
          exact cont false (ch '\'') (by simp) (by rw [hwd, e0]; subst h2; simp [wd, qo]; rfl)
        rw [if_neg h2]
        by_cases h3 : c = ch ' '
        · rw [if_pos h3]
          have hw : wd false (qo 0) cur (c :: t) =
              if cur = [] then wd false (qo 0) [] t else cur :: wd false (qo 0) [] t := by
            rw [hwd, e0, if_neg (by simp), if_neg (by simp [h1, h2]), if_pos ⟨rfl, h3⟩]; rfl
          rw [hw]
          by_cases hcur : cur = []
          · subst hcur
            simp only [List.length_nil, Nat.add_zero, ne_eq, not_true, if_false, if_true]
            have hh := ih (pre ++ [c]) [] false 0 v hv (by simp; omega) (by simpa using hlen) (Or.inl rfl)
            simp only [List.append_nil, List.append_assoc, List.singleton_append, List.length_append,
              List.length_cons, List.length_nil, Nat.zero_add, Nat.add_zero] at hh
            simpa using hh
          · have hpos : 0 < cur.length := by cases cur <;> simp at *
            rw [if_pos (by omega), if_neg hcur]
            have hrd : rd (pre ++ cur ++ c :: t) pre.length (pre.length + cur.length - pre.length) = some cur := by
              rw [rd_some (by simp <;> omega)]
              congr 1
              rw [show pre.length + cur.length - pre.length = cur.length by omega, List.append_assoc,
                List.drop_left, List.take_left]
            simp only [hrd, Option.bind_eq_bind, Option.bind_some]
            obtain ⟨size, e, hok⟩ | ⟨e, hra⟩ := push_ex cur (al v.toks.length) hv
              (by simp only [List.length_append, List.length_cons] at hlen; omega) (ha _)
            case inr =>
              simp only [e, Option.bind_some, Bool.false_eq_true, if_false]
              exact Or.inl ⟨_, _, rfl, _, hra⟩
            simp only [e, Option.bind_some, if_true]
            have hh := ih (pre ++ cur ++ [c]) [] false 0 ⟨v.toks ++ [Spec.value none cur], size⟩ hok
              (by simp; omega) (by simpa using hlen) (Or.inl rfl)
            simp only [List.append_nil, List.append_assoc, List.singleton_append, List.length_append,
              List.length_cons, List.length_nil, Nat.zero_add, Nat.add_zero] at hh
            simpa [Nat.add_assoc] using hh
        · rw [if_neg h3]
          exact cont false 0 (Or.inl rfl) (by
            rw [hwd, e0, if_neg (by simp), if_neg (by simp [h1, h2]), if_neg (by simp [h3])]; rfl)
      · simp only [ne_eq, hq0, not_false_eq_true, if_true]
        have e2 : qo q = some q := by simp [qo, hq0]
        by_cases hqc : q = c
        · have hw : wd false (qo q) cur (c :: t) = wd false (qo 0) (cur ++ [c]) t := by
            rw [hwd, e2, if_pos (by rw [hqc])]; rfl
          rcases hq with h | h | h
          · exact absurd h hq0
          · rw [if_pos ⟨by rw [← hqc, h], h⟩]
            exact cont false 0 (Or.inl rfl) hw
          · rw [if_neg (by rintro ⟨-, h2⟩; rw [h] at h2; revert h2; decide), if_pos ⟨by rw [← hqc, h], h⟩]
            exact cont false 0 (Or.inl rfl) hw
        · rw [if_neg (by rintro ⟨h1, h2⟩; exact hqc (h2.trans h1.symm)),
            if_neg (by rintro ⟨h1, h2⟩; exact hqc (h2.trans h1.symm))]
          exact cont false q hq (by
            rw [hwd, e2, if_neg (by simp [hqc]), if_neg (by simp), if_neg (by simp)]; rfl)

theorem tokenize_ex (str : List Byte) (al : Nat → QAlloc) (ha : ∀ n, (al n).malloc.isSome = true)
    (hlen : str.length ≤ 1000000000000000000) :
    tokenize str al true = some (some (Spec.tokens str)) ∨
    (tokenize str al true = some none ∧ ∃ n, (al n).realloc = false) := by
  unfold tokenize
  have hh := tokLoop_ex al ha str [] [] false 0 ⟨[], 8⟩ (by simp [StrvOk]) (by simp) (by simpa using hlen)
    (Or.inl rfl)
  simp only [List.nil_append, List.length_nil, Nat.add_zero] at hh
  obtain ⟨v', p, h1, h2⟩ | ⟨v', cur', pre', h1, h2, h3, h4, h5⟩ := hh
  · right
    simp only [h1, Bool.not_true, Bool.false_eq_true, if_false, Option.bind_eq_bind, Option.bind_some]
    exact ⟨rfl, h2⟩
  simp only [h1, Bool.not_true, Bool.false_eq_true, if_false, Option.bind_eq_bind, Option.bind_some]
  have hspec : (wd false (qo 0) [] str).map (Spec.value none) = Spec.tokens str := rfl
  rw [hspec] at h5
  have hsl : pre'.length + cur'.length = str.length := by rw [← h2]; simp
  by_cases hc : cur' = []
  · subst hc
    rw [if_neg (by simp at hsl; omega)]
    simp only [if_true, List.append_nil] at h5
    unfold StrvOk at h3
    left
    simp only [if_pos h3]
    rw [h5]
  · have hpos : 0 < cur'.length := by cases cur' <;> simp at *
    rw [if_pos (by omega)]
    have hrd : rd str pre'.length (str.length - pre'.length) = some cur' := by
      rw [← h2, rd_some (by simp)]
      congr 1
      rw [List.drop_left, List.take_of_length_le (by simp)]
    obtain ⟨size, e, hok⟩ | ⟨e, hra⟩ := push_ex cur' (al v'.toks.length) h3 (by omega) (ha _)
    case inr =>
      right
      simp only [hrd, e, Option.bind_some, Bool.not_false, if_true]
      exact ⟨trivial, _, hra⟩
    left
    simp only [hrd, e, Option.bind_some, Bool.not_true, Bool.false_eq_true, if_false]
    unfold StrvOk at hok
    rw [if_pos hok]
    rw [if_neg hc] at h5
    rw [h5]


/-! ## joining -/

/-- the encoding of one byte -/
def encC (c : Byte) : List Byte := if c = ch '\\' ∨ c = ch '"' then [ch '\\', c] else [c]

/-- the encoding of the bytes of a string -/
def body (s : List Byte) : List Byte := s.flatMap encC

/-- the encoding of a string -/
def enc (s : List Byte) : List Byte :=
  if needQuote s then [ch '"'] ++ body s ++ [ch '"'] else body s

/-- the line built so far followed by more strings -/
def lineF : List Byte → List (List Byte) → List Byte
  | done, [] => done
  | done, s :: t => lineF ((if done = [] then [] else done ++ [ch ' ']) ++ enc s) t

/-- what the join reserves -/
def room (strv : List (List Byte)) : Nat := (strv.map (fun s => s.length * 2 + 4)).sum

theorem body_cons (c : Byte) (s : List Byte) : body (c :: s) = encC c ++ body s := by simp [body]

theorem body_len (s : List Byte) : (body s).length ≤ 2 * s.length := by
  induction s with
  | nil => simp [body]
  | cons c t ih =>
    rw [body_cons, List.length_append, List.length_cons]
    have : (encC c).length ≤ 2 := by unfold encC; split <;> simp
    omega

theorem enc_len (s : List Byte) : (enc s).length ≤ 2 * s.length + 2 := by
  have := body_len s
  unfold enc
  split <;> simp <;> omega

theorem wr_at {done rest d : List Byte} (h : d.length ≤ rest.length) :
    wr (done ++ rest) done.length d = some (done ++ d ++ rest.drop d.length) := by
  rw [wr_some (by simp; omega), List.take_left]
  congr 2
  rw [List.drop_append, List.drop_eq_nil_of_le (by omega), List.nil_append]
  congr 1; omega

theorem encLoop_ex (src : List Byte) : ∀ (done rest : List Byte), (body src).length ≤ rest.length →
    encLoop src (done ++ rest) done.length =
      some (done ++ body src ++ rest.drop (body src).length, done.length + (body src).length) := by
  induction src with
  | nil => intro done rest _; simp [encLoop, body]
  | cons c t ih =>
    intro done rest h
    rw [body_cons] at h ⊢
    rw [List.length_append] at h
    unfold encLoop
    by_cases hc : c = ch '\\' ∨ c = ch '"'
    · have hE : encC c = [ch '\\', c] := by simp [encC, hc]
      rw [hE] at h ⊢
      simp only [List.length_cons, List.length_nil] at h
      rw [if_pos hc, wr_at (by simp; omega)]
      simp only [Option.bind_eq_bind, Option.bind_some, List.length_cons, List.length_nil, Nat.zero_add]
      have := wr_at (done := done ++ [ch '\\']) (rest := rest.drop 1) (d := [c]) (by simp; omega)
      simp only [List.length_append, List.length_cons, List.length_nil, Nat.zero_add] at this
      rw [this]
      simp only [Option.bind_some]
      have := ih (done ++ [ch '\\'] ++ [c]) (rest.drop 2) (by simp; omega)
      simp only [List.length_append, List.length_cons, List.length_nil, Nat.zero_add, Nat.add_assoc] at this
      simp only [List.drop_drop]
      rw [this]
      simp [List.drop_drop]; omega
    · have hE : encC c = [c] := by simp [encC, hc]
      rw [hE] at h ⊢
      simp only [List.length_cons, List.length_nil] at h
      rw [if_neg hc, wr_at (by simp; omega)]
      simp only [Option.bind_eq_bind, Option.bind_some, List.length_cons, List.length_nil, Nat.zero_add]
      have := ih (done ++ [c]) (rest.drop 1) (by simp; omega)
      simp only [List.length_append, List.length_cons, List.length_nil, Nat.zero_add] at this
      rw [this]
      simp [List.drop_drop]; omega

theorem encode_ex (src done rest : List Byte) (h : (enc src).length ≤ rest.length) :
    encode (done ++ rest) done.length src (needQuote src) =
      some (done ++ enc src ++ rest.drop (enc src).length, done.length + (enc src).length) := by
  unfold encode
  unfold enc at h ⊢
  cases hq : needQuote src with
  | false =>
    rw [hq] at h
    simp only [Bool.false_eq_true, if_false, Option.bind_eq_bind, Option.bind_some] at h ⊢
    rw [encLoop_ex src done rest h]
    simp
  | true =>
    rw [hq] at h
    simp only [if_true, List.length_append, List.length_cons, List.length_nil, Nat.zero_add] at h ⊢
    rw [wr_at (by simp; omega)]
    simp only [Option.bind_eq_bind, Option.bind_some, pure]
    have := encLoop_ex src (done ++ [ch '"']) (rest.drop 1) (by simp; omega)
    simp only [List.length_append, List.length_cons, List.length_nil, Nat.zero_add] at this ⊢
    rw [this]
    simp only [Option.bind_some, List.drop_drop]
    have := wr_at (done := done ++ [ch '"'] ++ body src) (rest := rest.drop (1 + (body src).length))
      (d := [ch '"']) (by simp; omega)
    simp only [List.length_append, List.length_cons, List.length_nil, Nat.zero_add] at this
    rw [this]
    simp [List.drop_drop]; omega

theorem joinLoop_ex (al : Nat → Option (Nat → Byte)) (strv : List (List Byte)) :
    ∀ (done rest : List Byte), 0 < rest.length →
    done.length + room strv ≤ 1000000000000000000 →
    (joinLoop al strv ⟨done ++ rest, (done ++ rest).length⟩ done.length = some none ∧ ∃ k, al k = none) ∨
    ∃ rest', joinLoop al strv ⟨done ++ rest, (done ++ rest).length⟩ done.length =
        some (some (⟨lineF done strv ++ rest', (lineF done strv ++ rest').length⟩, (lineF done strv).length)) ∧
      0 < rest'.length := by
  induction strv with
  | nil => intro done rest h _; exact Or.inr ⟨rest, by simp [joinLoop, lineF], h⟩
  | cons s t ih =>
    intro done rest hr hroom
    have hroom' : room (s :: t) = s.length * 2 + 4 + room t := by simp [room]
    rw [hroom'] at hroom
    have hW : W64 = 18446744073709551616 := rfl
    have e1 : s.length * 2 % W64 = s.length * 2 := Nat.mod_eq_of_lt (by omega)
    have e2 : (s.length * 2 + done.length) % W64 = s.length * 2 + done.length := Nat.mod_eq_of_lt (by omega)
    have e3 : (s.length * 2 + done.length + 4) % W64 = s.length * 2 + done.length + 4 :=
      Nat.mod_eq_of_lt (by omega)
    unfold joinLoop
    simp only [e1, e2, e3]
    rw [if_neg (by omega), if_neg (by omega), if_neg (by omega)]
    obtain ⟨b', ok, e, h⟩ := greedyT_ex (b := ⟨done ++ rest, (done ++ rest).length⟩)
      (s.length * 2 + done.length + 4) 1 (al t.length) (by simp) (by decide) (by omega) (by omega)
    simp only [e, Option.bind_eq_bind, Option.bind_some]
    rcases h with ⟨rfl, h1, h2, h3, h4⟩ | ⟨rfl, h1, -, -⟩
    case inr => exact Or.inl ⟨by simp, _, h1⟩
    simp only [Bool.true_eq_false, if_false]
    -- the new block extends the old one
    obtain ⟨ext, hext⟩ : ∃ ext, b'.mem = done ++ ext ∧
        s.length * 2 + 4 ≤ ext.length := by
      refine ⟨rest ++ b'.mem.drop (done ++ rest).length, ?_, ?_⟩
      · have := List.take_append_drop ((done ++ rest).length * 1) b'.mem
        rw [h4, Nat.mul_one] at this
        rw [← List.append_assoc]; exact this.symm
      · simp only [List.length_append, List.length_drop] at h1 h3 ⊢
        omega
    have hsz : b'.size = b'.mem.length := by omega
    rw [hsz, hext.1]
    have hel := enc_len s
    by_cases hd : done = []
    · subst hd
      simp only [List.length_nil, ne_eq, not_true, if_false, Option.bind_some, List.nil_append]
      have := encode_ex s [] ext (by omega)
      simp only [List.nil_append, List.length_nil, Nat.zero_add] at this
      rw [this]
      simp only [Option.bind_some]
      have hlen : ext.length = (enc s ++ ext.drop (enc s).length).length := by simp; omega
      rw [hlen]
      have := ih (enc s) (ext.drop (enc s).length) (by simp; omega) (by omega)
      simpa [lineF] using this
    · have hdl : done.length ≠ 0 := by simpa using hd
      simp only [ne_eq, hdl, not_false_eq_true, if_true]
      rw [wr_at (by simp; omega)]
      simp only [Option.bind_some, List.length_cons, List.length_nil, Nat.zero_add]
      have := encode_ex s (done ++ [ch ' ']) (ext.drop 1) (by simp; omega)
      simp only [List.length_append, List.length_cons, List.length_nil, Nat.zero_add] at this
      rw [this]
      simp only [Option.bind_some, List.drop_drop]
      have hlen : (done ++ ext).length =
          (done ++ [ch ' '] ++ enc s ++ ext.drop (1 + (enc s).length)).length := by simp; omega
      rw [hlen]
      have := ih (done ++ [ch ' '] ++ enc s) (ext.drop (1 + (enc s).length)) (by simp; omega) (by simp; omega)
      rw [show (done ++ [ch ' '] ++ enc s).length = done.length + 1 + (enc s).length by simp; omega] at this
      simp only [lineF, hd, if_false]
      exact this

theorem join_ex (strv : List (List Byte)) (first : Option (Nat → Byte)) (al : Nat → Option (Nat → Byte))
    (hroom : room strv ≤ 1000000000000000000) :
    (join strv first al = some none ∧
      (first = none ∨ (∃ k, al k = none) ∨ 2147483648 ≤ (lineF [] strv).length)) ∨
    ∃ rest, join strv first al =
        some (some (lineF [] strv ++ 0 :: rest, (lineF [] strv).length)) := by
  unfold join
  obtain ⟨b', ok, e, h⟩ := greedyT_ex (b := ⟨[], 0⟩) 1 1 first (by simp) (by decide) (by decide) (by decide)
  simp only [e, Option.bind_eq_bind, Option.bind_some]
  rcases h with ⟨rfl, h1, h2, h3, h4⟩ | ⟨rfl, h1, -, -⟩
  case inr => exact Or.inl ⟨by simp, Or.inl h1⟩
  simp only [Bool.true_eq_false, if_false]
  have := wr_at (done := []) (rest := b'.mem) (d := [0]) (by simp; omega)
  simp only [List.nil_append, List.length_nil, List.length_cons, Nat.zero_add] at this
  rw [this]
  simp only [Option.bind_some]
  have hsz : b'.size = ([0] ++ b'.mem.drop 1).length := by simp; omega
  rw [hsz]
  have := joinLoop_ex al strv [] ([0] ++ b'.mem.drop 1) (by simp) (by simpa using hroom)
  simp only [List.nil_append, List.length_nil] at this
  rcases this with ⟨e, hk⟩ | ⟨rest', e, hr⟩
  · rw [e]
    exact Or.inl ⟨rfl, Or.inr (Or.inl hk)⟩
  · rw [e]
    simp only [Option.bind_some]
    by_cases hl : (lineF [] strv).length ≥ 2147483648
    · rw [if_pos hl]
      exact Or.inl ⟨rfl, Or.inr (Or.inr hl)⟩
    · rw [if_neg hl, wr_at (by simp; omega)]
      exact Or.inr ⟨rest'.drop 1, by simp⟩

/-! ## round trip -/

theorem esc_bs : Spec.escaped (ch '\\') = [ch '\\'] := by decide
theorem esc_dq : Spec.escaped (ch '"') = [ch '"'] := by decide
theorem dq_ne_bs : ch '"' ≠ ch '\\' := by decide

theorem value_quoted (t rest : List Byte) (h0 : (0 : Byte) ∉ t) :
    Spec.value (some (ch '"')) (body t ++ rest) = t ++ Spec.value (some (ch '"')) rest := by
  induction t with
  | nil => simp [body]
  | cons c t ih =>
    simp only [List.mem_cons, not_or] at h0
    rw [body_cons, List.append_assoc]
    unfold encC
    by_cases h1 : c = ch '\\'
    · subst h1
      simp only [true_or, if_true, List.cons_append, List.nil_append]
      rw [Spec.value, ih h0.2]; simp [esc_bs, esc_dq]
    · by_cases h2 : c = ch '"'
      · subst h2
        simp only [or_true, if_true, List.cons_append, List.nil_append]
        rw [Spec.value, ih h0.2]; simp [esc_bs, esc_dq]
      · simp only [h1, h2, or_self, if_false, List.cons_append, List.nil_append]
        rw [Spec.value.eq_def]
        simp [h1, h2, Ne.symm h2, Ne.symm h0.1, ih h0.2, eq_comm]

theorem value_plain (t rest : List Byte) (h0 : (0 : Byte) ∉ t) (h1 : ch '\'' ∉ t) :
    Spec.value none (body t ++ rest) = t ++ Spec.value none rest := by
  induction t with
  | nil => simp [body]
  | cons c t ih =>
    simp only [List.mem_cons, not_or] at h0 h1
    rw [body_cons, List.append_assoc]
    unfold encC
    by_cases h2 : c = ch '\\'
    · subst h2
      simp only [true_or, if_true, List.cons_append, List.nil_append]
      rw [Spec.value, ih h0.2 h1.2]; simp [esc_bs, esc_dq]
    · by_cases h3 : c = ch '"'
      · subst h3
        simp only [or_true, if_true, List.cons_append, List.nil_append]
        rw [Spec.value, ih h0.2 h1.2]; simp [esc_bs, esc_dq]
      · simp only [h2, h3, or_self, if_false, List.cons_append, List.nil_append]
        rw [Spec.value.eq_def]
        simp [h2, h3, Ne.symm h1.1, Ne.symm h0.1, ih h0.2 h1.2]

theorem words_quoted (t : List Byte) : ∀ (cur rest : List Byte),
    Spec.words (some (ch '"')) cur (body t ++ rest) = Spec.words (some (ch '"')) (cur ++ body t) rest := by
  induction t with
  | nil => intros; simp [body]
  | cons c t ih =>
    intro cur rest
    rw [body_cons, List.append_assoc]
    unfold encC
    by_cases h2 : c = ch '\\' ∨ c = ch '"'
    · simp only [h2, if_true, List.cons_append, List.nil_append]
      rw [Spec.words]
      · rw [ih]; simp
    · simp only [h2, if_false, List.cons_append, List.nil_append]
      simp only [not_or] at h2
      rw [words_cons _ _ _ _ h2.1, if_neg (by simpa using Ne.symm h2.2), if_neg (by simp), if_neg (by simp), ih]
      simp

theorem words_plain (t : List Byte) (hq : ch '\'' ∉ t) (hs : ch ' ' ∉ t) : ∀ (cur rest : List Byte),
    Spec.words none cur (body t ++ rest) = Spec.words none (cur ++ body t) rest := by
  induction t with
  | nil => intros; simp [body]
  | cons c t ih =>
    intro cur rest
    simp only [List.mem_cons, not_or] at hq hs
    rw [body_cons, List.append_assoc]
    unfold encC
    by_cases h2 : c = ch '\\' ∨ c = ch '"'
    · simp only [h2, if_true, List.cons_append, List.nil_append]
      rw [Spec.words]
      · rw [ih hq.2 hs.2]; simp
    · simp only [h2, if_false, List.cons_append, List.nil_append]
      simp only [not_or] at h2
      rw [words_cons _ _ _ _ h2.1, if_neg (by simp), if_neg (by simp [h2.2, Ne.symm hq.1]),
        if_neg (by simp [Ne.symm hs.1]), ih hq.2 hs.2]
      simp

/-- strings that survive -/
def Good (t : List Byte) : Prop := t ≠ [] ∧ (0 : Byte) ∉ t ∧ (ch '\'' ∈ t → needQuote t = true)

theorem no_space {t : List Byte} (h : needQuote t = false) : ch ' ' ∉ t := by
  intro hm
  have : needQuote t = true := by
    unfold needQuote; rw [List.any_eq_true]; exact ⟨_, hm, by simp⟩
  rw [h] at this; simp at this

theorem words_enc {t : List Byte} (h : Good t) (cur rest : List Byte) :
    Spec.words none cur (enc t ++ rest) = Spec.words none (cur ++ enc t) rest := by
  unfold enc
  cases hq : needQuote t with
  | false =>
    simp only [Bool.false_eq_true, if_false]
    refine words_plain t (fun hm => ?_) (no_space hq) cur rest
    have := h.2.2 hm; rw [hq] at this; simp at this
  | true =>
    simp only [if_true, List.append_assoc, List.nil_append, List.cons_append]
    rw [words_cons _ _ _ _ (by decide), if_neg (by simp), if_pos (by simp), words_quoted,
      words_cons _ _ _ _ (by decide), if_pos rfl]
    simp

theorem value_enc {t : List Byte} (h : Good t) : Spec.value none (enc t) = t := by
  unfold enc
  cases hq : needQuote t with
  | false =>
    simp only [Bool.false_eq_true, if_false]
    have := value_plain t [] h.2.1 (fun hm => by have := h.2.2 hm; rw [hq] at this; simp at this)
    simpa [Spec.value] using this
  | true =>
    simp only [if_true, List.nil_append, List.cons_append]
    have e : Spec.value none (ch '"' :: (body t ++ [ch '"'])) =
        Spec.value (some (ch '"')) (body t ++ [ch '"']) := by
      rw [Spec.value.eq_def]; simp [dq_ne_bs]
    rw [e, value_quoted t _ h.2.1]
    have : Spec.value (some (ch '"')) [ch '"'] = [] := by decide
    rw [this]; simp

theorem enc_ne {t : List Byte} (h : Good t) : enc t ≠ [] := by
  intro he
  have := value_enc h
  rw [he] at this
  simp [Spec.value] at this
  exact h.1 this

theorem words_line (ts : List (List Byte)) (hg : ∀ t ∈ ts, Good t) : ∀ (done : List Byte) (t0 : List Byte),
    Good t0 → (∀ rest, Spec.words none [] (done ++ enc t0 ++ rest) =
        Spec.words none [] done ++ Spec.words none (enc t0) rest) →
    Spec.words none [] (lineF (done ++ enc t0) ts) =
      Spec.words none [] done ++ enc t0 :: ts.map enc := by
  induction ts with
  | nil =>
    intro done t0 h0 hw
    have := hw []
    simp only [List.append_nil] at this
    simp only [lineF, this, List.map_nil]
    congr 1
    unfold Spec.words
    rw [if_neg (enc_ne h0)]
  | cons t ts ih =>
    intro done t0 h0 hw
    have hne : done ++ enc t0 ≠ [] := by
      intro h; exact enc_ne h0 (List.append_eq_nil_iff.1 h).2
    have ht := hg t (by simp)
    have hsp : ∀ rest, Spec.words none (enc t0) (ch ' ' :: rest) = enc t0 :: Spec.words none [] rest := by
      intro rest
      rw [words_cons _ _ _ _ (by decide), if_neg (by simp), if_neg (by decide), if_pos ⟨rfl, rfl⟩,
        if_neg (enc_ne h0)]
    have h1 : Spec.words none [] (done ++ enc t0 ++ [ch ' ']) = Spec.words none [] done ++ [enc t0] := by
      rw [hw, hsp]; simp [Spec.words]
    simp only [lineF, hne, if_false]
    rw [ih (fun x hx => hg x (by simp [hx])) (done ++ enc t0 ++ [ch ' ']) t ht]
    · rw [h1]; simp
    · intro rest
      rw [h1, List.append_assoc, List.append_assoc, hw, List.singleton_append, hsp, words_enc ht]
      simp

theorem tokens_line (ts : List (List Byte)) (hg : ∀ t ∈ ts, Good t) :
    Spec.tokens (lineF [] ts) = ts := by
  cases ts with
  | nil => simp [lineF, Spec.tokens, Spec.words]
  | cons t ts =>
    have ht := hg t (by simp)
    have := words_line ts (fun x hx => hg x (by simp [hx])) [] t ht (by
      intro rest
      rw [List.nil_append, words_enc ht]; simp [Spec.words])
    unfold Spec.tokens
    simp only [lineF, if_true]
    rw [this]
    simp only [Spec.words, if_true, List.nil_append, List.map_cons, List.map_map, value_enc ht]
    congr 1
    conv => rhs; rw [← List.map_id ts]
    apply List.map_congr_left
    intro x hx
    exact value_enc (hg x (by simp [hx]))

theorem body_nz {t : List Byte} (h : (0 : Byte) ∉ t) : (0 : Byte) ∉ body t := by
  unfold body
  rw [List.mem_flatMap]
  rintro ⟨c, hc, hm⟩
  unfold encC at hm
  have h0 : c ≠ 0 := fun e => h (e ▸ hc)
  split at hm
  · simp only [List.mem_cons, List.not_mem_nil, or_false] at hm
    rcases hm with hm | hm
    · revert hm; decide
    · exact h0 hm.symm
  · simp only [List.mem_singleton] at hm; exact h0 hm.symm

theorem enc_nz {t : List Byte} (h : (0 : Byte) ∉ t) : (0 : Byte) ∉ enc t := by
  unfold enc
  have := body_nz h
  split
  · simp only [List.mem_append, List.mem_singleton, not_or]
    exact ⟨⟨by decide, this⟩, by decide⟩
  · exact this

theorem lineF_nz (ts : List (List Byte)) (h : ∀ t ∈ ts, (0 : Byte) ∉ t) : ∀ done : List Byte, (0 : Byte) ∉ done →
    (0 : Byte) ∉ lineF done ts := by
  induction ts with
  | nil => intro done hd; exact hd
  | cons t ts ih =>
    intro done hd
    unfold lineF
    apply ih (fun x hx => h x (by simp [hx]))
    rw [List.mem_append, not_or]
    refine ⟨?_, enc_nz (h t (by simp))⟩
    split
    · simp
    · simp only [List.mem_append, List.mem_singleton, not_or]
      exact ⟨hd, by decide⟩

/-! ## tokens of arbitrary lines -/

theorem words_len (q : Option Byte) (cur s : List Byte) :
    (Spec.words q cur s).flatten.length ≤ cur.length + s.length := by
  fun_induction Spec.words q cur s with
  | case1 => simp
  | case2 => simp
  | case3 => simp
  | case4 q cur d rest' ih => simp at *; omega
  | case5 => simp at *; omega
  | case6 => simp at *; omega
  | case7 => simp at *; omega
  | case8 => simp at *; omega
  | case9 => simp at *; omega

theorem tokens_len (s : List Byte) : (Spec.tokens s).flatten.length ≤ s.length := by
  have h := words_len none [] s
  simp only [List.length_nil, Nat.zero_add] at h
  refine Nat.le_trans ?_ h
  unfold Spec.tokens
  generalize Spec.words none [] s = l
  clear h
  induction l with
  | nil => simp
  | cons a t ih =>
    simp only [List.map_cons, List.flatten_cons, List.length_append]
    have := value_len none a
    omega

end Verif.Qstr
