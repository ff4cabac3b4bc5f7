import Verif.Spec.RtspRead
/-!
# Reading: helper lemmas
-/
namespace Verif.Rtsp
open Verif.C
open Spec (Conv)

/-- The message with nothing entered and a token position. -/
def out (m : Msg) (k : Nat) : Msg := { m with iterBody := false, iterHeader := none, iterToken := k }

theorem leave_eq (m : Msg) (hs : m.isSealed = true) (ht : m.type ≠ .data) : leave m = out m m.iterToken := by
  have ht' : (m.type = MType.data) = False := by simp [ht]
  obtain ⟨ty, ck, mj, mn, hd, me, ur, co, ph, chn, pl, ib, ih, it, hs', hc, gn, cl, cty, cse, bd, bh, rw', us, se⟩ := m
  cases ib <;> cases ih <;>
    simp_all [leave, out, exitBody, exitHeader]

theorem exits (m : Msg) (hs : m.isSealed = true) (ht : m.type ≠ .data) :
    exitHeader m = { m with iterHeader := none } ∧ exitBody { m with iterHeader := none } = { m with iterHeader := none, iterBody := false } := by
  constructor
  · simp [exitHeader, hs, ht]
  · cases hb : m.iterBody <;> simp [exitBody, hs, ht]

theorem read_eq (m : Msg) (hs : m.isSealed = true) (ht : m.type ≠ .data) (ts : List Rd) : read m ts = readLoop m ts := by
  unfold read
  rw [if_neg ht, if_neg (by rw [hs]; decide)]

theorem readLoop_fail {m m' : Msg} {t : Rd} {c : Int} {v : List Val} (h : readBasic m t = some (c, m', v)) (hc : c < 0) (ts : List Rd) :
    readLoop m (t :: ts) = some (c, leave m', v) := by
  simp only [readLoop, h, Option.bind_eq_bind, Option.bind_some, if_pos hc]

theorem readLoop_ok {m m' : Msg} {t : Rd} {v : List Val} (h : readBasic m t = some (0, m', v)) (ts : List Rd) :
    readLoop m (t :: ts) = (readLoop m' ts).map fun q => (q.1, q.2.1, v ++ q.2.2) := by
  simp only [readLoop, h, Option.bind_eq_bind, Option.bind_some, if_neg (by decide : ¬ (0 : Int) < 0)]
  cases readLoop m' ts <;> rfl

theorem readLoop_ub {m : Msg} {t : Rd} (h : readBasic m t = none) (ts : List Rd) : readLoop m (t :: ts) = none := by
  simp only [readLoop, h, Option.bind_eq_bind, Option.bind_none]

/-- What the loop does with `n` conversions before `rest`. -/
def Runs (m : Msg) (ts : List Rd) (n : Nat) (rest : List Rd) : Option (Int × List Val) → Prop
  | none => readLoop m ts = none
  | some (c, vs) =>
    if c < 0 then ∃ k, readLoop m ts = some (c, out m k, vs)
    else c = 0 ∧ readLoop m ts = (readLoop { m with iterToken := m.iterToken + n } rest).map fun q => (q.1, q.2.1, vs ++ q.2.2)

/-- Reading the tokens of an entered header. -/
theorem readLoop_convs (cs : List Conv) (rest : List Rd) (h : Header) : ∀ (m : Msg), m.isSealed = true → m.type ≠ .data → m.iterHeader ≠ none →
    getIter m = some h →
    Runs m (cs.map Conv.rd ++ rest) cs.length rest (Spec.values cs (h.tokens.drop m.iterToken)) := by
  induction cs with
  | nil =>
    intro m _ _ _ _
    simp [Spec.values, Runs]
  | cons c cs ih =>
    intro m hs ht hh hg
    have hb : ∀ r, readTok m c.rd = r → readBasic m c.rd = r := by
      intro r hr
      rw [← hr]
      cases c <;> simp [readBasic, hs, ht, Conv.rd]
    cases hd : h.tokens.drop m.iterToken with
    | nil =>
      have hn : h.tokens[m.iterToken]? = none := by
        rw [List.getElem?_eq_none_iff]; simpa using hd
      have h1 : readBasic m c.rd = some (-ENOENT, m, []) := by
        apply hb; simp [readTok, hh, hg, hn]
      have hneg : (-ENOENT : Int) < 0 := by decide
      simp only [Spec.values, Runs]
      rw [if_pos hneg]
      exact ⟨m.iterToken, by rw [← leave_eq m hs ht]; exact readLoop_fail h1 hneg _⟩
    | cons e es =>
      have he : h.tokens[m.iterToken]? = some e := by
        have := congrArg (fun l : List (List Byte) => l[0]?) hd
        simpa [List.getElem?_drop] using this
      have hes : h.tokens.drop (m.iterToken + 1) = es := by
        have := congrArg (List.drop 1) hd
        simpa [List.drop_drop] using this
      have hneg : (-EINVAL : Int) < 0 := by decide
      have next : ∀ v : List Val, readBasic m c.rd = some (0, { m with iterToken := m.iterToken + 1 }, v) → c.value e = some (some v) →
          Runs m ((c :: cs).map Conv.rd ++ rest) (c :: cs).length rest (Spec.values (c :: cs) (e :: es)) := by
        intro v h1 h2
        have hi := ih { m with iterToken := m.iterToken + 1 } hs ht hh (by simpa [getIter] using hg)
        simp only [hes, Runs] at hi
        simp only [Spec.values, h2, Runs]
        cases hv : Spec.values cs es with
        | none =>
          simp only [hv] at hi
          show readLoop m (c.rd :: (cs.map Conv.rd ++ rest)) = none
          rw [readLoop_ok h1, hi]; rfl
        | some q =>
          obtain ⟨cc, vs⟩ := q
          simp only [hv] at hi ⊢
          by_cases hcc : cc < 0
          · rw [if_pos hcc] at hi ⊢
            obtain ⟨k, hk⟩ := hi
            refine ⟨k, ?_⟩
            show readLoop m (c.rd :: (cs.map Conv.rd ++ rest)) = _
            rw [readLoop_ok h1, hk]; rfl
          · rw [if_neg hcc] at hi ⊢
            refine ⟨hi.1, ?_⟩
            show readLoop m (c.rd :: (cs.map Conv.rd ++ rest)) = _
            have e1 : m.iterToken + (cs.length + 1) = m.iterToken + 1 + cs.length := by omega
            rw [readLoop_ok h1, hi.2, List.length_cons, e1]
            cases readLoop { m with iterToken := m.iterToken + 1 + cs.length } rest <;> simp
      have bad : readBasic m c.rd = some (-EINVAL, m, []) → c.value e = some none →
          Runs m ((c :: cs).map Conv.rd ++ rest) (c :: cs).length rest (Spec.values (c :: cs) (e :: es)) := by
        intro h1 h2
        simp only [Spec.values, h2, Runs]
        rw [if_pos hneg]
        exact ⟨m.iterToken, by rw [← leave_eq m hs ht]; exact readLoop_fail h1 hneg _⟩
      have ub : readBasic m c.rd = none → c.value e = none →
          Runs m ((c :: cs).map Conv.rd ++ rest) (c :: cs).length rest (Spec.values (c :: cs) (e :: es)) := by
        intro h1 h2
        simp only [Spec.values, h2, Runs]
        exact readLoop_ub h1 _
      cases c with
      | str => exact next [.text e] (hb _ (by simp [readTok, hh, hg, he, Conv.rd])) rfl
      | skip => exact next [] (hb _ (by simp [readTok, hh, hg, he, Conv.rd])) rfl
      | i32 =>
        cases hq : sscanfD e with
        | none => exact ub (hb _ (by simp [readTok, hh, hg, he, Conv.rd, hq])) (by simp [Conv.value, hq])
        | some q =>
          cases q with
          | none => exact bad (hb _ (by simp [readTok, hh, hg, he, Conv.rd, hq])) (by simp [Conv.value, hq])
          | some q => exact next [.int q] (hb _ (by simp [readTok, hh, hg, he, Conv.rd, hq])) (by simp [Conv.value, hq])
      | u32 =>
        cases hq : sscanfU e with
        | none => exact ub (hb _ (by simp [readTok, hh, hg, he, Conv.rd, hq])) (by simp [Conv.value, hq])
        | some q =>
          cases q with
          | none => exact bad (hb _ (by simp [readTok, hh, hg, he, Conv.rd, hq])) (by simp [Conv.value, hq])
          | some q => exact next [.nat q] (hb _ (by simp [readTok, hh, hg, he, Conv.rd, hq])) (by simp [Conv.value, hq])
      | hex =>
        cases hq : sscanfX e with
        | none => exact ub (hb _ (by simp [readTok, hh, hg, he, Conv.rd, hq])) (by simp [Conv.value, hq])
        | some q =>
          cases q with
          | none => exact bad (hb _ (by simp [readTok, hh, hg, he, Conv.rd, hq])) (by simp [Conv.value, hq])
          | some q => exact next [.nat q] (hb _ (by simp [readTok, hh, hg, he, Conv.rd, hq])) (by simp [Conv.value, hq])

/-- A code that is not negative is zero. -/
theorem values_code (cs : List Conv) : ∀ (es : List (List Byte)) (c : Int) (vs : List Val), Spec.values cs es = some (c, vs) → c = 0 ∨ c < 0 := by
  induction cs with
  | nil => intro es c vs h; simp only [Spec.values] at h; cases h; exact Or.inl rfl
  | cons d cs ih =>
    intro es c vs h
    cases es with
    | nil => simp only [Spec.values] at h; cases h; exact Or.inr (by decide)
    | cons e es =>
      simp only [Spec.values] at h
      split at h
      · cases h
      · cases h; exact Or.inr (by decide)
      · cases hv : Spec.values cs es with
        | none => simp only [hv] at h; cases h
        | some q =>
          simp only [hv] at h
          have := ih es q.1 q.2 hv
          cases h
          exact this

theorem find_idx {α : Type} (p : α → Bool) (l : List α) :
    match l.findIdx? p with
    | some i => ∃ h, l[i]? = some h ∧ l.find? p = some h
    | none => l.find? p = none := by
  induction l with
  | nil => simp
  | cons a t ih =>
    by_cases h : p a = true
    · simp [List.findIdx?_cons, h]
    · have h' : p a = false := by simpa using h
      rw [List.findIdx?_cons, h']
      simp only [Bool.false_eq_true, if_false, List.find?_cons, h']
      cases hq : t.findIdx? p with
      | none => simpa [hq] using ih
      | some i => simpa [hq] using ih

/-- Reading one line, outside or inside of the body. -/
theorem readLoop_line (m : Msg) (name : List Byte) (hn : name ≠ []) (hs : m.isSealed = true) (ht : m.type ≠ .data) (hh : m.iterHeader = none) (cs : List Conv) (rest : List Rd) :
    match Spec.line (if m.iterBody then m.bodyHeaders else m.headers) name cs with
    | none => readLoop m (.headerStart name :: (cs.map Conv.rd ++ .headerEnd :: rest)) = none
    | some (c, vs) =>
      if c < 0 then ∃ k, readLoop m (.headerStart name :: (cs.map Conv.rd ++ .headerEnd :: rest)) = some (c, out m k, vs)
      else c = 0 ∧ ∃ k, readLoop m (.headerStart name :: (cs.map Conv.rd ++ .headerEnd :: rest)) =
        (readLoop { m with iterToken := k } rest).map fun q => (q.1, q.2.1, vs ++ q.2.2) := by
  have hf := find_idx (fun h : Header => caseEq h.key name) (if m.iterBody then m.bodyHeaders else m.headers)
  have hb : readBasic m (.headerStart name) = some ((enterHeader m name).1, (enterHeader m name).2, []) := by
    simp [readBasic, hs, ht]
  have he : enterHeader m name = match (if m.iterBody then m.bodyHeaders else m.headers).findIdx? (fun h => caseEq h.key name) with
      | some i => (0, { m with iterHeader := some (m.iterBody, i), iterToken := 0 })
      | none => (-ENOENT, m) := by
    unfold enterHeader
    rw [if_neg (by simp [hn, ht]), if_neg (by simp [hs]), if_neg (by simp [hh])]
    rfl
  have hneg : (-ENOENT : Int) < 0 := by decide
  cases hq : (if m.iterBody then m.bodyHeaders else m.headers).findIdx? (fun h => caseEq h.key name) with
  | none =>
    simp only [hq] at hf he
    simp only [Spec.line, Spec.named, hf]
    rw [if_pos hneg]
    exact ⟨m.iterToken, by rw [← leave_eq m hs ht]; rw [he] at hb; exact readLoop_fail hb hneg _⟩
  | some i =>
    simp only [hq] at hf he
    obtain ⟨h, hi, hf⟩ := hf
    simp only [Spec.line, Spec.named, hf]
    have hc := readLoop_convs cs (.headerEnd :: rest) h { m with iterHeader := some (m.iterBody, i), iterToken := 0 } hs ht (by simp)
      (by cases hbb : m.iterBody <;> simpa [getIter, hbb] using hi)
    simp only [List.drop_zero, Runs] at hc
    have step : readLoop m (.headerStart name :: (cs.map Conv.rd ++ .headerEnd :: rest)) =
        readLoop { m with iterHeader := some (m.iterBody, i), iterToken := 0 } (cs.map Conv.rd ++ .headerEnd :: rest) := by
      rw [he] at hb
      rw [readLoop_ok hb]
      cases readLoop { m with iterHeader := some (m.iterBody, i), iterToken := 0 } (cs.map Conv.rd ++ .headerEnd :: rest) <;> rfl
    rw [step]
    cases hv : Spec.values cs h.tokens with
    | none => simp only [hv] at hc ⊢; exact hc
    | some q =>
      obtain ⟨c, vs⟩ := q
      simp only [hv] at hc ⊢
      by_cases hcc : c < 0
      · rw [if_pos hcc] at hc ⊢
        obtain ⟨k, hk⟩ := hc
        exact ⟨k, by rw [hk]; rfl⟩
      · rw [if_neg hcc] at hc ⊢
        refine ⟨hc.1, 0 + cs.length, ?_⟩
        rw [hc.2]
        have e2 : readLoop { m with iterHeader := some (m.iterBody, i), iterToken := 0 + cs.length } (.headerEnd :: rest) =
            readLoop { m with iterToken := 0 + cs.length } rest := by
          have : readBasic { m with iterHeader := some (m.iterBody, i), iterToken := 0 + cs.length } .headerEnd =
              some (0, { m with iterToken := 0 + cs.length }, []) := by
            simp [readBasic, hs, ht, exitHeader, hh]
          rw [readLoop_ok this]
          cases readLoop { m with iterToken := 0 + cs.length } rest <;> rfl
        rw [e2]

/-- `iter_header` points to a header. -/
def Valid (m : Msg) : Prop := ∀ b i, m.iterHeader = some (b, i) → i < (if b then m.bodyHeaders else m.headers).length

theorem valid_get (m : Msg) (hv : Valid m) (hh : m.iterHeader ≠ none) : ∃ h, getIter m = some h := by
  cases hi : m.iterHeader with
  | none => exact absurd hi hh
  | some p =>
    obtain ⟨b, i⟩ := p
    have := hv b i hi
    cases b
    · exact ⟨m.headers[i]'(by simpa using this), by simp [getIter, hi]⟩
    · exact ⟨m.bodyHeaders[i]'(by simpa using this), by simp [getIter, hi]⟩

/-- The position may have moved; everything else is as before. -/
def MovedR (m r : Msg) : Prop := out r 0 = out m 0 ∧ (Valid m → Valid r)

theorem MovedR.refl (m : Msg) : MovedR m m := ⟨rfl, id⟩
theorem MovedR.trans {a b c : Msg} (h : MovedR a b) (g : MovedR b c) : MovedR a c := ⟨g.1.trans h.1, fun v => g.2 (h.2 v)⟩
theorem MovedR.seal {a b : Msg} (h : MovedR a b) : b.isSealed = a.isSealed := by
  have := congrArg Msg.isSealed h.1; exact this
theorem MovedR.type {a b : Msg} (h : MovedR a b) : b.type = a.type := by
  have := congrArg Msg.type h.1; exact this

theorem moved_token (m : Msg) (k : Nat) : MovedR m { m with iterToken := k } := ⟨rfl, fun v b i h => v b i h⟩

theorem moved_enterHeader (m : Msg) (n : List Byte) : MovedR m (enterHeader m n).2 := by
  unfold enterHeader
  split
  · exact MovedR.refl m
  · split
    · exact MovedR.refl m
    · split
      · exact MovedR.refl m
      · split
        · rename_i i hi
          refine ⟨rfl, fun _ b j h => ?_⟩
          injection h with h
          injection h with h1 h2
          subst h1 h2
          have := List.findIdx?_eq_some_iff_findIdx_eq.mp hi
          exact this.1
        · exact MovedR.refl m

theorem moved_exitHeader (m : Msg) : MovedR m (exitHeader m) := by
  unfold exitHeader
  split
  · exact MovedR.refl m
  · exact ⟨rfl, fun _ b i h => by cases h⟩

theorem moved_enterBody (m : Msg) : MovedR m (enterBody m).2 := by
  unfold enterBody
  split
  · exact MovedR.refl m
  · split
    · exact MovedR.refl m
    · split
      · exact MovedR.refl m
      · split
        · exact MovedR.refl m
        · exact ⟨rfl, fun v b i h => v b i h⟩

theorem moved_exitBody (m : Msg) : MovedR m (exitBody m) := by
  unfold exitBody
  split
  · exact MovedR.refl m
  · exact ⟨rfl, fun _ b i h => by cases h⟩

theorem moved_leave (m : Msg) : MovedR m (leave m) := by
  unfold leave
  have h1 : MovedR m (if m.iterBody then exitBody m else m) := by
    split
    · exact moved_exitBody m
    · exact MovedR.refl m
  generalize (if m.iterBody then exitBody m else m) = q at h1
  show MovedR m (if q.iterHeader ≠ none then exitHeader q else q)
  split
  · exact h1.trans (moved_exitHeader _)
  · exact h1

theorem moved_readTok (m : Msg) (t : Rd) (r : Int × Msg × List Val) (h : readTok m t = some r) : MovedR m r.2.1 := by
  unfold readTok at h
  split at h
  · cases h; exact MovedR.refl m
  · simp only [Option.bind_eq_bind, Option.bind_eq_some_iff] at h
    obtain ⟨hd, _, h⟩ := h
    split at h
    · cases h; exact MovedR.refl m
    · cases t <;> simp only [Option.map_eq_some_iff] at h <;> first
        | (cases h; first | exact MovedR.refl m | exact moved_token m _)
        | (obtain ⟨q, _, h⟩ := h
           cases q <;> (cases h; first | exact MovedR.refl m | exact moved_token m _))

theorem moved_readBasic (m : Msg) (t : Rd) (r : Int × Msg × List Val) (h : readBasic m t = some r) : MovedR m r.2.1 := by
  unfold readBasic at h
  split at h
  · cases h; exact MovedR.refl m
  · split at h
    · cases h; exact MovedR.refl m
    · split at h
      · split at h
        · cases h; exact MovedR.refl m
        · simp only [Option.bind_eq_bind, Option.bind_eq_some_iff] at h
          obtain ⟨hd, _, h⟩ := h
          cases h; exact MovedR.refl m
      · cases h; exact moved_enterHeader m _
      · cases h; exact moved_exitHeader m
      · cases h; exact moved_enterBody m
      · cases h; exact moved_exitBody m
      · exact moved_readTok m _ r h

theorem moved_readLoop (ts : List Rd) : ∀ (m : Msg) (r : Int × Msg × List Val), readLoop m ts = some r → MovedR m r.2.1 := by
  induction ts with
  | nil => intro m r h; cases h; exact MovedR.refl m
  | cons t ts ih =>
    intro m r h
    cases hb : readBasic m t with
    | none => rw [readLoop_ub hb] at h; cases h
    | some q =>
      obtain ⟨c, m', v⟩ := q
      have h1 := moved_readBasic m t _ hb
      by_cases hc : c < 0
      · rw [readLoop_fail hb hc] at h; cases h; exact h1.trans (moved_leave m')
      · simp only [readLoop, hb, Option.bind_eq_bind, Option.bind_some, if_neg hc, Option.bind_eq_some_iff] at h
        obtain ⟨q, hq, h⟩ := h
        cases h
        exact h1.trans (ih m' q hq)

theorem moved_skipLoop (ts : List Rd) : ∀ (m : Msg) (r : Int × Msg), skipLoop m ts = some r → MovedR m r.2 := by
  induction ts with
  | nil => intro m r h; cases h; exact MovedR.refl m
  | cons t ts ih =>
    intro m r h
    simp only [skipLoop, Option.bind_eq_bind, Option.bind_eq_some_iff] at h
    obtain ⟨q, hq, h⟩ := h
    have h1 := moved_readBasic m _ q hq
    split at h
    · cases h; exact h1
    · exact h1.trans (ih _ r h)

theorem moved_look (m : Msg) (l : Spec.Look2) (r : Int × Msg) (h : Spec.lookAt m l = some r) : MovedR m r.2 := by
  cases l with
  | read ts =>
    simp only [Spec.lookAt, Option.map_eq_some_iff] at h
    obtain ⟨q, hq, h⟩ := h
    cases h
    unfold read at hq
    split at hq
    · cases hq; exact MovedR.refl m
    · split at hq
      · cases hq; exact MovedR.refl m
      · exact moved_readLoop ts m q hq
  | skip ts =>
    simp only [Spec.lookAt] at h
    unfold skip at h
    split at h
    · cases h; exact MovedR.refl m
    · split at h
      · cases h; exact MovedR.refl m
      · exact moved_skipLoop ts m r h
  | basic t =>
    simp only [Spec.lookAt, Option.map_eq_some_iff] at h
    obtain ⟨q, hq, h⟩ := h
    cases h
    exact moved_readBasic m t q hq
  | rewind c =>
    simp only [Spec.lookAt] at h
    cases h
    unfold rewind
    split
    · exact MovedR.refl m
    · split
      · exact MovedR.refl m
      · refine ⟨rfl, fun v b i h => ?_⟩
        cases c
        · exact v b i h
        · cases h

theorem readBasic_defined (m : Msg) (t : Rd) (hv : Valid m) (ht : Spec.hasNumber [t] = false) : (readBasic m t).isSome = true := by
  have hg := valid_get m hv
  by_cases hd : m.type = .data
  · simp [readBasic, hd]
  by_cases hs : m.isSealed = false
  · simp [readBasic, hs, hd]
  have hs : m.isSealed = true := by simpa using hs
  by_cases hh : m.iterHeader = none
  · cases t <;> simp [readBasic, readTok, hh, hd, hs]
  · obtain ⟨h, hg⟩ := hg hh
    cases ht' : h.tokens[m.iterToken]? with
    | none => cases t <;> simp [readBasic, readTok, hh, hd, hs, hg, ht']
    | some e => cases t <;> first | (simp [readBasic, readTok, hh, hd, hs, hg, ht']; done) | (simp [Spec.hasNumber] at ht)

theorem readLoop_defined (ts : List Rd) : ∀ (m : Msg), Valid m → Spec.hasNumber ts = false → (readLoop m ts).isSome = true := by
  induction ts with
  | nil => intro m _ _; rfl
  | cons t ts ih =>
    intro m hv hn
    have hn1 : Spec.hasNumber [t] = false := by
      simp only [Spec.hasNumber, List.any_cons, Bool.or_eq_false_iff, List.any_nil, Bool.or_false] at hn ⊢; exact hn.1
    have hn2 : Spec.hasNumber ts = false := by
      simp only [Spec.hasNumber, List.any_cons, Bool.or_eq_false_iff] at hn ⊢; exact hn.2
    cases hb : readBasic m t with
    | none => have := readBasic_defined m t hv hn1; rw [hb] at this; cases this
    | some q =>
      obtain ⟨c, m', v⟩ := q
      have h1 := moved_readBasic m t _ hb
      by_cases hc : c < 0
      · rw [readLoop_fail hb hc]; rfl
      · have := ih m' (h1.2 hv) hn2
        simp only [readLoop, hb, Option.bind_eq_bind, Option.bind_some, if_neg hc]
        cases hq : readLoop m' ts with
        | none => rw [hq] at this; cases this
        | some q => rfl

theorem skipLoop_defined (ts : List Rd) : ∀ (m : Msg), Valid m → Spec.hasNumber ts = false → (skipLoop m ts).isSome = true := by
  induction ts with
  | nil => intro m _ _; rfl
  | cons t ts ih =>
    intro m hv hn
    have hn1 : Spec.hasNumber [(nameless t)] = false := by
      simp only [Spec.hasNumber, List.any_cons, Bool.or_eq_false_iff, List.any_nil, Bool.or_false] at hn ⊢
      cases t <;> first | exact hn.1 | decide
    have hn2 : Spec.hasNumber ts = false := by
      simp only [Spec.hasNumber, List.any_cons, Bool.or_eq_false_iff] at hn ⊢; exact hn.2
    cases hb : readBasic m (nameless t) with
    | none => have := readBasic_defined m _ hv hn1; rw [hb] at this; cases this
    | some q =>
      obtain ⟨c, m', v⟩ := q
      have h1 := moved_readBasic m _ _ hb
      simp only [skipLoop, Option.bind_eq_bind]
      rw [hb]
      simp only [Option.bind_some]
      split
      · rfl
      · exact ih m' (h1.2 hv) hn2

theorem hexDigit_ok (d : Nat) (h : d < 16) : isDigit 16 (Mac.hexDigit d) = true ∧ digitVal (Mac.hexDigit d) = some d ∧ isSpace (Mac.hexDigit d) = false ∧
    Mac.hexDigit d ≠ 45 ∧ Mac.hexDigit d ≠ 43 ∧ Mac.hexDigit d ≠ 120 ∧ Mac.hexDigit d ≠ 88 := by
  have : ∀ d < 16, isDigit 16 (Mac.hexDigit d) = true ∧ digitVal (Mac.hexDigit d) = some d ∧ isSpace (Mac.hexDigit d) = false ∧
    Mac.hexDigit d ≠ 45 ∧ Mac.hexDigit d ≠ 43 ∧ Mac.hexDigit d ≠ 120 ∧ Mac.hexDigit d ≠ 88 := by decide
  exact this d h

end Verif.Rtsp
