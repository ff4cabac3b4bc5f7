import Verif.Proof.Client6Read
/-!
# Helper lemmas: domain names
-/
namespace Verif.Client6
open Verif.C Verif.Dhcp6.Spec Verif.Client6.Spec

/-- The labels of a name on the wire and with dots in place of the lengths. -/
def labels (ls : List (List Byte)) : List Byte := ls.flatMap fun l => l.length.toUInt8 :: l
def dottedAll (ls : List (List Byte)) : List Byte := ls.flatMap fun l => ch '.' :: l

theorem dottedAll_eq (l : List Byte) (ls : List (List Byte)) : dottedAll (l :: ls) = ch '.' :: dotted (l :: ls) := by
  induction ls generalizing l with
  | nil => simp [dottedAll, dotted]
  | cons x t ih =>
    have := ih x
    simp only [dottedAll, List.flatMap_cons] at this ⊢
    rw [this]
    rfl

theorem labels_length (ls : List (List Byte)) : (labels ls).length = (dottedAll ls).length := by
  induction ls with
  | nil => rfl
  | cons l t ih => simp only [labels, dottedAll, List.flatMap_cons, List.length_append, List.length_cons] at ih ⊢; rw [ih]

theorem labels_nonzero (ls : List (List Byte)) (h : ∀ l ∈ ls, 0 < l.length ∧ l.length ≤ 63 ∧ (0 : Byte) ∉ l) : (0 : Byte) ∉ labels ls := by
  intro hm
  obtain ⟨l, hl, hx⟩ := List.mem_flatMap.mp hm
  obtain ⟨h1, h2, h3⟩ := h l hl
  rcases List.mem_cons.mp hx with hx | hx
  · have := congrArg UInt8.toNat hx
    rw [toUInt8_toNat _ (by omega)] at this
    have : 0 = l.length := this
    omega
  · exact h3 hx

theorem dotted_nonzero (ls : List (List Byte)) (h : ∀ l ∈ ls, (0 : Byte) ∉ l) : (0 : Byte) ∉ dotted ls := by
  induction ls with
  | nil => simp [dotted]
  | cons l t ih =>
    have hd : (0 : Byte) ∉ dottedAll (l :: t) := by
      intro hm
      obtain ⟨l', hl, hx⟩ := List.mem_flatMap.mp hm
      rcases List.mem_cons.mp hx with hx | hx
      · revert hx; decide
      · exact h l' hl hx
    rw [dottedAll_eq] at hd
    exact fun hm => hd (List.mem_cons_of_mem _ hm)

theorem strncpy_at {buf : List Byte} (body : List Byte) (hz : (0 : Byte) ∉ body) : ∀ (p n : Nat), At buf p (body ++ [0]) → body.length < n →
    strncpy buf p n = some (body ++ List.replicate (n - body.length) 0) := by
  induction body with
  | nil =>
    intro p n h hn
    obtain ⟨m, rfl⟩ : ∃ m, n = m + 1 := ⟨n - 1, by simp at hn; omega⟩
    have h0 := h.get 0 (by simp)
    simp only [List.nil_append, List.getElem?_cons_zero, Nat.add_zero] at h0
    simp [strncpy, h0]
  | cons x t ih =>
    intro p n h hn
    simp only [List.length_cons] at hn
    obtain ⟨m, rfl⟩ : ∃ m, n = m + 1 := ⟨n - 1, by omega⟩
    have h0 := h.get 0 (by simp)
    simp only [List.cons_append, List.getElem?_cons_zero, Nat.add_zero] at h0
    simp only [List.mem_cons, not_or] at hz
    have hr : At buf (p + 1) (t ++ [0]) := by
      have : At buf p ([x] ++ (t ++ [0])) := h
      exact this.right
    rw [strncpy, h0, Option.bind_some, if_neg (Ne.symm hz.1), ih hz.2 (p + 1) m hr (by omega)]
    simp

theorem dots_ok (ls : List (List Byte)) (h : ∀ l ∈ ls, 0 < l.length ∧ l.length ≤ 63 ∧ (0 : Byte) ∉ l) (rest : List Byte) :
    ∀ (pre : List Byte) (fuel : Nat), ls.length < fuel →
      dots fuel (pre ++ labels ls ++ 0 :: rest) pre.length = some (pre ++ dottedAll ls ++ 0 :: rest, pre.length + (dottedAll ls).length) := by
  induction ls with
  | nil =>
    intro pre fuel hf
    obtain ⟨f, rfl⟩ : ∃ f, fuel = f + 1 := ⟨fuel - 1, by simp at hf; omega⟩
    simp [dots, labels, dottedAll]
  | cons l t ih =>
    intro pre fuel hf
    simp only [List.length_cons] at hf
    obtain ⟨f, rfl⟩ : ∃ f, fuel = f + 1 := ⟨fuel - 1, by omega⟩
    obtain ⟨h1, h2, h3⟩ := h l (by simp)
    have hsplit : pre ++ labels (l :: t) ++ 0 :: rest = pre ++ l.length.toUInt8 :: (l ++ (labels t ++ 0 :: rest)) := by
      simp [labels]
    have hx : (pre ++ labels (l :: t) ++ 0 :: rest)[pre.length]? = some l.length.toUInt8 := by
      rw [hsplit, List.getElem?_append_right (Nat.le_refl _)]; simp
    have hne : ¬ l.length.toUInt8 = 0 := by
      intro he
      have := congrArg UInt8.toNat he
      rw [toUInt8_toNat _ (by omega)] at this
      have : l.length = 0 := this
      omega
    rw [dots, hx, Option.bind_some, if_neg hne, wr_some (by rw [hsplit]; simp), Option.bind_some, toUInt8_toNat _ (by omega)]
    have hw : (pre ++ labels (l :: t) ++ 0 :: rest).take pre.length ++ [ch '.'] ++
        (pre ++ labels (l :: t) ++ 0 :: rest).drop (pre.length + [ch '.'].length) = (pre ++ ch '.' :: l) ++ labels t ++ 0 :: rest := by
      rw [hsplit, List.take_left, ← List.drop_drop, List.drop_left]
      simp
    rw [hw]
    have := ih (fun x hx => h x (by simp [hx])) (pre ++ ch '.' :: l) f (by omega)
    rw [show (pre ++ ch '.' :: l).length = pre.length + (l.length + 1) by simp] at this
    rw [this]
    have he : dottedAll (l :: t) = ch '.' :: l ++ dottedAll t := rfl
    rw [he, List.length_append, List.length_cons, Nat.add_assoc]
    simp

theorem cstr_ok (a rest : List Byte) (h : (0 : Byte) ∉ a) : cstr (a ++ 0 :: rest) = some a := by
  induction a with
  | nil => simp [cstr]
  | cons x t ih =>
    simp only [List.mem_cons, not_or] at h
    simp [cstr, Ne.symm h.1, ih h.2]

/-- One round of `get_domains`. -/
theorem domRound (junk : Byte) {buf : List Byte} (off maxlen fuel pos : Nat) (ls : List (List Byte)) (hok : NameOk ls)
    (hat : At buf (off + pos) (encName ls)) (hp : pos < maxlen) :
    domLoop junk buf off maxlen (fuel + 1) pos =
      (domLoop junk buf off maxlen fuel (pos + (encName ls).length)).bind fun t => some (.name (dotted ls) :: t) := by
  have hlen : (encName ls).length = (labels ls).length + 1 := by simp [encName, labels]
  have h255 := hok.2
  have hlc : ∀ t : List (List Byte), t.length ≤ (dottedAll t).length := by
    intro t
    induction t with
    | nil => simp
    | cons a b ih => simp only [dottedAll, List.flatMap_cons, List.length_append, List.length_cons] at ih ⊢; omega
  have hlc' := hlc ls
  have hll := labels_length ls
  rw [domLoop, if_pos hp, strncpy_at (labels ls) (labels_nonzero ls hok.1) _ 1025 hat (by omega), Option.bind_some]
  obtain ⟨k, hk⟩ : ∃ k, 1025 - (labels ls).length = k + 1 + 1 := ⟨1025 - (labels ls).length - 2, by omega⟩
  have hbuf : labels ls ++ List.replicate (1025 - (labels ls).length) 0 ++ [junk] =
      [] ++ labels ls ++ 0 :: (0 :: (List.replicate k 0 ++ [junk])) := by
    rw [hk]; simp [List.replicate_succ]
  have hd := dots_ok ls hok.1 (0 :: (List.replicate k 0 ++ [junk])) [] 1027 (by omega)
  rw [List.length_nil] at hd
  rw [hbuf, hd, Option.bind_some]
  simp only [List.nil_append, Nat.zero_add]
  have hs : cstr ((dottedAll ls ++ 0 :: 0 :: (List.replicate k 0 ++ [junk])).drop 1) = some (dotted ls) := by
    cases ls with
    | nil => simp [dottedAll, dotted, cstr]
    | cons l t =>
      rw [dottedAll_eq, List.cons_append, List.drop_succ_cons, List.drop_zero]
      exact cstr_ok _ _ (dotted_nonzero _ (fun x hx => (hok.1 x hx).2.2))
  rw [hs, Option.bind_some, ← hll, ← hlen]

theorem domLoop_ok (junk : Byte) {buf : List Byte} (off maxlen : Nat) (names : List (List (List Byte))) :
    ∀ (fuel pos : Nat), (∀ n ∈ names, NameOk n) → At buf (off + pos) (names.flatMap encName) →
      pos + (names.flatMap encName).length = maxlen → names.length < fuel →
      domLoop junk buf off maxlen fuel pos = some (names.map fun n => .name (dotted n)) := by
  induction names with
  | nil =>
    intro fuel pos _ _ hl hf
    obtain ⟨f, rfl⟩ : ∃ f, fuel = f + 1 := ⟨fuel - 1, by simp at hf; omega⟩
    simp only [List.flatMap_nil, List.length_nil, Nat.add_zero] at hl
    rw [domLoop, if_neg (by omega)]; rfl
  | cons n t ih =>
    intro fuel pos hok hat hl hf
    simp only [List.length_cons] at hf
    obtain ⟨f, rfl⟩ : ∃ f, fuel = f + 1 := ⟨fuel - 1, by omega⟩
    simp only [List.flatMap_cons] at hat
    simp only [List.flatMap_cons, List.length_append] at hl
    have h1 : 0 < (encName n).length := by simp [encName]
    rw [domRound junk off maxlen f pos n (hok n (by simp)) hat.left (by omega),
      ih f _ (fun m hm => hok m (by simp [hm])) (by rw [← Nat.add_assoc]; exact hat.right) (by omega) (by omega)]
    rfl

theorem servers_ok {buf : List Byte} (as : List (List Byte)) (h : ∀ a ∈ as, a.length = 16) : ∀ off, At buf off as.flatten →
    servers buf off as.length = some (as.map .addr) := by
  induction as with
  | nil => intro _ _; rfl
  | cons a t ih =>
    intro off hat
    have ha := h a (by simp)
    simp only [List.flatten_cons] at hat
    have e := hat.left.rd (by intro e; rw [e] at ha; simp at ha)
    have hr := hat.right
    rw [ha] at e hr
    simp only [List.length_cons, servers]
    rw [e, Option.bind_some, ih (fun x hx => h x (by simp [hx])) _ hr]
    rfl

end Verif.Client6
