import Verif.Model.Uibc
import Verif.Spec.Uibc
import Verif.Proof.OptValue
/-! Helper lemmas for `Props/Uibc`. -/
namespace Verif.Uibc
open Verif.C Spec

/-! ### Splitting -/

theorem scan_snoc (s : List Byte) (c : Byte) : ∀ i r, scan (s ++ [c]) i r = if c = comma then ((scan s i r).1 + 1, some (i + s.length)) else scan s i r := by
  induction s with
  | nil => intro i r; obtain ⟨n, l⟩ := r; simp [scan]
  | cons x t ih =>
    intro i r
    obtain ⟨n, l⟩ := r
    simp only [List.cons_append, scan]
    split
    · rw [ih]; simp only [List.length_cons]
      split
      · congr 2; omega
      · rfl
    · rw [ih]; simp only [List.length_cons]
      split
      · congr 2; omega
      · rfl

theorem scan_count (s : List Byte) : ∀ i r, (scan s i r).1 = r.1 + s.count comma := by
  induction s with
  | nil => intro i r; simp [scan]
  | cons x t ih =>
    intro i r
    obtain ⟨n, l⟩ := r
    simp only [scan, List.count_cons]
    split
    · rename_i h; rw [ih]; simp [h]; omega
    · rename_i h; rw [ih]; simp [h]

theorem scan_last (s : List Byte) : ∀ j, (scan s 0 (0, none)).2 = some j → j < s.length := by
  induction s using snocInd with
  | nil => intro j h; cases h
  | snoc t c ih =>
    intro j h
    rw [scan_snoc] at h
    split at h
    · simp only [Option.some.injEq] at h; rw [List.length_append, List.length_singleton]; omega
    · have := ih j h; rw [List.length_append]; omega

theorem cells_eq (s : List Byte) : cells s = s.count comma + if s.getLast? = some comma then 0 else 1 := by
  have hc := scan_count s 0 (0, none)
  simp only [Nat.zero_add] at hc
  unfold cells
  dsimp only
  rw [hc]
  congr 1
  cases s using snocInd with
  | nil => rfl
  | snoc t c =>
    simp only [List.getLast?_append, List.getLast?_singleton, Option.some_or, Option.some.injEq]
    rw [scan_snoc]
    by_cases h : c = comma
    · simp [h]
    · rw [if_neg h, if_neg h]
      cases hl : (scan t 0 (0, none)).2 with
      | none => rfl
      | some j =>
        have := scan_last t j hl
        simp only [List.length_append, List.length_singleton]
        rw [if_pos (by omega)]

theorem fields_ne (d : Byte) (s : List Byte) : fields d s ≠ [] := by
  cases s with
  | nil => simp [fields]
  | cons c t =>
    simp only [fields]
    split
    · simp
    · split <;> simp

theorem fields_length (d : Byte) (s : List Byte) : (fields d s).length = s.count d + 1 := by
  induction s with
  | nil => simp [fields]
  | cons c t ih =>
    simp only [fields, List.count_cons]
    split
    · rename_i h; simp [h, ih]
    · rename_i h
      cases hf : fields d t with
      | nil => exact absurd hf (fields_ne d t)
      | cons f fs =>
        rw [hf] at ih
        simp only [List.length_cons] at ih ⊢
        simp [h, ih]

theorem fields_strsep (s : List Byte) : fields comma s = (strsep s).1 :: match (strsep s).2 with | none => [] | some r => fields comma r := by
  induction s with
  | nil => simp [fields, strsep]
  | cons c t ih =>
    by_cases h : c = comma
    · subst h
      simp [fields, strsep]
    · have e : strsep (c :: t) = (c :: (strsep t).1, (strsep t).2) := by
        unfold strsep
        rw [List.dropWhile_cons_of_pos (by simp [h])]
        cases hd : t.dropWhile (· ≠ comma) with
        | nil => simp
        | cons x r => simp [h]
      rw [e]
      simp only [fields, if_neg h]
      rw [ih]

theorem strsep_shorter {s r : List Byte} (h : (strsep s).2 = some r) : r.length < s.length := by
  unfold strsep at h
  split at h
  · cases h
  · rename_i x r' hd
    simp only [Option.some.injEq] at h
    subst h
    have h1 : (s.dropWhile (· ≠ comma)).length ≤ s.length := (List.dropWhile_suffix _).length_le
    rw [hd, List.length_cons] at h1
    omega

theorem fill_eq (f : Nat) : ∀ (room : Nat) (tmp : List Byte) (a : List (List Byte)), tmp.length < f →
    fill f room (some tmp) a = if a.length + (fields comma tmp).length ≤ room then some (a ++ fields comma tmp) else none := by
  induction f with
  | zero => intro room tmp a h; omega
  | succ f ih =>
    intro room tmp a h
    simp only [fill]
    rw [fields_strsep tmp]
    cases hs : (strsep tmp).2 with
    | none =>
      simp only [List.length_singleton]
      by_cases h1 : a.length < room
      · rw [if_pos h1, if_pos (by omega)]
        cases f <;> rfl
      · rw [if_neg h1, if_neg (by omega)]
    | some r =>
      have hl := strsep_shorter hs
      simp only [List.length_cons]
      by_cases h1 : a.length < room
      · rw [if_pos h1, ih room r _ (by omega)]
        simp only [List.length_append, List.length_singleton, List.append_assoc, List.singleton_append]
        by_cases h2 : a.length + 1 + (fields comma r).length ≤ room
        · rw [if_pos h2, if_pos (by omega)]
        · rw [if_neg h2, if_neg (by omega)]
      · rw [if_neg h1, if_neg (by omega)]

theorem split_eq (s : List Byte) : strSplit s = if s.getLast? = some comma then none else some (fields comma s) := by
  unfold strSplit
  rw [fill_eq _ _ _ _ (by omega), cells_eq, fields_length]
  by_cases h : s.getLast? = some comma
  · rw [if_pos h, if_pos h, if_neg (by simp only [List.length_nil]; omega)]
  · rw [if_neg h, if_neg h, if_pos (by simp only [List.length_nil]; omega)]
    rfl

theorem fields_no (d : Byte) (f : List Byte) (h : d ∉ f) : fields d f = [f] := by
  induction f with
  | nil => rfl
  | cons c t ih =>
    simp only [List.mem_cons, not_or] at h
    simp only [fields]
    rw [if_neg (fun e => h.1 e.symm), ih h.2]

theorem fields_cons (d : Byte) (f r : List Byte) (h : d ∉ f) : fields d (f ++ [d] ++ r) = f :: fields d r := by
  induction f with
  | nil => simp [fields]
  | cons c t ih =>
    simp only [List.mem_cons, not_or] at h
    simp only [List.cons_append, fields]
    rw [if_neg (fun e => h.1 e.symm), ih h.2]

theorem fields_join (d : Byte) (fs : List (List Byte)) (hn : fs ≠ []) (h : ∀ f ∈ fs, d ∉ f) : fields d (join d fs) = fs := by
  induction fs with
  | nil => exact absurd rfl hn
  | cons f t ih =>
    cases t with
    | nil => exact fields_no d f (h f (by simp))
    | cons g t =>
      show fields d (f ++ [d] ++ join d (g :: t)) = _
      rw [fields_cons d f _ (h f (by simp)), ih (by simp) (fun x hx => h x (by simp [hx]))]

theorem join_fields (d : Byte) (s : List Byte) : join d (fields d s) = s := by
  induction s with
  | nil => rfl
  | cons c t ih =>
    simp only [fields]
    split
    · rename_i h
      cases hf : fields d t with
      | nil => exact absurd hf (fields_ne d t)
      | cons f fs => rw [hf] at ih; show [] ++ [d] ++ join d (f :: fs) = _; rw [ih, h]; rfl
    · cases hf : fields d t with
      | nil => exact absurd hf (fields_ne d t)
      | cons f fs =>
        rw [hf] at ih
        cases fs with
        | nil => show c :: f = c :: t; rw [← ih]; rfl
        | cons g fs => show (c :: f) ++ [d] ++ join d (g :: fs) = c :: t; rw [← ih]; rfl

theorem fields_free (d : Byte) (s : List Byte) : ∀ f ∈ fields d s, d ∉ f := by
  induction s with
  | nil => simp [fields]
  | cons c t ih =>
    simp only [fields]
    split
    · intro f hf
      rcases List.mem_cons.mp hf with rfl | hf
      · simp
      · exact ih f hf
    · rename_i h
      cases hf : fields d t with
      | nil => exact absurd hf (fields_ne d t)
      | cons f fs =>
        rw [hf] at ih
        intro x hx
        rcases List.mem_cons.mp hx with rfl | hx
        · simp only [List.mem_cons, not_or]
          exact ⟨fun e => h e.symm, ih f (by simp)⟩
        · exact ih x (by simp [hx])

theorem last_fields (d : Byte) (s : List Byte) (h : s.getLast? = some d) : (fields d s).getLast? = some [] := by
  obtain ⟨t, rfl⟩ : ∃ t, s = t ++ [d] := by
    cases s using snocInd with
    | nil => cases h
    | snoc t c => simp at h; subst h; exact ⟨t, rfl⟩
  clear h
  induction t with
  | nil => simp [fields]
  | cons c t ih =>
    simp only [List.cons_append, fields]
    cases hf : fields d (t ++ [d]) with
    | nil => exact absurd hf (fields_ne _ _)
    | cons f fs =>
      rw [hf] at ih
      split
      · rw [List.getLast?_cons_cons]; exact ih
      · cases fs with
        | nil =>
          have := fields_length d (t ++ [d])
          rw [hf] at this
          simp at this
        | cons g fs => rw [List.getLast?_cons_cons] at ih ⊢; exact ih

/-! ### Touch -/

theorem pointers_length (toks : List (List Byte)) : ∀ (k i : Nat) (b b' : List Byte), pointers toks k i b = some b' → b'.length = b.length := by
  intro k
  induction k with
  | zero => intro i b b' h; cases h; rfl
  | succ k ih =>
    intro i b b' h
    simp only [pointers, Option.bind_eq_bind, Option.bind_eq_some_iff] at h
    obtain ⟨_, _, _, _, b1, h1, _, _, _, _, b2, h2, _, _, _, _, b3, h3, h4⟩ := h
    rw [ih _ _ _ h4, length_of_wr h3, length_of_wr h2, length_of_wr h1]

theorem clear_some : ∀ (k off : Nat) (b b' : List Byte), clear k off b = some b' → (k = 0 ∨ off + k ≤ b.length) ∧ b'.length = b.length ∧ (off ≤ b.length → b'.take (off + k) = b.take off ++ List.replicate k 0) := by
  intro k
  induction k with
  | zero => intro off b b' h; cases h; exact ⟨Or.inl rfl, rfl, by simp⟩
  | succ k ih =>
    intro off b b' h
    simp only [clear, Option.bind_eq_bind, Option.bind_eq_some_iff] at h
    obtain ⟨b1, h1, h2⟩ := h
    obtain ⟨h3, h4, h5⟩ := ih _ _ _ h2
    have hl := length_of_wr h1
    have hb := (OptValue.wr_eq h1).2
    simp only [List.length_singleton] at hb
    refine ⟨Or.inr (by omega), by omega, fun _ => ?_⟩
    have ht := OptValue.take_wr h1
    simp only [List.length_singleton] at ht
    have := h5 (by omega)
    rw [show off + (k + 1) = off + 1 + k by omega, this, ht, List.replicate_succ, List.append_assoc]
    rfl

theorem clear_ok : ∀ (k off : Nat) (b : List Byte), off + k ≤ b.length → ∃ b', clear k off b = some b' := by
  intro k
  induction k with
  | zero => intro off b _; exact ⟨b, rfl⟩
  | succ k ih =>
    intro off b h
    obtain ⟨b1, h1, h2, _⟩ := wr_ex (b := b) (d := [0]) (i := off) (by simp; omega)
    obtain ⟨b2, h3⟩ := ih (off + 1) b1 (by omega)
    exact ⟨b2, by simp [clear, h1, h3]⟩

theorem pointers_ok (toks : List (List Byte)) (v : Nat → Int × Int × Int) : ∀ (k i : Nat) (b : List Byte),
    (∀ j, i ≤ j → j < i + k → toks[2 + j * 3]?.bind atoi = some (v j).1 ∧ toks[2 + j * 3 + 1]?.bind atoi = some (v j).2.1 ∧ toks[2 + j * 3 + 2]?.bind atoi = some (v j).2.2) →
    8 + (i + k) * 5 ≤ b.length →
    ∃ b', pointers toks k i b = some b' ∧ b'.take (8 + (i + k) * 5) = b.take (8 + i * 5) ++ ((List.range' i k).map fun j => u8 (v j).1 ++ u16 (v j).2.1 ++ u16 (v j).2.2).flatten := by
  intro k
  induction k with
  | zero => intro i b _ _; exact ⟨b, rfl, by simp⟩
  | succ k ih =>
    intro i b hv hl
    obtain ⟨a1, a2, a3⟩ := hv i (Nat.le_refl _) (by omega)
    simp only [Option.bind_eq_some_iff] at a1 a2 a3
    obtain ⟨t1, g1, e1⟩ := a1
    obtain ⟨t2, g2, e2⟩ := a2
    obtain ⟨t3, g3, e3⟩ := a3
    obtain ⟨b1, w1, l1, _⟩ := wr_ex (b := b) (d := [lo (v i).1]) (i := 8 + i * 5) (by simp; omega)
    obtain ⟨b2, w2, l2, _⟩ := wr_ex (b := b1) (d := [hi (v i).2.1, lo (v i).2.1]) (i := 8 + i * 5 + 1) (by simp; omega)
    obtain ⟨b3, w3, l3, _⟩ := wr_ex (b := b2) (d := [hi (v i).2.2, lo (v i).2.2]) (i := 8 + i * 5 + 3) (by simp; omega)
    obtain ⟨b4, p4, q4⟩ := ih (i + 1) b3 (fun j h1 h2 => hv j (by omega) (by omega)) (by omega)
    refine ⟨b4, ?_, ?_⟩
    · simp only [pointers, g1, g2, g3, e1, e2, e3, w1, w2, w3, Option.bind_eq_bind, Option.bind_some]
      exact p4
    · rw [show 8 + (i + (k + 1)) * 5 = 8 + (i + 1 + k) * 5 by omega, q4]
      have t1 := OptValue.take_wr w1
      have t2 := OptValue.take_wr w2
      have t3 := OptValue.take_wr w3
      simp only [List.length_cons, List.length_nil, Nat.zero_add] at t1 t2 t3
      rw [show 8 + (i + 1) * 5 = 8 + i * 5 + 3 + (1 + 1) by omega, t3, show 8 + i * 5 + 3 = 8 + i * 5 + 1 + (1 + 1) by omega, t2, t1]
      rw [List.range'_succ, List.map_cons, List.flatten_cons]
      simp only [List.append_assoc]
      rfl

theorem int32_ok {v : Int} (h1 : -2147483648 ≤ v) (h2 : v ≤ 2147483647) : int32 v = some v := by
  unfold int32; rw [if_neg (by omega)]

theorem int32_some {v w : Int} (h : int32 v = some w) : w = v ∧ -2147483648 ≤ v ∧ v ≤ 2147483647 := by
  unfold int32 at h
  split at h
  · cases h
  · cases h; exact ⟨rfl, by omega, by omega⟩

end Verif.Uibc
namespace Verif.Uibc
open Verif.C Spec

theorem pointers_reads (toks : List (List Byte)) : ∀ (k i : Nat) (b b' : List Byte), pointers toks k i b = some b' → k = 0 ∨ 2 + (i + k) * 3 ≤ toks.length := by
  intro k
  induction k with
  | zero => intro i b b' h; exact Or.inl rfl
  | succ k ih =>
    intro i b b' h
    simp only [pointers, Option.bind_eq_bind, Option.bind_eq_some_iff] at h
    obtain ⟨_, _, _, _, b1, h1, _, _, _, _, b2, h2, t3, g3, _, _, b3, h3, h4⟩ := h
    right
    have hg := (List.getElem?_eq_some_iff.mp g3).1
    rcases ih _ _ _ h4 with rfl | h5
    · omega
    · omega

theorem bodyLen_facts {v : Int} (h : -2147483648 ≤ v) (hlen : bodyLen v < W64 / 2) :
    0 ≤ v ∧ bodyLen v % 2 = 0 ∧ (bodyLen v = v.toNat ∨ bodyLen v = v.toNat + 1) := by
  have hW : W64 = 18446744073709551616 := rfl
  unfold bodyLen at *
  by_cases hv : v < 0
  · simp only [if_pos hv] at hlen
    split at hlen <;> omega
  · simp only [if_neg hv]
    split <;> omega

theorem bodyLen_nat (n : Nat) : bodyLen (n : Int) = if n % 2 = 0 then n else n + 1 := by
  unfold bodyLen
  simp only [if_neg (show ¬ (n : Int) < 0 by omega), Int.toNat_natCast]

/-- What it takes to get a packet. -/
theorem touch_some {room : Nat → Nat} {junk : Nat → Byte} {s p : List Byte} (h : touch room junk s = some p) :
    ∃ toks, strSplit s = some toks ∧ (p = [] ∨ ∃ n : Int, toks[1]?.bind atoi = some n ∧ (n ≤ 0 ∨ 2 + n.toNat * 3 ≤ toks.length) ∧ ∃ len, len < room len) := by
  unfold touch at h
  simp only [Option.bind_eq_bind, Option.bind_eq_some_iff] at h
  obtain ⟨toks, h1, h2⟩ := h
  refine ⟨toks, h1, ?_⟩
  split at h2
  · cases h2; exact Or.inl rfl
  · right
    simp only [Option.bind_eq_some_iff] at h2
    obtain ⟨t0, g0, ty, e0, t1, g1, n, e1, m, i1, g, i2, len0, i3, h3⟩ := h2
    obtain ⟨rfl, _, _⟩ := int32_some i1
    obtain ⟨rfl, _, _⟩ := int32_some i2
    obtain ⟨rfl, _, _⟩ := int32_some i3
    refine ⟨n, by rw [g1]; exact e1, ?_⟩
    split at h3
    · cases h3
    · rename_i hlen
      simp only [Option.bind_eq_some_iff] at h3
      obtain ⟨b1, w1, b2, w2, b3, w3, _⟩ := h3
      have l1 := length_of_wr w1
      have l2 := pointers_length _ _ _ _ _ w2
      have hb := (OptValue.wr_eq w1).2
      obtain ⟨c1, c2, _⟩ := clear_some _ _ _ _ w3
      rw [length_fresh] at l1 hb
      simp only [List.length_cons, List.length_nil] at hb
      have hW : W64 = 18446744073709551616 := rfl
      obtain ⟨hneg, hL1, hL2⟩ := bodyLen_facts (v := n * 5 + 1 + 7) (by omega) (Nat.not_le.mp hlen)
      generalize bodyLen (n * 5 + 1 + 7) = L at *
      by_cases hn : n > 0
      · rw [if_pos hn] at c1
        rcases c1 with c1 | c1
        · omega
        · refine ⟨?_, L, by omega⟩
          rcases pointers_reads _ _ _ _ _ w2 with w | w
          · omega
          · right; omega
      · rw [if_neg hn] at c1
        rcases c1 with c1 | c1
        · omega
        · exact ⟨Or.inl (by omega), L, by omega⟩

/-- Three tokens per pointer. -/
theorem triple_get {α : Type} (f : α → List Byte × List Byte × List Byte) (extra : List (List Byte)) : ∀ (ps : List α) (j : Nat) (p : α), ps[j]? = some p →
    ((ps.flatMap fun p => [(f p).1, (f p).2.1, (f p).2.2]) ++ extra)[j * 3]? = some (f p).1 ∧
    ((ps.flatMap fun p => [(f p).1, (f p).2.1, (f p).2.2]) ++ extra)[j * 3 + 1]? = some (f p).2.1 ∧
    ((ps.flatMap fun p => [(f p).1, (f p).2.1, (f p).2.2]) ++ extra)[j * 3 + 2]? = some (f p).2.2 := by
  intro ps
  induction ps with
  | nil => intro j p h; simp at h
  | cons q t ih =>
    intro j p h
    cases j with
    | zero => simp at h; subst h; simp
    | succ j =>
      have := ih j p (by simpa using h)
      simp only [List.flatMap_cons, List.append_assoc]
      rw [show (j + 1) * 3 = j * 3 + 3 by omega]
      simpa using this

/-- Number of tokens. -/
theorem triple_length {α : Type} (f : α → List Byte × List Byte × List Byte) (ps : List α) : (ps.flatMap fun p => [(f p).1, (f p).2.1, (f p).2.2]).length = ps.length * 3 := by
  induction ps with
  | nil => rfl
  | cons q t ih => simp only [List.flatMap_cons, List.length_append, ih, List.length_cons, List.length_nil]; omega

theorem flat5 {α : Type} (g : α → Int × Int × Int) (ps : List α) : ((ps.map fun p => u8 (g p).1 ++ u16 (g p).2.1 ++ u16 (g p).2.2).flatten).length = ps.length * 5 := by
  induction ps with
  | nil => rfl
  | cons q t ih =>
    rw [List.map_cons, List.flatten_cons, List.length_append, ih]
    simp only [List.length_append, List.length_cons, u8, u16, List.length_nil]; omega

theorem range_map {α β : Type} (f : α → β) (d : α) (ps : List α) : (List.range' 0 ps.length).map (fun j => f ((ps[j]?).getD d)) = ps.map f := by
  apply List.ext_getElem?
  intro j
  by_cases h : j < ps.length
  · simp [h]
  · simp [h]

/-! ### Key codes -/

theorem every_byte {P : Byte → Prop} (h : ∀ n : Fin 256, P (UInt8.ofFin n)) (c : Byte) : P c := h c.toFin

theorem hex_facts : ∀ c : Byte, (Spec.hexOf c).isSome = true → isDigit 16 c = true ∧ digitVal c = Spec.hexOf c ∧ isSpace c = false ∧ c ≠ 45 ∧ c ≠ 43 ∧ c ≠ 120 ∧ c ≠ 88 :=
  every_byte (by decide +kernel)

theorem space_facts : ∀ c : Byte, isSpace c = true → isDigit 16 c = false ∧ c ≠ 120 ∧ c ≠ 88 := every_byte (by decide +kernel)

theorem hexVal_eq (ds : List Byte) (h : ∀ c ∈ ds, (Spec.hexOf c).isSome = true) : digitsVal 16 ds = Spec.hexVal ds := by
  unfold digitsVal Spec.hexVal
  suffices H : ∀ a, List.foldl (fun acc c => acc * 16 + (digitVal c).getD 0) a ds = List.foldl (fun a c => a * 16 + (Spec.hexOf c).getD 0) a ds from H 0
  intro a
  induction ds generalizing a with
  | nil => rfl
  | cons c t ih =>
    simp only [List.foldl_cons]
    rw [(hex_facts c (h c (by simp))).2.1]
    exact ih (fun x hx => h x (by simp [hx])) _

theorem hexVal_lt (ds : List Byte) : Spec.hexVal ds < 16 ^ ds.length := by
  have hd : ∀ c : Byte, (Spec.hexOf c).getD 0 < 16 := every_byte (by decide +kernel)
  induction ds using snocInd with
  | nil => decide
  | snoc t c ih =>
    have := hd c
    unfold Spec.hexVal at *
    rw [List.foldl_append, List.length_append]
    simp only [List.foldl_cons, List.foldl_nil, List.length_cons, List.length_nil, Nat.pow_succ, Nat.zero_add, Nat.pow_zero, Nat.one_mul]
    omega

theorem scan_hex (ds tail : List Byte) (hne : ds ≠ []) (h : ∀ c ∈ ds, (Spec.hexOf c).isSome = true) (ht : tail = [] ∨ ∃ c t, tail = c :: t ∧ isSpace c = true) :
    scanNumber 16 (ds ++ tail) = (false, Spec.hexVal ds, ds.length) ∧ (ds ++ tail).take 2 ≠ bytes "0x" ∧ (ds ++ tail).take 2 ≠ bytes "0X" ∧ (ds ++ tail).head? ≠ some 45 ∧ (ds ++ tail).head? ≠ some 43 := by
  obtain ⟨c, t, rfl⟩ : ∃ c t, ds = c :: t := by
    cases ds with
    | nil => exact absurd rfl hne
    | cons c t => exact ⟨c, t, rfl⟩
  obtain ⟨hd, _, hs, h45, h43, _, _⟩ := hex_facts c (h c (by simp))
  have h2 : ∀ x u, t ++ tail = x :: u → x ≠ 120 ∧ x ≠ 88 := by
    intro x u e
    cases t with
    | nil =>
      rcases ht with rfl | ⟨y, v, rfl, hy⟩
      · cases e
      · cases e; exact ⟨(space_facts _ hy).2.1, (space_facts _ hy).2.2⟩
    | cons y v =>
      cases e
      have := hex_facts x (h x (by simp))
      exact ⟨this.2.2.2.2.2.1, this.2.2.2.2.2.2⟩
  have htw : (c :: t ++ tail).takeWhile (isDigit 16) = c :: t := by
    rw [List.takeWhile_append_of_pos (fun x hx => (hex_facts x (h x hx)).1)]
    rcases ht with rfl | ⟨y, v, rfl, hy⟩
    · simp
    · rw [List.takeWhile_cons_of_neg (by simp [(space_facts y hy).1])]; simp
  have hbp : basePrefix 16 (c :: t ++ tail) = (0, 16) := by
    unfold basePrefix
    split
    · rename_i x d r e
      obtain ⟨a, b⟩ := h2 x _ (List.cons.inj e).2
      simp [a, b]
    · simp
    · simp
  have e0 : (c :: t ++ tail).takeWhile isSpace = [] := by simp [hs]
  refine ⟨?_, ?_, ?_, by simpa using h45, by simpa using h43⟩
  · unfold scanNumber
    simp only [e0, List.length_nil, List.drop_zero]
    have hh : (c :: t ++ tail).head? = some c := rfl
    simp only [hh, Option.some.injEq, h45, h43, or_self, if_false, List.drop_zero, hbp, htw, decide_false]
    rw [if_neg (by simp), hexVal_eq _ h]
    simp
  · intro e
    cases hu : t ++ tail with
    | nil => rw [List.cons_append, hu] at e; exact absurd (congrArg List.length e) (by rw [show (bytes "0x").length = 2 by decide +kernel]; simp)
    | cons x u =>
      rw [List.cons_append, hu] at e
      have e : [c, x] = bytes "0x" := e
      have : x = 120 := by rw [show bytes "0x" = [48, 120] by decide +kernel] at e; simpa using (List.cons.inj e).2
      exact (h2 x u hu).1 this
  · intro e
    cases hu : t ++ tail with
    | nil => rw [List.cons_append, hu] at e; exact absurd (congrArg List.length e) (by rw [show (bytes "0X").length = 2 by decide +kernel]; simp)
    | cons x u =>
      rw [List.cons_append, hu] at e
      have e : [c, x] = bytes "0X" := e
      have : x = 88 := by rw [show bytes "0X" = [48, 88] by decide +kernel] at e; simpa using (List.cons.inj e).2
      exact (h2 x u hu).2 this

theorem sscanfKey_hex (zx : Bool) (sp ds tail : List Byte) (hsp : ∀ c ∈ sp, isSpace c = true) (h1 : ds ≠ []) (h4 : ds.length ≤ 4)
    (h : ∀ c ∈ ds, (Spec.hexOf c).isSome = true) (ht : ds.length = 4 ∨ tail = [] ∨ ∃ c t, tail = c :: t ∧ isSpace c = true) :
    sscanfKey zx (sp ++ bytes "0x" ++ ds ++ tail) = some (Spec.hexVal ds : Int) := by
  have e1 : (sp ++ bytes "0x" ++ ds ++ tail).dropWhile isSpace = bytes "0x" ++ (ds ++ tail) := by
    rw [List.append_assoc, List.append_assoc, List.dropWhile_append_of_pos hsp]
    rw [show bytes "0x" = [48, 120] by decide +kernel]
    rfl
  have hx : bytes "0x" = [48, 120] := by decide +kernel
  have e2 : ((bytes "0x" ++ (ds ++ tail)).drop 2).dropWhile isSpace = ds ++ tail := by
    rw [hx]
    show (ds ++ tail).dropWhile isSpace = _
    cases ds with
    | nil => exact absurd rfl h1
    | cons c t => rw [List.cons_append, List.dropWhile_cons_of_neg (by simp [(hex_facts c (h c (by simp))).2.2.1])]
  have e3 : (ds ++ tail).take 4 = ds ++ tail.take (4 - ds.length) := by
    rw [List.take_append, List.take_of_length_le h4]
  have ht' : tail.take (4 - ds.length) = [] ∨ ∃ c t, tail.take (4 - ds.length) = c :: t ∧ isSpace c = true := by
    rcases ht with e | rfl | ⟨c, t, rfl, hc⟩
    · left; rw [e]; rfl
    · left; simp
    · cases hn : 4 - ds.length with
      | zero => left; rfl
      | succ n => right; exact ⟨c, t.take n, rfl, hc⟩
  obtain ⟨a, b, c, d, e⟩ := scan_hex ds (tail.take (4 - ds.length)) h1 h ht'
  have hl : ds.length ≠ 0 := by intro e; exact h1 (List.length_eq_zero_iff.mp e)
  unfold sscanfKey
  simp only [e1, e2, e3]
  rw [if_pos (by rw [hx]; rfl)]
  simp only [d, e, or_self, if_false, List.drop_zero, a, b, c, false_and, hl]
  simp

/-! ### Lines -/

theorem fgets_append (n : Nat) (s : List Byte) : (fgets n s).1 ++ (fgets n s).2 = s := by
  induction n generalizing s with
  | zero => rfl
  | succ n ih =>
    cases s with
    | nil => rfl
    | cons c t =>
      unfold fgets
      split
      · rfl
      · simp [ih]

theorem fgets_length (n : Nat) (s : List Byte) : (fgets n s).1.length ≤ n := by
  induction n generalizing s with
  | zero => simp [fgets]
  | succ n ih =>
    cases s with
    | nil => simp [fgets]
    | cons c t =>
      unfold fgets
      split
      · simp
      · simp [ih]

theorem fgets_line (n : Nat) (s l : List Byte) (ls : List (List Byte)) (h : Spec.lines s = l :: ls) (hl : l.length ≤ n) :
    (fgets n s).1 = l ∧ Spec.lines (fgets n s).2 = ls := by
  induction s generalizing n l ls with
  | nil => cases h
  | cons c t ih =>
    unfold Spec.lines at h
    split at h
    · rename_i hc
      cases h
      cases n with
      | zero => simp at hl
      | succ n => unfold fgets; rw [if_pos hc]; exact ⟨rfl, rfl⟩
    · rename_i hc
      cases ht : Spec.lines t with
      | nil =>
        rw [ht] at h
        cases h
        have : t = [] := by
          cases t with
          | nil => rfl
          | cons d u =>
            exfalso
            unfold Spec.lines at ht
            split at ht
            · cases ht
            · split at ht <;> cases ht
        subst this
        cases n with
        | zero => simp at hl
        | succ n =>
          unfold fgets; rw [if_neg hc]
          cases n <;> exact ⟨rfl, rfl⟩
      | cons l' ls' =>
        rw [ht] at h
        cases h
        cases n with
        | zero => simp at hl
        | succ n =>
          obtain ⟨a, b⟩ := ih n l' ls ht (by simpa using hl)
          unfold fgets; rw [if_neg hc, a, b]
          exact ⟨rfl, rfl⟩

theorem lines_ne (s : List Byte) : ∀ l ∈ Spec.lines s, l ≠ [] := by
  induction s with
  | nil => intro l h; cases h
  | cons c t ih =>
    intro l h
    unfold Spec.lines at h
    split at h
    · rcases List.mem_cons.mp h with rfl | h
      · simp
      · exact ih l h
    · split at h
      · simp at h; subst h; simp
      · rename_i e
        rcases List.mem_cons.mp h with rfl | h
        · simp
        · exact ih l (by rw [e]; simp [h])

theorem lines_nil {s : List Byte} (h : Spec.lines s = []) : s = [] := by
  cases s with
  | nil => rfl
  | cons d u =>
    exfalso
    unfold Spec.lines at h
    split at h
    · cases h
    · split at h <;> cases h

theorem inputs_short (f : Nat) (s : List Byte) (hf : s.length < f) (h : ∀ l ∈ Spec.lines s, l.length ≤ 254) : inputsF f s = Spec.lines s := by
  induction f generalizing s with
  | zero => omega
  | succ f ih =>
    cases hs : Spec.lines s with
    | nil =>
      have := lines_nil hs
      subst this
      rfl
    | cons l ls =>
      obtain ⟨a, b⟩ := fgets_line 254 s l ls hs (h l (by rw [hs]; simp))
      have hl : l ≠ [] := lines_ne s l (by rw [hs]; simp)
      have hlp : 0 < l.length := List.length_pos_iff.mpr hl
      have hap := congrArg List.length (fgets_append 254 s)
      rw [List.length_append, a] at hap
      unfold inputsF
      rw [if_neg (by rw [a]; exact hl), a, ih _ (by omega) (by intro x hx; rw [b] at hx; exact h x (by rw [hs]; simp [hx])), b]

theorem inputs_le (f : Nat) (s : List Byte) : ∀ l ∈ inputsF f s, l.length ≤ 254 := by
  induction f generalizing s with
  | zero => intro l h; cases h
  | succ f ih =>
    intro l h
    unfold inputsF at h
    split at h
    · cases h
    · rcases List.mem_cons.mp h with rfl | h
      · exact fgets_length 254 s
      · exact ih _ l h

theorem fgets_nil {s : List Byte} (h : (fgets 254 s).1 = []) : s = [] := by
  cases s with
  | nil => rfl
  | cons c t =>
    unfold fgets at h
    split at h <;> cases h

theorem inputs_all (f : Nat) (s : List Byte) (hf : s.length < f) : (inputsF f s).flatten = s := by
  induction f generalizing s with
  | zero => omega
  | succ f ih =>
    unfold inputsF
    split
    · rename_i h
      rw [fgets_nil h]; rfl
    · rename_i h
      have hlp : 0 < (fgets 254 s).1.length := List.length_pos_iff.mpr h
      have hap := congrArg List.length (fgets_append 254 s)
      rw [List.length_append] at hap
      rw [List.flatten_cons, ih _ (by omega), fgets_append]

end Verif.Uibc
