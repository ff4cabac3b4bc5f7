import Verif.Proof.Sanitize
/-! Words of a sanitised line: helper lemmas. -/
namespace Verif.Sanitize
open Verif.C

theorem takeSnoc (a : List Byte) (x : Byte) (t : List Byte) : (a ++ x :: t).take (a.length + 1) = a ++ [x] := by
  induction a with
  | nil => rfl
  | cons c r ih => simpa using ih

/-! ### Facts about words -/

/-- `w` is (part of) a word beginning in mode `m`: no NUL, no white space outside of quotes. -/
def WordOk : Spec.Mode → List Byte → Prop
  | _, [] => True
  | m, c :: t => c ≠ 0 ∧ (m = .plain → Spec.white c = false) ∧ WordOk (Spec.next m c) t

theorem wordOk_append (m : Spec.Mode) (a b : List Byte) :
    WordOk m (a ++ b) ↔ WordOk m a ∧ WordOk (Spec.endMode m a) b := by
  induction a generalizing m with
  | nil => simp [WordOk, Spec.endMode]
  | cons c t ih =>
    simp only [List.cons_append, WordOk, ih]
    show _ ↔ _ ∧ WordOk (Spec.endMode (Spec.next m c) t) b
    constructor
    · rintro ⟨h1, h2, h3, h4⟩; exact ⟨⟨h1, h2, h3⟩, h4⟩
    · rintro ⟨⟨h1, h2, h3⟩, h4⟩; exact ⟨h1, h2, h3, h4⟩

theorem endMode_append (m : Spec.Mode) (a b : List Byte) :
    Spec.endMode m (a ++ b) = Spec.endMode (Spec.endMode m a) b := by
  simp [Spec.endMode]

/-- The list of words of a line. -/
structure Good (ws : List (List Byte)) : Prop where
  ok : ∀ w ∈ ws, WordOk .plain w ∧ w ≠ []
  closed : ∀ w ∈ ws.dropLast, Spec.endMode .plain w = .plain

theorem good_cons {w : List Byte} {ws : List (List Byte)} (h1 : WordOk .plain w) (h2 : w ≠ []) (h3 : Spec.endMode .plain w = .plain)
    (h : Good ws) : Good (w :: ws) := by
  refine ⟨?_, ?_⟩
  · intro x hx
    rcases List.mem_cons.mp hx with rfl | hx
    · exact ⟨h1, h2⟩
    · exact h.ok x hx
  · intro x hx
    cases ws with
    | nil => simp at hx
    | cons a t =>
      rw [List.dropLast_cons_of_ne_nil (by simp)] at hx
      rcases List.mem_cons.mp hx with rfl | hx
      · exact h3
      · exact h.closed x hx

theorem words_good (l : List Byte) (m : Spec.Mode) (cur : List Byte) (h1 : WordOk .plain cur) (h2 : Spec.endMode .plain cur = m) :
    Good (Spec.words m cur l) := by
  induction l generalizing m cur with
  | nil =>
    unfold Spec.words
    split
    · exact ⟨by simp, by simp⟩
    · rename_i hne; exact ⟨by intro w hw; simp at hw; subst hw; exact ⟨h1, hne⟩, by simp⟩
  | cons c t ih =>
    rw [words_step]
    split
    · rename_i hw
      obtain ⟨hm, hw⟩ := hw
      subst hm
      have := ih .plain [] trivial rfl
      split
      · simpa using this
      · rename_i hne; exact good_cons h1 hne h2 this
    · rename_i hw
      apply ih
      · rw [wordOk_append, h2]
        refine ⟨h1, ?_⟩
        unfold Spec.keep
        by_cases h0 : c = 0
        · rw [if_pos h0]
          by_cases he : m = .escaped
          · rw [if_pos he]; subst he; exact ⟨by decide, by simp, trivial⟩
          · rw [if_neg he]; trivial
        · rw [if_neg h0]
          refine ⟨h0, ?_, trivial⟩
          intro hm
          cases h : Spec.white c with
          | false => rfl
          | true => exact absurd ⟨hm, h⟩ hw
      · rw [endMode_append, h2]
        unfold Spec.keep
        by_cases h0 : c = 0
        · rw [if_pos h0]; subst h0
          cases m <;> decide
        · rw [if_neg h0]; rfl

theorem words_word (w : List Byte) (m : Spec.Mode) (cur t : List Byte) (h : WordOk m w) :
    Spec.words m cur (w ++ t) = Spec.words (Spec.endMode m w) (cur ++ w) t := by
  induction w generalizing m cur with
  | nil => simp [Spec.endMode]
  | cons c r ih =>
    obtain ⟨h1, h2, h3⟩ := h
    rw [List.cons_append, words_step, if_neg (by rintro ⟨ha, hb⟩; rw [h2 ha] at hb; exact absurd hb (by decide)), ih _ _ h3]
    have hk : Spec.keep m c = [c] := by simp [Spec.keep, h1]
    rw [hk]
    show Spec.words (Spec.endMode (Spec.next m c) r) _ t = _
    simp [Spec.endMode]

theorem words_joined (ws : List (List Byte)) (h : Good ws) : Spec.words .plain [] (Spec.joined ws) = ws := by
  induction ws with
  | nil => rfl
  | cons w t ih =>
    have hw := h.ok w (by simp)
    cases t with
    | nil =>
      have := words_word w .plain [] [] hw.1
      simp only [List.append_nil, List.nil_append] at this
      show Spec.words .plain [] w = _
      rw [this]
      unfold Spec.words
      rw [if_neg hw.2]
    | cons b t =>
      have hc : Spec.endMode .plain w = .plain := h.closed w (by rw [List.dropLast_cons_of_ne_nil (by simp)]; simp)
      have hg : Good (b :: t) := by
        refine ⟨fun x hx => h.ok x (List.mem_cons_of_mem _ hx), fun x hx => h.closed x ?_⟩
        rw [List.dropLast_cons_of_ne_nil (by simp)]; exact List.mem_cons_of_mem _ hx
      show Spec.words .plain [] (w ++ ch ' ' :: Spec.joined (b :: t)) = _
      rw [words_word _ _ _ _ hw.1, hc, words_step, if_pos ⟨rfl, by decide⟩, ih hg, List.nil_append, if_neg hw.2]
      rfl

theorem wordOk_nz (w : List Byte) (m : Spec.Mode) (h : WordOk m w) : (0 : Byte) ∉ w := by
  induction w generalizing m with
  | nil => simp
  | cons c t ih => simp only [List.mem_cons, not_or]; exact ⟨fun e => h.1 e.symm, ih _ h.2.2⟩

theorem wordOk_last (w : List Byte) (m : Spec.Mode) (h : WordOk m w) (he : Spec.endMode m w = .plain) (hne : w ≠ []) :
    w.getLast? ≠ some (ch ' ') := by
  induction w generalizing m with
  | nil => exact absurd rfl hne
  | cons c t ih =>
    cases t with
    | nil =>
      simp only [List.getLast?_singleton, ne_eq, Option.some.injEq]
      rintro rfl
      cases m with
      | plain => have := h.2.1 rfl; revert this; decide
      | quoted => revert he; decide
      | escaped => revert he; decide
    | cons d t =>
      rw [List.getLast?_cons_cons]
      exact ih _ h.2.2 he (by simp)

theorem joined_nz (ws : List (List Byte)) (h : Good ws) : (0 : Byte) ∉ Spec.joined ws := by
  have : ∀ ws : List (List Byte), (∀ w ∈ ws, (0 : Byte) ∉ w) → (0 : Byte) ∉ Spec.joined ws := by
    intro ws
    induction ws with
    | nil => simp [Spec.joined]
    | cons a t ih =>
      intro h
      cases t with
      | nil => exact h a (by simp)
      | cons b t =>
        show (0 : Byte) ∉ a ++ ch ' ' :: Spec.joined (b :: t)
        simp only [List.mem_append, List.mem_cons, not_or]
        exact ⟨h a (by simp), by decide, ih (fun w hw => h w (List.mem_cons_of_mem _ hw))⟩
  exact this ws (fun w hw => wordOk_nz w _ (h.ok w hw).1)

theorem tidy_word (w : List Byte) (m : Spec.Mode) (b : Bool) (t : List Byte) (h : WordOk m w)
    (ht : Spec.Tidy (Spec.endMode m w) (if w = [] then b else false) t) : Spec.Tidy m b (w ++ t) := by
  induction w generalizing m b with
  | nil => simpa [Spec.endMode] using ht
  | cons c r ih =>
    obtain ⟨h1, h2, h3⟩ := h
    have hw : m = .plain → c ≠ 13 ∧ c ≠ 10 ∧ c ≠ 9 ∧ c ≠ ch ' ' := by
      intro hm
      have := h2 hm
      simp only [Spec.white, Bool.or_eq_false_iff, decide_eq_false_iff_not] at this
      exact ⟨this.2, this.1.2, this.1.1.2, this.1.1.1⟩
    refine ⟨fun hm => ⟨(hw hm).1, (hw hm).2.1, (hw hm).2.2.1, fun e => absurd e (hw hm).2.2.2⟩, ?_⟩
    apply ih _ _ h3
    have hf : decide (m = .plain ∧ c = ch ' ') = false := by
      rw [decide_eq_false_iff_not]
      rintro ⟨hm, hc⟩; exact (hw hm).2.2.2 hc
    rw [hf]
    simp only [reduceCtorEq, if_false] at ht
    split <;> exact ht

theorem tidy_joined (ws : List (List Byte)) (h : Good ws) : Spec.Tidy .plain true (Spec.joined ws) := by
  have : ∀ b, Spec.Tidy .plain b (Spec.joined ws) := by
    induction ws with
    | nil => intro b; trivial
    | cons w t ih =>
      intro b
      have hw := h.ok w (by simp)
      cases t with
      | nil =>
        have := tidy_word w .plain b [] hw.1 trivial
        rw [List.append_nil] at this
        exact this
      | cons x t =>
        have hc : Spec.endMode .plain w = .plain := h.closed w (by rw [List.dropLast_cons_of_ne_nil (by simp)]; simp)
        have hg : Good (x :: t) := by
          refine ⟨fun y hy => h.ok y (List.mem_cons_of_mem _ hy), fun y hy => h.closed y ?_⟩
          rw [List.dropLast_cons_of_ne_nil (by simp)]; exact List.mem_cons_of_mem _ hy
        show Spec.Tidy .plain b (w ++ ch ' ' :: Spec.joined (x :: t))
        apply tidy_word _ _ _ _ hw.1
        rw [hc, if_neg hw.2]
        refine ⟨fun _ => ⟨by decide, by decide, by decide, fun _ => rfl⟩, ?_⟩
        exact ih hg _
  exact this true

end Verif.Sanitize
