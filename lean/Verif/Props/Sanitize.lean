import Verif.Proof.SanitizeWords
/-! # C20: sanitised lines -/
namespace Verif.Sanitize
open Verif.C

/-! ### The theorems -/

/-- **C20 (what the code computes).** In a block holding a line of any bytes and one byte more,
`sanitize_line` stays inside of the block, and leaves the sanitised text followed by a NUL; the
result is its length. -/
theorem sanitize_exact (l : List Byte) (x : Byte) :
    ∃ b, sanitizeLine (l ++ [x]) l.length = some (b, (Spec.text l).length) ∧ b.length = l.length + 1 ∧
      (Spec.text l).length ≤ l.length ∧
      b.take ((Spec.text l).length + 1) = Spec.text l ++ [0] ∧ (0 : Byte) ∉ Spec.text l := by
  have hnz : (0 : Byte) ∉ Spec.text l := joined_nz _ (words_good l .plain [] trivial rfl)
  obtain ⟨s, hl, h1, h2, h3, h4, h5, mid, h6, h7⟩ :=
    loop_sim l [x] 0 ⟨l ++ [x], 0, 0, false, false⟩ ⟨[], 0, false, false⟩
      ⟨rfl, Nat.le_refl _, rfl, rfl, rfl, [], by simp, rfl⟩
  obtain ⟨ds, cur, hr, hw⟩ := fold_words l ⟨[], 0, false, false⟩ [] [] .plain
    ⟨rfl, by simp, by simp, rfl, fun _ => ⟨fun h => absurd rfl h, fun _ h => absurd rfl h⟩, fun h => absurd rfl h, by simp⟩
  simp only [List.nil_append, Nat.zero_add] at hw h7 h2
  generalize List.foldl fstep ⟨[], 0, false, false⟩ l = f at *
  have hlen : s.buf.length = l.length + 1 := by rw [h6]; simp; omega
  unfold sanitizeLine
  rw [hl]
  simp only [Option.bind_eq_bind, Option.bind_some]
  rw [wr_some (by rw [hlen, h1]; simp; omega)]
  simp only [Option.bind_some]
  have hbuf : s.buf.take s.dst ++ [0] ++ s.buf.drop (s.dst + [(0 : Byte)].length) = f.out ++ 0 :: (mid ++ [x]).drop 1 := by
    rw [h6, h1]
    simp only [List.append_assoc, List.take_left, List.length_singleton]
    rw [← List.drop_drop, List.drop_left]; simp
  rw [hbuf]
  have htext : Spec.text l = Spec.joined (ds ++ if cur = [] then [] else [cur]) := by
    unfold Spec.text; rw [hw]
  have hout := hr.out
  by_cases hq : s.quoted = true
  · have hcur : cur ≠ [] := by
      apply hr.curq
      rw [hr.mode]
      rw [h4] at hq
      rw [hq]; split <;> simp
    rw [if_neg hcur] at hout htext
    rw [if_pos hq]
    rw [← htext] at hout
    refine ⟨_, by rw [h1, hout], ?_, by rw [← hout]; omega, ?_, hnz⟩
    · simp only [List.length_append, List.length_cons, List.length_drop, List.length_nil]; rw [hout] at h7; omega
    · rw [← hout]
      exact takeSnoc _ _ _
  · rw [if_neg hq]
    have hqf : f.quoted = false := by rw [← h4]; simpa using hq
    have hef : f.escaped = false := by
      cases h : f.escaped with
      | false => rfl
      | true => rw [hr.esc h] at hqf; exact absurd hqf (by decide)
    have hm : Spec.endMode .plain l = .plain := by rw [hr.mode, hef, hqf]; rfl
    have hlast := hr.last hm
    by_cases hcur : cur = []
    · rw [if_pos hcur] at hout htext
      rw [List.append_nil] at htext
      by_cases hd : ds = []
      · rw [if_pos hd] at hout
        subst hd
        have ht0 : Spec.text l = [] := htext
        rw [h1, hout, ht0]
        exact ⟨_, rfl, by rw [hout] at h7; simp at h7 ⊢; omega, by simp, rfl, by simp⟩
      · rw [if_neg hd, ← htext] at hout
        rw [h1, hout]
        have hlj := last_joined ds hr.ne hr.dl
        rw [← htext] at hlj
        have := trim_one (Spec.text l ++ [ch ' '] ++ 0 :: (mid ++ [x]).drop 1) (Spec.text l) (0 :: (mid ++ [x]).drop 1) (by simp) hlj
        rw [show (Spec.text l ++ [ch ' ']).length = (Spec.text l).length + 1 by simp, this]
        rw [hout] at h7
        simp at h7
        exact ⟨_, rfl, by simp only [List.length_append, List.length_cons, List.length_drop, List.length_nil]; omega, by omega, takeSnoc _ _ _, hnz⟩
    · rw [if_neg hcur, ] at hout htext
      rw [← htext] at hout
      have hlj := last_joined (ds ++ [cur])
        (by intro w hw; rcases List.mem_append.mp hw with h | h
            · exact hr.ne w h
            · simp at h; subst h; exact hcur)
        (by intro w hw; rcases List.mem_append.mp hw with h | h
            · exact hr.dl w h
            · simp at h; subst h; exact (hlast.1 hcur).2)
      rw [← htext] at hlj
      rw [h1, hout, trim_none _ _ (Spec.text l) (0 :: (mid ++ [x]).drop 1) rfl rfl hlj]
      rw [hout] at h7
      exact ⟨_, rfl, by simp only [List.length_append, List.length_cons, List.length_drop, List.length_nil]; omega, by omega, takeSnoc _ _ _, hnz⟩

example : Spec.text (bytes "  GET\t \r\n x:  \"a  b\" ") = bytes "GET x: \"a  b\"" ∧
    (sanitizeLine (bytes " a\t b " ++ [7]) 6).map (fun r => (r.1.take 4, r.2)) = some (bytes "a b" ++ [0], 3) := by decide +kernel

/-- **C20 (form).** A sanitised line has no NUL; outside of double quotes it has no CR, LF or tab, no two
successive blanks and no blank at the start; and unless a quote is left open, it has none at the end. -/
theorem sanitized_form (l : List Byte) :
    (0 : Byte) ∉ Spec.text l ∧ Spec.Tidy .plain true (Spec.text l) ∧
    (Spec.endMode .plain (Spec.text l) = .plain → (Spec.text l).getLast? ≠ some (ch ' ')) := by
  have hg := words_good l .plain [] trivial rfl
  refine ⟨joined_nz _ hg, tidy_joined _ hg, ?_⟩
  unfold Spec.text
  generalize Spec.words .plain [] l = ws at *
  intro he
  rcases List.eq_nil_or_concat ws with rfl | ⟨init, w, rfl⟩
  · simp [Spec.joined]
  · rw [List.concat_eq_append] at *
    have hlast : Spec.endMode .plain w = .plain := by
      by_cases hi : init = []
      · subst hi; exact he
      · rw [joined_snoc _ _ hi, endMode_append] at he
        have hinit : Spec.endMode .plain (Spec.joined init) = .plain := by
          have : ∀ ws : List (List Byte), (∀ w ∈ ws, Spec.endMode .plain w = .plain) → Spec.endMode .plain (Spec.joined ws) = .plain := by
            intro ws
            induction ws with
            | nil => intro _; rfl
            | cons a t ih =>
              intro h
              cases t with
              | nil => exact h a (by simp)
              | cons b t =>
                show Spec.endMode .plain (a ++ ch ' ' :: Spec.joined (b :: t)) = _
                rw [endMode_append, h a (by simp)]
                exact ih (fun w hw => h w (List.mem_cons_of_mem _ hw))
          exact this init (fun w hw => hg.closed w (by simpa using hw))
        rw [hinit] at he
        exact he
    apply last_joined
    · intro x hx; exact (hg.ok x hx).2
    · intro x hx
      rcases List.mem_append.mp hx with h | h
      · exact wordOk_last x _ (hg.ok x (by simp [h])).1 (hg.closed x (by simpa using h)) (hg.ok x (by simp [h])).2
      · simp at h; subst h
        exact wordOk_last x _ (hg.ok x (by simp)).1 hlast (hg.ok x (by simp)).2

example : Spec.endMode .plain (Spec.text (bytes " a \"b\tc\" d\n")) = .plain ∧
    Spec.text (bytes " a \"b\tc\" d\n") = bytes "a \"b\tc\" d" ∧ Spec.text (bytes "a \" b ") = bytes "a \" b " := by decide +kernel

/-- **C20 (idempotent).** -/
theorem sanitize_idempotent (l : List Byte) : Spec.text (Spec.text l) = Spec.text l := by
  unfold Spec.text
  rw [words_joined _ (words_good l .plain [] trivial rfl)]

example : Spec.text (bytes "a \t\"x\\\"  \\\\\"\n b") = bytes "a \"x\\\"  \\\\\" b" := by decide +kernel

/-- **C20 is false inside of quotes**: line ends are kept there. -/
theorem sanitize_keeps_newline_in_quotes : (13 : Byte) ∈ Spec.text (bytes "a: \"\r\nEvil: x\"") ∧
    Spec.text (bytes "a: \"\r\nEvil: x\"") = bytes "a: \"\r\nEvil: x\"" := by decide +kernel

end Verif.Sanitize
