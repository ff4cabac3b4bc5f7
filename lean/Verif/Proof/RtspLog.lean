import Verif.Proof.RtspChunk
/-! What the RTSP parser hands out, step by step: helper lemmas. -/
namespace Verif.Rtsp
open Verif.C

/-- One step delivers at most one message, sealed and marked as used, and returns the error of its callback. -/
def Gives (env : Env) (b : Bus) (r : Int × Bus) : Prop :=
  r.2.log = b.log ∨
  ∃ m, r.2.log = b.log ++ [m] ∧ m.isSealed = true ∧ m.isUsed = true ∧ ((env.H b.log m).1 < 0 → r.1 = (env.H b.log m).1)

theorem seal_sealed (mv : Moves) (ck : Nat) (m : Msg) (r : Int × Nat × Msg) (h : sealMsg mv ck m = some r) (h0 : ¬ r.1 < 0) :
    r.2.2.isSealed = true := by
  unfold sealMsg at h
  split at h
  · rename_i hs; cases h; exact hs
  · split at h
    · cases h; exact absurd (show (-EINVAL : Int) < 0 by decide) h0
    · simp only at h
      split at h
      · cases h; rfl
      · simp only [Option.bind_eq_bind, Option.bind_eq_some_iff] at h
        obtain ⟨x, _, h⟩ := h
        split at h
        · rename_i hx; cases h; exact absurd hx h0
        · cases h; rfl

theorem incoming_gives (env : Env) (b b0 : Bus) (m : Msg) (hb : b.log = b0.log) (h1 : m.isSealed = true) (h2 : m.isUsed = true) :
    Gives env b0 (incoming env b m) := by
  right
  refine ⟨m, by rw [← hb]; rfl, h1, h2, fun h => ?_⟩
  unfold incoming
  simp only
  rw [hb, if_pos h]

theorem submit_gives (env : Env) (b b0 : Bus) (hb : b.log = b0.log) (r : Int × Bus) (h : submit env b = some r) : Gives env b0 r := by
  unfold submit at h
  split at h
  · cases h; exact Or.inl hb
  · simp only [Option.bind_eq_bind, Option.bind_eq_some_iff] at h
    obtain ⟨s, hs, h⟩ := h
    split at h
    · cases h; exact Or.inl hb
    · rename_i h0
      cases h; exact incoming_gives _ _ _ _ hb (seal_sealed _ _ _ _ hs h0) rfl

theorem submitData_gives (env : Env) (b b0 : Bus) (hb : b.log = b0.log) (p : List Byte) (r : Int × Bus) (h : submitData env b p = some r) :
    Gives env b0 r := by
  unfold submitData at h
  split at h
  · cases h; exact Or.inl hb
  · simp only [Option.bind_eq_bind, Option.bind_eq_some_iff] at h
    obtain ⟨s, hs, h⟩ := h
    split at h
    · cases h; exact Or.inl hb
    · rename_i h0
      cases h; exact incoming_gives _ _ _ _ hb (seal_sealed _ _ _ _ hs h0) rfl

theorem reset_gives (env : Env) (b0 : Bus) (r : Int × Bus) (h : Gives env b0 r) : Gives env b0 (reset r) := by
  rcases h with h | ⟨m, h1, h2, h3, h4⟩
  · exact Or.inl h
  · refine Or.inr ⟨m, h1, h2, h3, fun h => ?_⟩
    show (if r.1 < 0 then r.1 else 0) = _
    rw [if_pos (by rw [h4 h]; exact h)]
    exact h4 h

theorem headerEnd_gives (env : Env) (b : Bus) (d : Parser) (s0 s1 : PState) (r : Int × Bus) (h : headerEnd env b d s0 s1 = some r) :
    Gives env b r := by
  unfold headerEnd at h
  simp only [Option.bind_eq_bind, Option.bind_eq_some_iff] at h
  obtain ⟨x, _, h⟩ := h
  split at h
  · cases h; exact Or.inl rfl
  · split at h
    · exact submit_gives env (b.put ((pull x.2 (x.2.buflen + 1) 0).goto s0)) b rfl _ h
    · cases h; exact Or.inl rfl

theorem feedHeader_gives (env : Env) (b : Bus) (c : Byte) (r : Int × Bus) (h : feedHeader env b c = some r) : Gives env b r := by
  unfold feedHeader at h
  simp only at h
  split at h
  · split at h
    · exact headerEnd_gives _ _ _ _ _ _ h
    · cases h; exact Or.inl rfl
  · split at h
    · split at h
      · exact headerEnd_gives _ _ _ _ _ _ h
      · cases h; exact Or.inl rfl
    · split at h
      · cases h; exact Or.inl rfl
      · split at h
        · simp only [Option.bind_eq_bind, Option.bind_eq_some_iff] at h
          obtain ⟨x, hx, h⟩ := h
          split at h
          · cases h; exact Or.inl rfl
          · cases h; exact Or.inl rfl
        · cases h; exact Or.inl rfl

theorem bodyDone_gives (env : Env) (b b0 : Bus) (hb : b.log = b0.log) (r : Int × Bus) (h : bodyDone env b = some r) : Gives env b0 r := by
  unfold bodyDone at h
  split at h
  · cases h; exact Or.inl hb
  · simp only [Option.bind_eq_bind, Option.bind_eq_some_iff] at h
    obtain ⟨raw, _, a, ha, h⟩ := h
    split at h
    · exact submit_gives env (b.put (b.dec.setM (some a.2))) b0 hb _ h
    · cases h; exact Or.inl hb

theorem feedBody_gives (env : Env) (b b0 : Bus) (hb : b.log = b0.log) (c : Byte) (r : Int × Bus) (h : feedBody env b c = some r) : Gives env b0 r := by
  unfold feedBody at h
  split at h
  · cases h; exact Or.inl hb
  · simp only at h
    split at h
    · cases h; exact Or.inl hb
    · simp only [Option.map_eq_some_iff] at h
      obtain ⟨x, hx, h⟩ := h
      cases h; exact reset_gives _ _ _ (bodyDone_gives env (b.put { b.dec.inc with remaining := b.dec.remaining - 1 }) b0 hb _ hx)

theorem feedChar_gives (env : Env) (b : Bus) (c : Byte) (r : Int × Bus) (h : feedChar env b c = some r) : Gives env b r := by
  unfold feedChar at h
  cases hs : b.dec.state with
  | new => rw [hs] at h; cases h; exact Or.inl rfl
  | header => rw [hs] at h; exact feedHeader_gives _ _ _ _ h
  | headerQuote => rw [hs] at h; cases h; exact Or.inl rfl
  | headerNl =>
    rw [hs] at h
    simp only at h
    unfold feedNl at h
    split at h
    · cases h; exact Or.inl rfl
    · exact feedBody_gives env (b.put ((pull b.dec b.dec.buflen 0).goto .body)) b rfl _ _ h
  | body => rw [hs] at h; exact feedBody_gives _ _ _ rfl _ _ h
  | dataHead =>
    rw [hs] at h
    simp only [Option.map_eq_some_iff] at h
    obtain ⟨x, _, h⟩ := h
    cases h; exact Or.inl rfl
  | dataBody =>
    rw [hs] at h
    simp only at h
    unfold feedDataBody at h
    simp only at h
    split at h
    · simp only [Option.bind_eq_bind, Option.bind_eq_some_iff] at h
      obtain ⟨p, _, x, hx, h⟩ := h
      cases h; exact reset_gives _ _ _ (submitData_gives env (b.put b.dec.inc) b rfl _ _ hx)
    · cases h; exact Or.inl rfl

/-- Every message in the log is complete; a callback that failed was for the last one and gave the code `r`. -/
def LogOk (env : Env) (r : Int) (log : List Msg) : Prop :=
  ∀ l1 m l2, log = l1 ++ m :: l2 → m.isSealed = true ∧ m.isUsed = true ∧ ((env.H l1 m).1 < 0 → l2 = [] ∧ r = (env.H l1 m).1)

theorem logOk_step (env : Env) (log : List Msg) (m : Msg) (r : Int) (h : LogOk env 0 log) (h1 : m.isSealed = true) (h2 : m.isUsed = true)
    (h3 : (env.H log m).1 < 0 → r = (env.H log m).1) : LogOk env r (log ++ [m]) := by
  intro l1 x l2 e
  by_cases hn : l2 = []
  · subst hn
    have : l1 = log ∧ x = m := by
      have := List.append_inj' e rfl
      exact ⟨this.1.symm, by simpa using this.2.symm⟩
    obtain ⟨rfl, rfl⟩ := this
    exact ⟨h1, h2, fun h => ⟨rfl, h3 h⟩⟩
  · obtain ⟨y, z, rfl⟩ : ∃ y z, l2 = y ++ [z] := ⟨l2.dropLast, l2.getLast hn, (List.dropLast_concat_getLast hn).symm⟩
    have e' : log ++ [m] = (l1 ++ x :: y) ++ [z] := by rw [e]; simp
    have := (List.append_inj' e' rfl).1
    obtain ⟨a, b, c⟩ := h l1 x y this
    refine ⟨a, b, fun hh => ?_⟩
    have := (c hh).2
    rw [← this] at hh
    exact absurd hh (Int.lt_irrefl 0)

theorem logOk_code {env : Env} {r : Int} {log : List Msg} (h : LogOk env r log) (h0 : 0 ≤ r) (r' : Int) : LogOk env r' log := by
  intro l1 m l2 e
  obtain ⟨a, b, c⟩ := h l1 m l2 e
  refine ⟨a, b, fun hh => ?_⟩
  have := (c hh).2
  omega

theorem run_log (env : Env) (t : List Byte) : ∀ (b : Bus) (r : Int × Bus), LogOk env 0 b.log → run env b t = some r → LogOk env r.1 r.2.log := by
  induction t with
  | nil => intro b r hb h; cases h; exact hb
  | cons c t ih =>
    intro b r hb h
    unfold run at h
    simp only [Option.bind_eq_bind, Option.bind_eq_some_iff] at h
    obtain ⟨x, hx, h⟩ := h
    have hg : LogOk env x.1 x.2.log := by
      rcases feedChar_gives env _ c x hx with hl | ⟨m, hl, h1, h2, h3⟩
      · rw [hl]; exact logOk_code hb (Int.le_refl 0) _
      · rw [hl]; exact logOk_step env b.log m x.1 hb h1 h2 h3
    split at h
    · cases h; exact hg
    · rename_i h0
      exact ih (x.2.last c) r (logOk_code hg (by omega) 0) h

end Verif.Rtsp
