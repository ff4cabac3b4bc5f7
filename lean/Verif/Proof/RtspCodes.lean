import Verif.Proof.RtspParse
import Verif.Proof.Atoi
/-! Which error codes the RTSP parser can return: helper lemmas. -/
namespace Verif.Rtsp
open Verif.C

/-- The codes of the functions below the callbacks. -/
def Code (r : Int) : Prop := r = 0 ∨ r = -EINVAL ∨ r = -ENOMEM ∨ r = -EBUSY ∨ r = -ERANGE

theorem code0 : Code 0 := Or.inl rfl
theorem codeInval : Code (-EINVAL) := Or.inr (Or.inl rfl)
theorem codeNomem : Code (-ENOMEM) := Or.inr (Or.inr (Or.inl rfl))
theorem codeBusy : Code (-EBUSY) := Or.inr (Or.inr (Or.inr (Or.inl rfl)))
theorem codeRange : Code (-ERANGE) := Or.inr (Or.inr (Or.inr (Or.inr rfl)))

theorem Code.cases {r : Int} (h : Code r) : r = 0 ∨ r < 0 := by
  unfold Code EINVAL ENOMEM EBUSY ERANGE at h; omega

theorem Code.fine {r : Int} (h : Code r) : r ≠ -EAGAIN ∧ r ≠ -EFAULT := by
  unfold Code EINVAL ENOMEM EBUSY ERANGE at h; unfold EAGAIN EFAULT; omega

theorem atoiZn_code (s : List Byte) : Code (Atoi.atoiZn s 10).code := by
  have h := (Atoi.atoiUlln_spec s 10 (by decide)).2
  unfold Atoi.atoiZn Atoi.narrow
  simp only
  split
  · exact codeRange
  · unfold Code; omega

theorem setValue_code (h : Header) (v : List Byte) (n : Nat) (f : Bool) : Code (setValue h v n f).1 := by
  unfold setValue
  split
  · exact codeInval
  · split
    · exact codeInval
    · exact code0

theorem appendHeader_code (mv : Moves) (m : Msg) (k v : List Byte) (n : Nat) (l : Option (List Byte)) :
    Code (appendHeader mv m k v n l).1 := by
  unfold appendHeader
  split
  · exact codeInval
  · split
    · exact codeNomem
    · exact code0

theorem appendHeaderLine_code (mv : Moves) (m : Msg) (l : List Byte) : Code (appendHeaderLine mv m l).1 :=
  appendHeader_code _ _ _ _ _ _

theorem appendLine_code (mv : Moves) (m : Msg) (l : List Byte) : Code (appendLine mv m l).1 := by
  unfold appendLine
  split
  · exact codeInval
  · split
    · exact codeBusy
    · split
      · exact codeInval
      · exact appendHeaderLine_code _ _ _

theorem openHeader_code (mv : Moves) (m : Msg) (l : List Byte) : Code (openHeader mv m l).1 := by
  unfold openHeader
  split
  · exact codeInval
  · split
    · exact codeBusy
    · split
      · exact codeInval
      · simp only
        split
        · exact appendHeader_code _ _ _ _ _ _
        · exact code0

theorem closeHeader_code (m : Msg) (r : Int × Msg) (h : closeHeader m = some r) : Code r.1 := by
  unfold closeHeader at h
  split at h
  · cases h; exact codeInval
  · split at h
    · cases h; exact codeBusy
    · split at h
      · cases h; exact codeInval
      · cases hg : getIter m with
        | none => rw [hg] at h; cases h
        | some x => rw [hg] at h; cases h; exact code0

theorem openBody_code (m : Msg) : Code (openBody m).1 := by
  unfold openBody
  split
  · exact codeInval
  · split
    · exact codeBusy
    · split
      · exact codeInval
      · exact code0

theorem closeBody_code (m : Msg) : Code (closeBody m).1 := by
  unfold closeBody
  split
  · exact codeInval
  · split
    · exact codeBusy
    · split
      · exact codeInval
      · split
        · exact codeInval
        · exact code0

theorem appendToken_code (h : Header) (t : List Byte) : Code (appendToken h t).1 := by
  unfold appendToken
  split
  · exact codeInval
  · exact code0

theorem appendTok_code (m : Msg) (t : List Byte) (r : Int × Msg) (h : appendTok m t = some r) : Code r.1 := by
  unfold appendTok at h
  split at h
  · cases h; exact codeInval
  · cases hg : getIter m with
    | none => rw [hg] at h; cases h
    | some x => rw [hg] at h; cases h; exact appendToken_code _ _

theorem appendBasic_code (mv : Moves) (m : Msg) (a : Arg) (r : Int × Msg) (h : appendBasic mv m a = some r) : Code r.1 := by
  unfold appendBasic at h
  split at h
  · cases h; exact codeInval
  · split at h
    · cases h; exact codeBusy
    · cases a with
      | raw s =>
        simp only at h
        split at h
        · cases hg : getIter m with
          | none => rw [hg] at h; cases h
          | some x => rw [hg] at h; cases h; exact setValue_code _ _ _ _
        · cases h; exact appendLine_code _ _ _
      | headerStart s => cases h; exact openHeader_code _ _ _
      | headerEnd => exact closeHeader_code _ _ h
      | bodyStart => cases h; exact openBody_code _
      | bodyEnd => cases h; exact closeBody_code _
      | str s => exact appendTok_code _ _ _ h
      | i32 i => exact appendTok_code _ _ _ h
      | u32 i => exact appendTok_code _ _ _ h
      | other => cases h; exact codeInval

theorem append_code (mv : Moves) (l : List Arg) : ∀ (m : Msg) (r : Int × Msg), append mv m l = some r → Code r.1 := by
  induction l with
  | nil =>
    intro m r h
    unfold append at h
    split at h
    · cases h; exact codeInval
    · split at h <;> cases h
      · exact codeBusy
      · exact code0
  | cons a t ih =>
    intro m r h
    unfold append at h
    cases hb : appendBasic mv m a with
    | none => rw [hb] at h; cases h
    | some x =>
      rw [hb] at h
      simp only [Option.bind_eq_bind, Option.bind_some] at h
      split at h
      · cases h; exact appendBasic_code _ _ _ _ hb
      · split at h
        · cases h; exact code0
        · exact ih _ _ h

theorem special_code (mv : Moves) (m : Msg) (p : Option Ptr) (n : List Byte) (v : Arg) (t : List Byte) (r : Int × Msg)
    (h : special mv m p n v t = some r) : Code r.1 := by
  unfold special at h
  cases p with
  | some p =>
    simp only at h
    cases hr : rewrite m p t with
    | none => rw [hr] at h; cases h
    | some x => rw [hr] at h; cases h; exact code0
  | none =>
    simp only at h
    cases hc : closeHeader m with
    | none => rw [hc] at h; cases h
    | some c => rw [hc] at h; exact append_code _ _ _ _ h

theorem ite_code {c : Prop} [Decidable c] {x y : Option (Int × Msg)} {r : Int × Msg} (h : (if c then x else y) = some r)
    (hx : x = some r → Code r.1) (hy : y = some r → Code r.1) : Code r.1 := by
  split at h
  · exact hx h
  · exact hy h

theorem serializeCommon_code (mv : Moves) (m : Msg) (r : Int × Msg) (h : serializeCommon mv m = some r) : Code r.1 := by
  unfold serializeCommon at h
  simp only [Option.bind_eq_bind, Option.bind_eq_some_iff] at h
  obtain ⟨head, _, cb, _, r1, h1, h⟩ := h
  split at h
  · cases h; exact ite_code h1 (special_code _ _ _ _ _ _ _) (fun h => by cases h; exact code0)
  · simp only [Option.bind_eq_some_iff] at h
    obtain ⟨r2, h2, h⟩ := h
    split at h
    · cases h; exact ite_code h2 (special_code _ _ _ _ _ _ _) (fun h => by cases h; exact code0)
    · simp only [Option.bind_eq_some_iff] at h
      obtain ⟨r3, h3, h⟩ := h
      split at h
      · cases h; exact special_code _ _ _ _ _ _ _ h3
      · simp only [Option.bind_eq_some_iff] at h
        obtain ⟨hs, _, h⟩ := h
        cases h; exact code0

theorem sealMsg_code (mv : Moves) (c : Nat) (m : Msg) (r : Int × Nat × Msg) (h : sealMsg mv c m = some r) : Code r.1 := by
  unfold sealMsg at h
  split at h
  · cases h; exact code0
  · split at h
    · cases h; exact codeInval
    · simp only at h
      split at h
      · cases h; exact code0
      · simp only [Option.bind_eq_bind, Option.bind_eq_some_iff] at h
        obtain ⟨x, hx, h⟩ := h
        split at h
        · cases h; exact serializeCommon_code _ _ _ hx
        · cases h; exact code0

theorem appendBodyLines_code (mv : Moves) (l : List (List Byte)) : ∀ m : Msg, Code (appendBodyLines mv m l).1 := by
  induction l with
  | nil => intro m; exact code0
  | cons a t ih =>
    intro m
    unfold appendBodyLines
    simp only
    split
    · exact appendHeaderLine_code _ _ _
    · exact ih _

theorem appendBody_code (mv : Moves) (m : Msg) (b : List Byte) (r : Int × Msg) (h : appendBody mv m b = some r) : Code r.1 := by
  unfold appendBody at h
  split at h
  · cases h; exact code0
  · simp only [Option.bind_eq_bind, Option.bind_eq_some_iff] at h
    obtain ⟨ct, _, h⟩ := h
    split at h
    · cases h; exact code0
    · split at h
      · cases h; exact openBody_code _
      · split at h
        · cases h; exact appendBodyLines_code _ _ _
        · cases h; exact closeBody_code _

theorem parserAppendHeader_code (env : Env) (d : Parser) (m : Msg) (l : List Byte) (r : Int × Parser)
    (h : parserAppendHeader env d m l = some r) : Code r.1 := by
  unfold parserAppendHeader at h
  simp only at h
  split at h
  · cases h; exact appendHeaderLine_code _ _ _
  · simp only [Option.bind_eq_bind, Option.bind_eq_some_iff] at h
    obtain ⟨x, _, h⟩ := h
    split at h
    · split at h
      · cases h; exact codeInval
      · split at h
        · cases h; exact codeInval
        · cases h; exact atoiZn_code _
    · split at h
      · split at h
        · cases h; exact appendHeaderLine_code _ _ _
        · cases h; exact atoiZn_code _
      · cases h; exact appendHeaderLine_code _ _ _

theorem finish_code (env : Env) (d : Parser) (r : Int × Parser) (h : finishHeaderLine env d = some r) : Code r.1 := by
  unfold finishHeaderLine at h
  simp only [Option.bind_eq_bind, Option.bind_eq_some_iff] at h
  obtain ⟨raw, _, h⟩ := h
  split at h
  · split at h
    · cases h; exact code0
    · cases h; exact codeInval
  · exact parserAppendHeader_code _ _ _ _ _ h

/-- A code of the parser: its own, or what a callback returned for the message delivered last. -/
def PCode (env : Env) (r : Int × Bus) : Prop :=
  Code r.1 ∨ r.1 < 0 ∧ ∃ log m, r.2.log = log ++ [m] ∧ r.1 = (env.H log m).1

theorem incoming_code (env : Env) (b : Bus) (m : Msg) : PCode env (incoming env b m) := by
  unfold incoming PCode
  simp only
  split
  · rename_i h; exact Or.inr ⟨h, b.log, m, rfl, rfl⟩
  · exact Or.inl code0

theorem submit_code (env : Env) (b : Bus) (r : Int × Bus) (h : submit env b = some r) : PCode env r := by
  unfold submit at h
  split at h
  · cases h; exact Or.inl code0
  · simp only [Option.bind_eq_bind, Option.bind_eq_some_iff] at h
    obtain ⟨s, hs, h⟩ := h
    split at h
    · cases h; exact Or.inl (sealMsg_code _ _ _ _ hs)
    · cases h; exact incoming_code _ _ _

theorem submitData_code (env : Env) (b : Bus) (p : List Byte) (r : Int × Bus) (h : submitData env b p = some r) : PCode env r := by
  unfold submitData at h
  split at h
  · cases h; exact Or.inl codeInval
  · simp only [Option.bind_eq_bind, Option.bind_eq_some_iff] at h
    obtain ⟨s, hs, h⟩ := h
    split at h
    · cases h; exact Or.inl (sealMsg_code _ _ _ _ hs)
    · cases h; exact incoming_code _ _ _

theorem headerEnd_code (env : Env) (b : Bus) (d : Parser) (s0 s1 : PState) (r : Int × Bus) (h : headerEnd env b d s0 s1 = some r) :
    PCode env r := by
  unfold headerEnd at h
  simp only [Option.bind_eq_bind, Option.bind_eq_some_iff] at h
  obtain ⟨x, hx, h⟩ := h
  split at h
  · cases h; exact Or.inl (finish_code _ _ _ hx)
  · split at h
    · exact submit_code _ _ _ h
    · cases h; exact Or.inl code0

theorem feedHeader_code (env : Env) (b : Bus) (c : Byte) (r : Int × Bus) (h : feedHeader env b c = some r) : PCode env r := by
  unfold feedHeader at h
  simp only at h
  split at h
  · split at h
    · exact headerEnd_code _ _ _ _ _ _ h
    · cases h; exact Or.inl code0
  · split at h
    · split at h
      · exact headerEnd_code _ _ _ _ _ _ h
      · cases h; exact Or.inl code0
    · split at h
      · cases h; exact Or.inl code0
      · split at h
        · simp only [Option.bind_eq_bind, Option.bind_eq_some_iff] at h
          obtain ⟨x, hx, h⟩ := h
          split at h
          · cases h; exact Or.inl (finish_code _ _ _ hx)
          · cases h; exact Or.inl code0
        · cases h; exact Or.inl code0

theorem reset_code (env : Env) (r : Int × Bus) (h : PCode env r) : PCode env (reset r) := by
  unfold reset PCode
  rcases h with h | ⟨h0, h⟩
  · left
    show Code (if r.1 < 0 then r.1 else 0)
    split
    · exact h
    · exact code0
  · obtain ⟨log, m, h1, h2⟩ := h
    right
    show (if r.1 < 0 then r.1 else 0) < 0 ∧ _
    rw [if_pos h0]
    exact ⟨h0, log, m, h1, h2⟩

theorem bodyDone_code (env : Env) (b : Bus) (r : Int × Bus) (h : bodyDone env b = some r) : PCode env r := by
  unfold bodyDone at h
  split at h
  · cases h; exact Or.inl code0
  · simp only [Option.bind_eq_bind, Option.bind_eq_some_iff] at h
    obtain ⟨raw, _, a, ha, h⟩ := h
    split at h
    · exact submit_code _ _ _ h
    · cases h; exact Or.inl (appendBody_code _ _ _ _ ha)

theorem feedBody_code (env : Env) (b : Bus) (c : Byte) (r : Int × Bus) (h : feedBody env b c = some r) : PCode env r := by
  unfold feedBody at h
  split at h
  · cases h; exact Or.inl code0
  · simp only at h
    split at h
    · cases h; exact Or.inl code0
    · simp only [Option.map_eq_some_iff] at h
      obtain ⟨x, hx, h⟩ := h
      cases h; exact reset_code _ _ (bodyDone_code _ _ _ hx)

theorem feedNl_code (env : Env) (b : Bus) (c : Byte) (r : Int × Bus) (h : feedNl env b c = some r) : PCode env r := by
  unfold feedNl at h
  split at h
  · cases h; exact Or.inl code0
  · exact feedBody_code _ _ _ _ h

theorem feedDataBody_code (env : Env) (b : Bus) (r : Int × Bus) (h : feedDataBody env b = some r) : PCode env r := by
  unfold feedDataBody at h
  simp only at h
  split at h
  · simp only [Option.bind_eq_bind, Option.bind_eq_some_iff] at h
    obtain ⟨p, _, x, hx, h⟩ := h
    cases h; exact reset_code _ _ (submitData_code _ _ _ _ hx)
  · cases h; exact Or.inl code0

theorem feedChar_code (env : Env) (b : Bus) (c : Byte) (r : Int × Bus) (h : feedChar env b c = some r) : PCode env r := by
  unfold feedChar at h
  cases hs : b.dec.state with
  | new => rw [hs] at h; cases h; exact Or.inl code0
  | header => rw [hs] at h; exact feedHeader_code _ _ _ _ h
  | headerQuote => rw [hs] at h; cases h; exact Or.inl code0
  | headerNl => rw [hs] at h; exact feedNl_code _ _ _ _ h
  | body => rw [hs] at h; exact feedBody_code _ _ _ _ h
  | dataHead =>
    rw [hs] at h
    simp only [Option.map_eq_some_iff] at h
    obtain ⟨x, _, h⟩ := h
    cases h; exact Or.inl code0
  | dataBody => rw [hs] at h; exact feedDataBody_code _ _ _ h

end Verif.Rtsp
