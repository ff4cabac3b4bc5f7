import Verif.Proof.RtspLog
/-! What building and sealing a message leaves alone: helper lemmas. -/
namespace Verif.Rtsp
open Verif.C

/-- The fields the builder does not touch. -/
def fixed (m : Msg) :=
  (m.type, m.cookie, m.major, m.minor, m.head, m.method, m.uri, m.code, m.phrase, m.channel, m.payload, m.raw, m.isUsed, m.isSealed, m.body)

theorem grow_fixed (mv : Moves) (m : Msg) : fixed (grow mv m) = fixed m := by
  unfold grow; split <;> rfl

theorem push_fixed (mv : Moves) (m : Msg) (h : Header) : fixed (pushHeader mv m h) = fixed m := by
  unfold pushHeader
  split
  · rfl
  · exact grow_fixed mv m

theorem appendHeader_fixed (mv : Moves) (m : Msg) (k v : List Byte) (n : Nat) (l : Option (List Byte)) :
    fixed (appendHeader mv m k v n l).2 = fixed m := by
  unfold appendHeader
  split
  · rfl
  · split
    · simp only
      split
      · rfl
      · exact grow_fixed mv m
    · exact push_fixed mv m _

theorem setIter_fixed (m : Msg) (h : Header) : fixed (setIter m h) = fixed m := by
  unfold setIter
  split
  · rfl
  · split <;> rfl

theorem closeHeader_fixed (m : Msg) (r : Int × Msg) (h : closeHeader m = some r) : fixed r.2 = fixed m := by
  unfold closeHeader at h
  split at h
  · cases h; rfl
  · split at h
    · cases h; rfl
    · split at h
      · cases h; rfl
      · simp only [Option.bind_eq_bind, Option.bind_eq_some_iff] at h
        obtain ⟨x, _, h⟩ := h
        cases h
        exact setIter_fixed m _

theorem openBody_fixed (m : Msg) : fixed (openBody m).2 = fixed m := by
  unfold openBody; repeat' split
  all_goals rfl

theorem closeBody_fixed (m : Msg) : fixed (closeBody m).2 = fixed m := by
  unfold closeBody; repeat' split
  all_goals rfl

theorem openHeader_fixed (mv : Moves) (m : Msg) (n : List Byte) : fixed (openHeader mv m n).2 = fixed m := by
  unfold openHeader
  split
  · rfl
  · split
    · rfl
    · split
      · rfl
      · simp only
        split
        · exact appendHeader_fixed mv m _ _ _ _
        · exact appendHeader_fixed mv m _ _ _ _

theorem appendLine_fixed (mv : Moves) (m : Msg) (l : List Byte) : fixed (appendLine mv m l).2 = fixed m := by
  unfold appendLine appendHeaderLine
  split
  · rfl
  · split
    · rfl
    · split
      · rfl
      · exact appendHeader_fixed mv m _ _ _ _

theorem appendTok_fixed (m : Msg) (s : List Byte) (r : Int × Msg) (h : appendTok m s = some r) : fixed r.2 = fixed m := by
  unfold appendTok at h
  split at h
  · cases h; rfl
  · simp only [Option.bind_eq_bind, Option.bind_eq_some_iff] at h
    obtain ⟨x, _, h⟩ := h
    cases h
    exact setIter_fixed m _

theorem appendBasic_fixed (mv : Moves) (m : Msg) (a : Arg) (r : Int × Msg) (h : appendBasic mv m a = some r) : fixed r.2 = fixed m := by
  unfold appendBasic at h
  split at h
  · cases h; rfl
  · split at h
    · cases h; rfl
    · cases a with
      | raw s =>
        simp only at h
        split at h
        · simp only [Option.bind_eq_bind, Option.bind_eq_some_iff] at h
          obtain ⟨x, _, h⟩ := h
          cases h
          exact setIter_fixed m _
        · cases h; exact appendLine_fixed mv m s
      | headerStart n => cases h; exact openHeader_fixed mv m n
      | headerEnd => exact closeHeader_fixed m r h
      | bodyStart => cases h; exact openBody_fixed m
      | bodyEnd => cases h; exact closeBody_fixed m
      | str s => exact appendTok_fixed m _ r h
      | i32 i => exact appendTok_fixed m _ r h
      | u32 n => exact appendTok_fixed m _ r h
      | other => cases h; rfl

theorem append_fixed (mv : Moves) (as : List Arg) : ∀ (m : Msg) (r : Int × Msg), append mv m as = some r → fixed r.2 = fixed m := by
  induction as with
  | nil =>
    intro m r h
    unfold append at h
    split at h
    · cases h; rfl
    · split at h <;> (cases h; rfl)
  | cons a t ih =>
    intro m r h
    unfold append at h
    simp only [Option.bind_eq_bind, Option.bind_eq_some_iff] at h
    obtain ⟨x, hx, h⟩ := h
    have h1 := appendBasic_fixed mv m a x hx
    split at h
    · cases h; exact h1
    · split at h
      · cases h; exact h1
      · rw [ih _ _ h, h1]

theorem special_fixed (mv : Moves) (m : Msg) (p : Option Ptr) (n : List Byte) (a : Arg) (t : List Byte) (r : Int × Msg)
    (h : special mv m p n a t = some r) : fixed r.2 = fixed m := by
  unfold special at h
  cases p with
  | some p =>
    simp only [Option.map_eq_some_iff] at h
    obtain ⟨x, hx, h⟩ := h
    cases h
    unfold rewrite at hx
    split at hx
    · simp only [Option.bind_eq_bind, Option.bind_eq_some_iff] at hx
      obtain ⟨_, _, hx⟩ := hx
      cases hx; rfl
    · cases hx
  | none =>
    simp only [Option.bind_eq_bind, Option.bind_eq_some_iff] at h
    obtain ⟨x, hx, h⟩ := h
    rw [append_fixed mv _ _ _ h, closeBody_fixed, closeHeader_fixed m x hx]

theorem step_fixed (c : Prop) [Decidable c] (x y : Option (Int × Msg)) (m : Msg) (r : Int × Msg)
    (hx : ∀ r, x = some r → fixed r.2 = fixed m) (hy : ∀ r, y = some r → fixed r.2 = fixed m) (h : (if c then x else y) = some r) :
    fixed r.2 = fixed m := by
  split at h
  · exact hx r h
  · exact hy r h

theorem some_fixed (m : Msg) (r : Int × Msg) (h : some ((0 : Int), m) = some r) : fixed r.2 = fixed m := by cases h; rfl

theorem serialize_fixed (mv : Moves) (m : Msg) (r : Int × Msg) (h : serializeCommon mv m = some r) :
    r.2.type = m.type ∧ r.2.cookie = m.cookie ∧ r.2.isUsed = m.isUsed := by
  unfold serializeCommon at h
  simp only [Option.bind_eq_bind, Option.bind_eq_some_iff] at h
  obtain ⟨hd, _, cb, _, r1, h1, h⟩ := h
  have f1 := step_fixed _ _ _ m r1 (fun r => special_fixed mv m _ _ _ _ r) (some_fixed m) h1
  have pick : ∀ x y : Msg, fixed x = fixed y → x.type = y.type ∧ x.cookie = y.cookie ∧ x.isUsed = y.isUsed := by
    intro x y e
    unfold fixed at e
    simp only [Prod.mk.injEq] at e
    exact ⟨e.1, e.2.1, e.2.2.2.2.2.2.2.2.2.2.2.2.1⟩
  split at h
  · cases h; exact pick _ _ f1
  · simp only [Option.bind_eq_some_iff] at h
    obtain ⟨r2, h2, h⟩ := h
    have f2 := step_fixed _ _ _ r1.2 r2 (fun r => special_fixed mv r1.2 _ _ _ _ r) (some_fixed r1.2) h2
    split at h
    · cases h; exact pick _ _ (f2.trans f1)
    · simp only [Option.bind_eq_some_iff] at h
      obtain ⟨r3, h3, h⟩ := h
      have f3 := special_fixed mv r2.2 _ _ _ _ r3 h3
      split at h
      · cases h; exact pick _ _ (f3.trans (f2.trans f1))
      · simp only [Option.bind_eq_some_iff] at h
        obtain ⟨hs, _, h⟩ := h
        cases h
        exact pick r3.2 m (f3.trans (f2.trans f1))

/-- What sealing does to type, cookie and the counter. -/
theorem seal_cookie (mv : Moves) (ck : Nat) (m : Msg) (r : Int × Nat × Msg) (h : sealMsg mv ck m = some r) :
    r.2.2.type = m.type ∧ r.2.2.isUsed = m.isUsed ∧
    ((r.2.1 = ck ∧ r.2.2 = m) ∨
     (m.isSealed = false ∧ r.2.1 = (if m.cookie = 0 then nextCookie ck else ck) ∧
       r.2.2.cookie = (if m.type = .reply then remote (if m.cookie = 0 then nextCookie ck else m.cookie)
         else if m.cookie = 0 then nextCookie ck else m.cookie))) := by
  unfold sealMsg at h
  split at h
  · cases h; exact ⟨rfl, rfl, Or.inl ⟨rfl, rfl⟩⟩
  · rename_i hs
    split at h
    · cases h; exact ⟨rfl, rfl, Or.inl ⟨rfl, rfl⟩⟩
    · simp only at h
      have e : ∀ c : Nat, (if m.cookie = 0 then (if m.cookie = 0 then nextCookie ck else ck) else c) = if m.cookie = 0 then nextCookie ck else c := by
        intro c; split <;> rfl
      split at h
      · cases h
        exact ⟨rfl, rfl, Or.inr ⟨by simpa using hs, rfl, by show (if _ then _ else _) = _; rw [e]⟩⟩
      · simp only [Option.bind_eq_bind, Option.bind_eq_some_iff] at h
        obtain ⟨x, hx, h⟩ := h
        obtain ⟨a, b, c⟩ := serialize_fixed mv _ x hx
        split at h
        · cases h
          exact ⟨a, c, Or.inr ⟨by simpa using hs, rfl, by rw [b]; show (if _ then _ else _) = _; rw [e]⟩⟩
        · cases h
          exact ⟨a, c, Or.inr ⟨by simpa using hs, rfl, by show x.2.cookie = _; rw [b]; show (if _ then _ else _) = _; rw [e]⟩⟩

end Verif.Rtsp
